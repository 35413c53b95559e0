import Verif.Props.C24
import Mathlib.Data.Fintype.BigOperators
import Mathlib.Tactic.IntervalCases

/-!
# C60: the curve does not depend on how a crystal is described

`Same`: the two phases describe the same crystal. The second one may have its cell, or its number of cells, enlarged by `n` along the edges
with the atoms repeated, any order of the atoms, any image of each atom (`w`), any origin (`o`).
-/

namespace Pdffit.C60
open Det Bonds Geom Parser C24

/-- The boxes of the larger cell. -/
abbrev Box (n : Fin 3 → ℕ) := ∀ k, Fin (n k)

/-- The components of a translation. -/
def co (T : ℤ × ℤ × ℤ) (k : Fin 3) : ℤ := ![T.1, T.2.1, T.2.2] k

/-- The two phases, with their selections, describe the same crystal. -/
structure Same (ph ph' : PPhase) (s s' : Sel) (n : Fin 3 → ℕ) (e : Fin ph'.atom.length ≃ Fin ph.atom.length × Box n)
    (w : Fin ph'.atom.length → Fin 3 → ℤ) (o : Fin 3 → ℝ) : Prop where
  pos_n : ∀ k, 0 < n k
  win : ph'.cell.win = ph.cell.win
  period : ∀ k, ph'.cell.a0 k * ph'.icc k = n k * (ph.cell.a0 k * ph.icc k)
  pos : ∀ (i : Fin ph'.atom.length) (k : Fin 3), ph'.cell.a0 k * (ph'.atm i).pos k =
    ph.cell.a0 k * ((ph.atm (e i).1).pos k + o k + ph.icc k * (((e i).2 k : ℕ) + n k * w i k))
  occ : ∀ i : Fin ph'.atom.length, (ph'.atm i).occ = (ph.atm (e i).1).occ
  u : ∀ i : Fin ph'.atom.length, (ph'.atm i).u = (ph.atm (e i).1).u
  sf : ∀ i : Fin ph'.atom.length, (ph'.atm i).sf = (ph.atm (e i).1).sf
  igI : ∀ i : Fin ph'.atom.length, s'.igI i = s.igI (e i).1
  igJ : ∀ i : Fin ph'.atom.length, s'.igJ i = s.igJ (e i).1
  rest : ph'.delta2 = ph.delta2 ∧ ph'.delta1 = ph.delta1 ∧ ph'.rcut = ph.rcut ∧ ph'.sratio = ph.sratio ∧
    ph'.stepcut = ph.stepcut ∧ ph'.spdiameter = ph.spdiameter ∧ ph'.pscale = ph.pscale

/-! ## Vectors in the two cells -/

theorem edge_angle (c : Cell) (he : ∀ k, 0 < c.a0 k) (hv : 0 < voll c) (i : Fin 3) :
    recEdge c i * c.a0 i = bsind (c.win i) / √(voll c) := by
  have p0 := he 0
  have p1 := he 1
  have p2 := he 2
  have hs : 0 < √(voll c) := Real.sqrt_pos.2 hv
  have hp : c.a0 (i + 1) * c.a0 (i + 2) * c.a0 i = c.a0 0 * c.a0 1 * c.a0 2 := by
    have : ∀ x : Fin 3 → ℝ, x (i + 1) * x (i + 2) * x i = x 0 * x 1 * x 2 := by
      intro x
      have e : x (i + 1) * x (i + 2) * x i = ∏ k, x k := by
        rw [Fin.prod_univ_three]
        revert i
        intro i
        match i with
        | 0 => rw [show (0 : Fin 3) + 1 = 1 from rfl, show (0 : Fin 3) + 2 = 2 from rfl]; ring
        | 1 => rw [show (1 : Fin 3) + 1 = 2 from rfl, show (1 : Fin 3) + 2 = 0 from rfl]; ring
        | 2 => rw [show (2 : Fin 3) + 1 = 0 from rfl, show (2 : Fin 3) + 2 = 1 from rfl]
      rw [e, Fin.prod_univ_three]
    exact this c.a0
  unfold recEdge vol
  rw [div_mul_eq_mul_div, div_eq_div_iff (by positivity) hs.ne']
  linear_combination bsind (c.win i) * √(voll c) * hp

section
variable {ph ph' : PPhase} (F : C19.Fine ph.toPhs) (F' : C19.Fine ph'.toPhs) (hw : ph'.cell.win = ph.cell.win)

/-- Cosines between the edges. -/
noncomputable def cosm (win : Fin 3 → ℝ) (i j : Fin 3) : ℝ := if i = j then 1 else bcosd (win (third i j))

theorem gten_cos (F : C19.Fine ph.toPhs) (i j : Fin 3) :
    ph.toPhs.gten i j = ph.cell.a0 i * ph.cell.a0 j * cosm ph.cell.win i j := by
  have := C45.tensor_eq F.small i j
  show tensor ph.cell.a0 ph.cell.win i j = _
  have e : tensor ph.cell.a0 ph.cell.win i j = _ := this
  rw [e]
  unfold cosm
  split_ifs
  · rw [mul_one]; rfl
  · rfl

include F F' hw

theorem skal_same {v v' : Fin 3 → ℝ} (hv : ∀ k, ph'.cell.a0 k * v' k = ph.cell.a0 k * v k) :
    ph'.toPhs.skal v' v' = ph.toPhs.skal v v := by
  unfold Phs.skal skalpro
  refine Finset.sum_congr rfl fun i _ => Finset.sum_congr rfl fun j _ => ?_
  rw [gten_cos F, gten_cos F', hw]
  have h1 := hv i
  have h2 := hv j
  calc v' i * v' j * (ph'.cell.a0 i * ph'.cell.a0 j * cosm ph.cell.win i j)
      = (ph'.cell.a0 i * v' i) * (ph'.cell.a0 j * v' j) * cosm ph.cell.win i j := by ring
    _ = _ := by rw [h1, h2]; ring

/-- `ar[i]*a0[i]` depends on the angles only. -/
theorem edge_same (i : Fin 3) : recEdge ph'.cell i * ph'.cell.a0 i = recEdge ph.cell i * ph.cell.a0 i := by
  have h1 := edge_angle ph.toPhs.cell F.edge (C19.voll_pos F) i
  have h2 := edge_angle ph'.toPhs.cell F'.edge (C19.voll_pos F') i
  rw [show ph.toPhs.cell = ph.cell from rfl] at h1
  rw [show ph'.toPhs.cell = ph'.cell from rfl] at h2
  rw [h1, h2]
  unfold voll
  rw [hw]

theorem msd_same {a b a' b' : PAtom} (ha : a'.u = a.u) (hb : b'.u = b.u) {v v' : Fin 3 → ℝ}
    (hv : ∀ k, ph'.cell.a0 k * v' k = ph.cell.a0 k * v k) : ph'.msd a' b' v' = ph.msd a b v := by
  have hn := skal_same F F' hw hv
  set N := √(ph.toPhs.skal v v) with hN
  have hr : ∀ i, recEdge ph'.cell i * ∑ j, ph'.toPhs.gten i j * (v' j / N) = recEdge ph.cell i * ∑ j, ph.toPhs.gten i j * (v j / N) := by
    intro i
    have e : ∀ {p : PPhase} (G : C19.Fine p.toPhs) (x : Fin 3 → ℝ), recEdge p.cell i * ∑ j, p.toPhs.gten i j * (x j / N) =
        recEdge p.cell i * p.cell.a0 i * ∑ j, cosm p.cell.win i j * (p.cell.a0 j * x j / N) := by
      intro p G x
      rw [mul_assoc, Finset.mul_sum (a := p.cell.a0 i)]
      congr 1
      refine Finset.sum_congr rfl fun j _ => ?_
      rw [gten_cos G]
      ring
    rw [e F, e F', edge_same F F' hw, hw]
    simp only [hv]
  unfold PPhase.msd
  dsimp only
  rw [hn, ← hN, ha, hb]
  set r := fun i => ∑ j, ph.toPhs.gten i j * (v j / N)
  set r' := fun i => ∑ j, ph'.toPhs.gten i j * (v' j / N)
  have h0 : recEdge ph'.cell 0 * r' 0 = recEdge ph.cell 0 * r 0 := hr 0
  have h1 : recEdge ph'.cell 1 * r' 1 = recEdge ph.cell 1 * r 1 := hr 1
  have h2 : recEdge ph'.cell 2 * r' 2 = recEdge ph.cell 2 * r 2 := hr 2
  have q : ∀ (c : PPhase) (x : Fin 3 → ℝ),
      (a.u 0 + b.u 0) * recEdge c.cell 0 * recEdge c.cell 0 * x 0 * x 0 + (a.u 1 + b.u 1) * recEdge c.cell 1 * recEdge c.cell 1 * x 1 * x 1 +
        (a.u 2 + b.u 2) * recEdge c.cell 2 * recEdge c.cell 2 * x 2 * x 2 +
        2 * ((a.u 3 + b.u 3) * recEdge c.cell 0 * recEdge c.cell 1) * x 0 * x 1 +
        2 * ((a.u 4 + b.u 4) * recEdge c.cell 0 * recEdge c.cell 2) * x 0 * x 2 +
        2 * ((a.u 5 + b.u 5) * recEdge c.cell 1 * recEdge c.cell 2) * x 1 * x 2 =
      (a.u 0 + b.u 0) * (recEdge c.cell 0 * x 0) ^ 2 + (a.u 1 + b.u 1) * (recEdge c.cell 1 * x 1) ^ 2 +
        (a.u 2 + b.u 2) * (recEdge c.cell 2 * x 2) ^ 2 +
        2 * (a.u 3 + b.u 3) * (recEdge c.cell 0 * x 0) * (recEdge c.cell 1 * x 1) +
        2 * (a.u 4 + b.u 4) * (recEdge c.cell 0 * x 0) * (recEdge c.cell 2 * x 2) +
        2 * (a.u 5 + b.u 5) * (recEdge c.cell 1 * x 1) * (recEdge c.cell 2 * x 2) := by
    intro c x
    ring
  exact (q ph' r').trans (by rw [h0, h1, h2]; exact (q ph r).symm)

end

/-! ## Events -/

section
variable {ph ph' : PPhase} {s s' : Sel} {n : Fin 3 → ℕ} {e : Fin ph'.atom.length ≃ Fin ph.atom.length × Box n}
  {w : Fin ph'.atom.length → Fin 3 → ℤ} {o : Fin 3 → ℝ} (Q : Same ph ph' s s' n e w o) (F : C19.Fine ph.toPhs)
  (F' : C19.Fine ph'.toPhs)

/-- The translation in the smaller cell that belongs to a pair of atoms and a translation of the larger one. -/
def tr (n : Fin 3 → ℕ) (a b : Box n) (wa wb : Fin 3 → ℤ) (T : Fin 3 → ℤ) (k : Fin 3) : ℤ :=
  n k * T k - ((a k : ℕ) - (b k : ℕ)) - n k * (wa k - wb k)

def toT (x : Fin 3 → ℤ) : ℤ × ℤ × ℤ := (x 0, x 1, x 2)

theorem co_toT (x : Fin 3 → ℤ) (k : Fin 3) : co (toT x) k = x k := by fin_cases k <;> rfl
theorem toT_co (T : ℤ × ℤ × ℤ) : toT (co T) = T := rfl

/-- The translation for atoms `i`, `j` of the second phase. -/
def trans (e : Fin ph'.atom.length ≃ Fin ph.atom.length × Box n) (w : Fin ph'.atom.length → Fin 3 → ℤ) (i j : Fin ph'.atom.length)
    (T : ℤ × ℤ × ℤ) : ℤ × ℤ × ℤ := toT (tr n (e i).2 (e j).2 (w i) (w j) (co T))

include Q

theorem dd_same (i j : Fin ph'.atom.length) (T : ℤ × ℤ × ℤ) (k : Fin 3) :
    ph'.cell.a0 k * dd ph' (ph'.atm i) (ph'.atm j) T k =
      ph.cell.a0 k * dd ph (ph.atm (e i).1) (ph.atm (e j).1) (trans e w i j T) k := by
  show ph'.cell.a0 k * ((ph'.atm i).pos k - (ph'.atm j).pos k - ((co T k : ℤ) : ℝ) * ph'.icc k) =
    ph.cell.a0 k * ((ph.atm (e i).1).pos k - (ph.atm (e j).1).pos k - ((co (trans e w i j T) k : ℤ) : ℝ) * ph.icc k)
  rw [trans, co_toT, tr]
  push_cast
  have h1 := Q.pos i k
  have h2 := Q.pos j k
  have h3 := Q.period k
  linear_combination h1 - h2 - (co T k : ℝ) * h3

include F F'

theorem event_same (D : Data) (i j : Fin ph'.atom.length) (T : ℤ × ℤ × ℤ) :
    event D ph' (ph'.atm i) (ph'.atm j) T = event D ph (ph.atm (e i).1) (ph.atm (e j).1) (trans e w i j T) := by
  have h1 := skal_same F F' Q.win (dd_same Q i j T)
  have h2 := msd_same F F' Q.win (Q.u i) (Q.u j) (dd_same Q i j T)
  obtain ⟨r1, r2, r3, r4, -⟩ := Q.rest
  unfold event
  dsimp only
  rw [h1, h2]
  unfold sigma corfact
  rw [r1, r2, r3, r4]

theorem term_same (D : Data) (i j : Fin ph'.atom.length) (amp : ℝ) (T : ℤ × ℤ × ℤ) (ig : ℤ) :
    term D ph' (ph'.atm i) (ph'.atm j) amp T ig = term D ph (ph.atm (e i).1) (ph.atm (e j).1) amp (trans e w i j T) ig := by
  obtain ⟨r1, r2, r3, r4, r5, -⟩ := Q.rest
  unfold term
  rw [event_same Q F F']
  cases event D ph (ph.atm (e i).1) (ph.atm (e j).1) (trans e w i j T) with
  | skip => rfl
  | nan => rfl
  | peak d g =>
    dsimp only
    unfold ie
    rw [r5]

end

/-! ## Sums over translations -/

theorem trans_bijective {ph ph' : PPhase} {n : Fin 3 → ℕ} (hn : ∀ k, 0 < n k)
    (e : Fin ph'.atom.length ≃ Fin ph.atom.length × Box n) (w : Fin ph'.atom.length → Fin 3 → ℤ) (i : Fin ph'.atom.length)
    (j : Fin ph.atom.length) :
    Function.Bijective fun x : Box n × (ℤ × ℤ × ℤ) => trans e w i (e.symm (j, x.1)) x.2 := by
  have hc : ∀ (x : Box n × (ℤ × ℤ × ℤ)) (k : Fin 3), co (trans e w i (e.symm (j, x.1)) x.2) k =
      n k * co x.2 k - (((e i).2 k : ℕ) - (x.1 k : ℕ)) - n k * (w i k - w (e.symm (j, x.1)) k) := by
    intro x k
    rw [trans, co_toT, tr, Equiv.apply_symm_apply]
  constructor
  · rintro ⟨d1, T1⟩ ⟨d2, T2⟩ h
    have hk : ∀ k, (n k : ℤ) * (co T1 k + w (e.symm (j, d1)) k) + (d1 k : ℕ) = n k * (co T2 k + w (e.symm (j, d2)) k) + (d2 k : ℕ) := by
      intro k
      have h1 := hc (d1, T1) k
      have h2 := hc (d2, T2) k
      dsimp only at h h1 h2
      rw [h, h2] at h1
      linarith
    have hd : d1 = d2 := by
      funext k
      have h1 := congrArg (· % (n k : ℤ)) (hk k)
      simp only [Int.mul_add_emod_self_left] at h1
      have b1 := (d1 k).2
      have b2 := (d2 k).2
      rw [Int.emod_eq_of_lt (by omega) (by omega), Int.emod_eq_of_lt (by omega) (by omega)] at h1
      exact Fin.ext (by exact_mod_cast h1)
    subst hd
    have ht : ∀ k, co T1 k = co T2 k := by
      intro k
      have h1 := hk k
      have hp : (n k : ℤ) ≠ 0 := by have := hn k; omega
      have h2 : (n k : ℤ) * co T1 k = n k * co T2 k := by linarith
      exact mul_left_cancel₀ hp h2
    rw [← toT_co T1, ← toT_co T2, funext ht]
  · intro T
    let d : Box n := fun k => ⟨((co T k + ((e i).2 k : ℕ)) % (n k : ℤ)).toNat, by
      have hp := hn k
      have h1 := Int.emod_nonneg (co T k + ((e i).2 k : ℕ)) (b := n k) (by omega)
      have h2 := Int.emod_lt_of_pos (co T k + ((e i).2 k : ℕ)) (b := n k) (by omega)
      omega⟩
    have hd : ∀ k, ((d k : ℕ) : ℤ) = (co T k + ((e i).2 k : ℕ)) % (n k : ℤ) := by
      intro k
      have h1 := Int.emod_nonneg (co T k + ((e i).2 k : ℕ)) (b := n k) (by have := hn k; omega)
      exact Int.toNat_of_nonneg h1
    refine ⟨(d, toT fun k => (co T k + ((e i).2 k : ℕ)) / (n k : ℤ) + w i k - w (e.symm (j, d)) k), ?_⟩
    have : ∀ k, co (trans e w i (e.symm (j, d)) (toT fun k => (co T k + ((e i).2 k : ℕ)) / (n k : ℤ) + w i k - w (e.symm (j, d)) k)) k =
        co T k := by
      intro k
      rw [hc (d, _) k, co_toT, hd k]
      have := Int.mul_ediv_add_emod (co T k + ((e i).2 k : ℕ)) (n k)
      linarith
    dsimp only
    rw [← toT_co (trans e w i (e.symm (j, d)) _), funext this, toT_co]

theorem sum_trans {ph ph' : PPhase} {n : Fin 3 → ℕ} (hn : ∀ k, 0 < n k)
    (e : Fin ph'.atom.length ≃ Fin ph.atom.length × Box n) (w : Fin ph'.atom.length → Fin 3 → ℤ) (i : Fin ph'.atom.length)
    (j : Fin ph.atom.length) (f : ℤ × ℤ × ℤ → ℝ) (hf : (Function.support f).Finite) :
    ∑ d : Box n, ∑ᶠ T, f (trans e w i (e.symm (j, d)) T) = ∑ᶠ T, f T := by
  have hb := trans_bijective hn e w i j
  rw [← finsum_comp _ hb, finsum_curry, finsum_eq_sum_of_fintype]
  show (Function.support (f ∘ fun x : Box n × (ℤ × ℤ × ℤ) => trans e w i (e.symm (j, x.1)) x.2)).Finite
  rw [Function.support_comp_eq_preimage]
  exact hf.preimage hb.injective.injOn

section
variable {ph : PPhase} (D : Data) (F : C19.Fine ph.toPhs) (N : Near ph) (hs : ph.stepcut ≤ 0)
include F N hs

/-- Without step cut an event is inside the sphere. -/
theorem in_ball {i j : ℕ} (hi : i < ph.atom.length) (hj : j < ph.atom.length) {T : ℤ × ℤ × ℤ}
    (he : event D ph (ph.atm i) (ph.atm j) T ≠ .skip) : T ∈ ball D ph := by
  have h3 := Real.sqrt_le_sqrt (event_range he).2
  have h4 := (tri F i j T).1
  have h5 := N i j hi hj
  show tlen ph T < (if 0 < ph.stepcut then _ else _)
  rw [if_neg (not_lt.2 hs)]
  linarith

theorem term_support {i j : ℕ} (hi : i < ph.atom.length) (hj : j < ph.atom.length) (amp : ℝ) (ig : ℤ) :
    (Function.support fun T => term D ph (ph.atm i) (ph.atm j) amp T ig).Finite := by
  refine ((Sphere.points (sphere D ph)).finite_toSet).subset fun T hT => ?_
  have he : event D ph (ph.atm i) (ph.atm j) T ≠ .skip := by
    intro h0
    apply hT
    show term D ph (ph.atm i) (ph.atm j) amp T ig = 0
    unfold term
    rw [h0]
  exact (points_iff F N hi hj T he).2 (in_ball D F N hs hi hj he)

theorem S_all {i j : ℕ} (hi : i < ph.atom.length) (hj : j < ph.atom.length) (ig : ℤ) : S D ph i j ig =
    ∑ᶠ T, term D ph (ph.atm i) (ph.atm j) ((ph.atm i).occ * ph.weight i * ((ph.atm j).occ * ph.weight j)) T ig := by
  classical
  unfold S
  apply finsum_congr
  intro T
  rw [finsum_eq_if]
  split
  · rfl
  · rename_i hT
    by_contra hne
    apply hT
    refine in_ball D F N hs hi hj fun h0 => hne ?_
    unfold term
    rw [h0]

end

/-! ## The curve -/

section
variable {ph ph' : PPhase} {s s' : Sel} {n : Fin 3 → ℕ} {e : Fin ph'.atom.length ≃ Fin ph.atom.length × Box n}
  {w : Fin ph'.atom.length → Fin 3 → ℤ} {o : Fin 3 → ℝ} (Q : Same ph ph' s s' n e w o) (F : C19.Fine ph.toPhs)
  (F' : C19.Fine ph'.toPhs) (N : Near ph) (N' : Near ph') (hs : ph.stepcut ≤ 0)

/-- How many times the cell is repeated. -/
def mult (n : Fin 3 → ℕ) : ℕ := ∏ k, n k

theorem sum_atoms_mult (e : Fin ph'.atom.length ≃ Fin ph.atom.length × Box n) (f : ℕ → ℝ) (g : ℕ → ℝ)
    (h : ∀ i : Fin ph'.atom.length, g i = f (e i).1) :
    ∑ i ∈ Finset.range ph'.atom.length, g i = mult n * ∑ i ∈ Finset.range ph.atom.length, f i := by
  rw [Finset.sum_range, Finset.sum_range, Finset.mul_sum]
  calc ∑ i : Fin ph'.atom.length, g i = ∑ x : Fin ph.atom.length × Box n, f x.1 := by
        rw [← Equiv.sum_comp e]
        exact Finset.sum_congr rfl fun i _ => h i
    _ = _ := by
        rw [Fintype.sum_prod_type]
        refine Finset.sum_congr rfl fun i _ => ?_
        show ∑ _y : Box n, f i = _
        rw [Finset.sum_const, Finset.card_univ, nsmul_eq_mul]
        congr 2
        rw [Fintype.card_pi]
        simp [mult]

include Q

theorem mult_pos : (0 : ℝ) < mult n := by
  have : 0 < mult n := Finset.prod_pos fun k _ => Q.pos_n k
  exact_mod_cast this

theorem np_same : ph'.np = mult n * ph.np := by
  unfold PPhase.np
  rw [sum_atoms, sum_atoms]
  exact sum_atoms_mult e (fun i => (ph.atm i).occ) _ fun i => Q.occ i

theorem bavg_same : ph'.bavg = ph.bavg := by
  have h := mult_pos Q
  unfold PPhase.bavg
  rw [np_same Q, sum_atoms ph' fun a => a.occ * a.sf, sum_atoms ph fun a => a.occ * a.sf,
    sum_atoms_mult e (fun i => (ph.atm i).occ * (ph.atm i).sf) _ fun i => by rw [Q.occ i, Q.sf i], mul_div_mul_left _ _ h.ne']

theorem weight_same (i : Fin ph'.atom.length) : ph'.weight i = ph.weight (e i).1 := by
  unfold PPhase.weight
  rw [bavg_same Q, Q.sf i]

theorem ncv_same : ph'.ncv = mult n * ph.ncv := by
  have h0 := Q.period 0
  have h1 := Q.period 1
  have h2 := Q.period 2
  have hv : voll ph'.cell = voll ph.cell := by unfold voll; rw [Q.win]
  unfold PPhase.ncv vol mult
  rw [hv, Fin.prod_univ_three]
  push_cast
  calc (ph'.icc 0 : ℝ) * ph'.icc 1 * ph'.icc 2 * (√(voll ph.cell) * ph'.cell.a0 0 * ph'.cell.a0 1 * ph'.cell.a0 2)
      = √(voll ph.cell) * (ph'.cell.a0 0 * ph'.icc 0) * (ph'.cell.a0 1 * ph'.icc 1) * (ph'.cell.a0 2 * ph'.icc 2) := by ring
    _ = _ := by rw [h0, h1, h2]; ring

theorem rho0_same : ph'.rho0 = ph.rho0 := by
  unfold PPhase.rho0
  rw [np_same Q, ncv_same Q, mul_div_mul_left _ _ (mult_pos Q).ne']

theorem selected_same (i j : Fin ph'.atom.length) : Selected s' i j ↔ Selected s (e i).1 (e j).1 := by
  unfold Selected
  rw [Q.igI, Q.igI, Q.igJ, Q.igJ]

omit Q in
theorem double_mult (e : Fin ph'.atom.length ≃ Fin ph.atom.length × Box n) (f g : ℕ → ℕ → ℝ)
    (h : ∀ i j : Fin ph'.atom.length, g i j = f (e i).1 (e j).1) :
    ∑ i ∈ Finset.range ph'.atom.length, ∑ j ∈ Finset.range ph'.atom.length, g i j =
      mult n * (mult n * ∑ i ∈ Finset.range ph.atom.length, ∑ j ∈ Finset.range ph.atom.length, f i j) := by
  rw [Finset.mul_sum]
  refine sum_atoms_mult e (fun i => mult n * ∑ j ∈ Finset.range ph.atom.length, f i j) _ fun i => ?_
  exact sum_atoms_mult e (fun j => f (e i).1 j) _ fun j => h i j

theorem rtot_same : rtot ph' = mult n * (mult n * rtot ph) := by
  rw [rtot_double, rtot_double]
  exact double_mult e (fun i j => ph.weight i * ph.weight j) _ fun i j => by rw [weight_same Q, weight_same Q]

theorem ract_same : ract ph' s' = mult n * (mult n * ract ph s) := by
  classical
  rw [ract_double, ract_double]
  exact double_mult e (fun i j => if Selected s i j then ph.weight i * ph.weight j else 0) _ fun i j => by
    rw [weight_same Q, weight_same Q]
    simp only [selected_same Q]

include F F' N N' hs

theorem pairSum_same (D : Data) (ig : ℤ) : pairSum D ph' s' ig = mult n * pairSum D ph s ig := by
  classical
  have hs' : ph'.stepcut ≤ 0 := by rw [Q.rest.2.2.2.2.1]; exact hs
  rw [pairSum_full F' N', pairSum_full F N]
  simp only [selected_iff]
  refine sum_atoms_mult e (fun i => ∑ j ∈ Finset.range ph.atom.length, if Selected s i j then S D ph i j ig else 0) _ fun i => ?_
  rw [Finset.sum_range, Finset.sum_range]
  let G : Fin ph.atom.length × Box n → ℝ := fun x => if Selected s (e i).1 x.1 then ∑ᶠ T, term D ph (ph.atm (e i).1) (ph.atm x.1)
    ((ph.atm (e i).1).occ * ph.weight (e i).1 * ((ph.atm x.1).occ * ph.weight x.1)) (trans e w i (e.symm x) T) ig else 0
  have h1 : ∀ j : Fin ph'.atom.length, (if Selected s' i j then S D ph' i j ig else 0) = G (e j) := by
    intro j
    dsimp only [G]
    rw [Equiv.symm_apply_apply]
    refine if_congr (selected_same Q i j) ?_ rfl
    rw [S_all D F' N' hs' i.2 j.2]
    simp only [term_same Q F F', weight_same Q, Q.occ]
  rw [Finset.sum_congr rfl fun j _ => h1 j, Equiv.sum_comp e G, Fintype.sum_prod_type]
  refine Finset.sum_congr rfl fun j _ => ?_
  dsimp only [G]
  by_cases hsel : Selected s (e i).1 j
  · simp only [if_pos hsel]
    rw [S_all D F N hs (e i).1.2 j.2]
    exact sum_trans Q.pos_n e w i j _ (term_support D F N hs (e i).1.2 j.2 _ ig)
  · simp only [if_neg hsel, Finset.sum_const_zero]

theorem curve_same (D : Data) : curve D ph' s' = curve D ph s := by
  funext ig
  have hm := (mult_pos Q).ne'
  have e5 : envelope D ph' (D.r ig) = envelope D ph (D.r ig) := by
    obtain ⟨r1, r2, r3, r4, r5, r6, r7⟩ := Q.rest
    unfold envelope
    rw [r5, r6]
  unfold curve
  rw [pairSum_same Q F F' N N' hs, np_same Q, rho0_same Q, ract_same Q, rtot_same Q, e5, mul_div_mul_left _ _ hm,
    mul_div_mul_left _ _ hm, mul_div_mul_left _ _ hm]

theorem bad_same (D : Data) : Bad D ph' s' ↔ Bad D ph s := by
  have hs' : ph'.stepcut ≤ 0 := by rw [Q.rest.2.2.2.2.1]; exact hs
  have hm := (mult_pos Q).ne'
  unfold Bad
  rw [nan_iff F' N', nan_iff F N, np_same Q, ncv_same Q, bavg_same Q, rtot_same Q]
  simp only [mul_eq_zero, hm, false_or]
  apply or_congr _ Iff.rfl
  constructor
  · rintro ⟨i, j, T, hi, hj, hsel, hT, he⟩
    have h1 := event_same Q F F' D ⟨i, hi⟩ ⟨j, hj⟩ T
    rw [he] at h1
    exact ⟨_, _, _, (e ⟨i, hi⟩).1.2, (e ⟨j, hj⟩).1.2, (selected_same Q ⟨i, hi⟩ ⟨j, hj⟩).1 hsel,
      in_ball D F N hs (e ⟨i, hi⟩).1.2 (e ⟨j, hj⟩).1.2 (by rw [← h1]; simp), h1.symm⟩
  · rintro ⟨i, j, T, hi, hj, hsel, hT, he⟩
    let i' := e.symm (⟨i, hi⟩, fun k => ⟨0, Q.pos_n k⟩)
    have hi' : (e i').1 = ⟨i, hi⟩ := by simp [i']
    obtain ⟨⟨d, T'⟩, hT'⟩ := (trans_bijective Q.pos_n e w i' ⟨j, hj⟩).2 T
    dsimp only at hT'
    have hj' : (e (e.symm (⟨j, hj⟩, d))).1 = ⟨j, hj⟩ := by simp
    have h1 := event_same Q F F' D i' (e.symm (⟨j, hj⟩, d)) T'
    rw [hT', hi', hj'] at h1
    have h2 : event D ph' (ph'.atm i') (ph'.atm (e.symm (⟨j, hj⟩, d))) T' = .nan := h1.trans he
    refine ⟨i', e.symm (⟨j, hj⟩, d), T', i'.2, (e.symm (⟨j, hj⟩, d)).2, (selected_same Q _ _).2 ?_,
      in_ball D F' N' hs' i'.2 (e.symm (⟨j, hj⟩, d)).2 (by rw [h2]; simp), h2⟩
    rw [hi', hj']
    exact hsel

end

/-- Two descriptions of the same crystal give the same curve, when there is no step cut and atoms are listed with images that are close
together. -/
theorem C60_same_partial (D : Data) (h : D.Ok) {ph ph' : PPhase} {s s' : Sel} {n : Fin 3 → ℕ}
    {e : Fin ph'.atom.length ≃ Fin ph.atom.length × Box n} {w : Fin ph'.atom.length → Fin 3 → ℤ} {o : Fin 3 → ℝ}
    (Q : Same ph ph' s s' n e w o) (F : C19.Fine ph.toPhs) (F' : C19.Fine ph'.toPhs) (N : Near ph) (N' : Near ph') (hs : ph.stepcut ≤ 0)
    (l₁ l₂ : List (Option (PPhase × Sel))) (f : ℤ → ℝ) (hf : determine D (l₁ ++ some (ph, s) :: l₂) = .ok (some f)) :
    ∃ f', determine D (l₁ ++ some (ph', s') :: l₂) = .ok (some f') ∧ ∀ i, D.ncmin ≤ i → i ≤ D.ncmax → f' i = f i := by
  obtain ⟨h1, h2⟩ := determine_some h hf
  obtain ⟨g, e1, e2⟩ := determine_of h (psel := l₁ ++ some (ph', s') :: l₂) (by
    intro x hx
    rw [List.mem_append, List.mem_cons] at hx
    rcases hx with hx | hx | hx
    · exact h1 x (by simp [hx])
    · simp only [Option.some.injEq] at hx
      subst hx
      dsimp only
      rw [bad_same Q F F' N N' hs]
      exact h1 (ph, s) (by simp)
    · exact h1 x (by simp [hx]))
  refine ⟨g, e1, fun i hi hi' => ?_⟩
  rw [h2 i hi hi', e2 i hi hi']
  simp only [List.filterMap_append, List.filterMap_cons, id, List.map_append, List.map_cons, List.sum_append, List.sum_cons]
  rw [curve_same Q F F' N N' hs, Q.rest.2.2.2.2.2.2]

/-! ## The origin -/

/-- All atoms moved by the same vector. -/
def move (o : Fin 3 → ℝ) (ph : PPhase) : PPhase := { ph with atom := ph.atom.map fun a => { a with pos := fun k => a.pos k + o k } }

section
variable (o : Fin 3 → ℝ) (ph : PPhase)

theorem move_length : (move o ph).atom.length = ph.atom.length := by simp [move]

theorem move_atm {i : ℕ} (hi : i < ph.atom.length) : (move o ph).atm i = { ph.atm i with pos := fun k => (ph.atm i).pos k + o k } := by
  unfold PPhase.atm
  simp [move, List.getElem?_eq_getElem hi]

theorem move_event (D : Data) {i j : ℕ} (hi : i < ph.atom.length) (hj : j < ph.atom.length) (T : ℤ × ℤ × ℤ) :
    event D (move o ph) ((move o ph).atm i) ((move o ph).atm j) T = event D ph (ph.atm i) (ph.atm j) T := by
  have h : dd (move o ph) ((move o ph).atm i) ((move o ph).atm j) T = dd ph (ph.atm i) (ph.atm j) T := by
    rw [move_atm o ph hi, move_atm o ph hj]
    funext k
    unfold dd
    show _ + o k - (_ + o k) - _ * ((ph.icc k : ℕ) : ℝ) = _
    ring
  unfold event
  rw [h, move_atm o ph hi, move_atm o ph hj]
  rfl

theorem move_sphere (D : Data) : sphere D (move o ph) = sphere D ph := by
  have h : circumDiameter (move o ph).toPhs = circumDiameter ph.toPhs := by
    unfold circumDiameter
    have e : (move o ph).toPhs.atom = [] ↔ ph.toPhs.atom = [] := by simp [PPhase.toPhs, move]
    simp only [e]
    rfl
  unfold sphere
  rw [h]
  rfl

theorem move_np : (move o ph).np = ph.np := by simp [PPhase.np, move, Function.comp_def]
theorem move_bavg : (move o ph).bavg = ph.bavg := by
  unfold PPhase.bavg
  rw [move_np]
  simp [move, Function.comp_def]

theorem move_weight {i : ℕ} (hi : i < ph.atom.length) : (move o ph).weight i = ph.weight i := by
  unfold PPhase.weight
  rw [move_bavg, move_atm o ph hi]

theorem move_visited (D : Data) (s : Sel) : visited D (move o ph) s = visited D ph s := by
  unfold visited
  rw [move_sphere, move_length]

theorem move_in {D : Data} {s : Sel} {x : (ℕ × ℕ) × (ℤ × ℤ × ℤ)} (hx : x ∈ visited D ph s) :
    x.1.1 < ph.atom.length ∧ x.1.2 < ph.atom.length := by
  obtain ⟨⟨i, j⟩, T⟩ := x
  rw [mem_visited, mem_halfPairs] at hx
  obtain ⟨⟨h1, h2⟩, -⟩ := hx
  exact ⟨lt_of_le_of_lt h1 h2, h2⟩

theorem move_ppp (D : Data) (s : Sel) : ppp D (move o ph) s = ppp D ph s := by
  unfold ppp
  rw [move_visited]
  congr 1
  refine List.flatMap_congr fun x hx => ?_
  obtain ⟨h1, h2⟩ := move_in ph hx
  unfold eventOf
  rw [move_event o ph D h1 h2]
  cases event D ph (ph.atm x.1.1) (ph.atm x.1.2) x.2 with
  | skip => rfl
  | nan => rfl
  | peak d g =>
    unfold incs ampl
    rw [move_weight o ph h1, move_weight o ph h2, move_atm o ph h1, move_atm o ph h2]
    rfl

theorem move_sum (f g : ℕ × ℕ → ℝ) (p : ℕ × ℕ → Bool) (h : ∀ x : ℕ × ℕ, x.1 < ph.atom.length → x.2 < ph.atom.length → g x = f x) :
    (((halfPairs ph.atom.length).filter p).map g).sum = (((halfPairs ph.atom.length).filter p).map f).sum := by
  congr 1
  apply List.map_congr_left
  intro x hx
  have := (List.mem_filter.1 hx).1
  rw [mem_halfPairs] at this
  exact h x (by omega) (by omega)

theorem move_ract (s : Sel) : ract (move o ph) s = ract ph s := by
  unfold ract
  rw [move_length]
  exact move_sum ph _ _ _ fun x h1 h2 => by rw [move_weight o ph h1, move_weight o ph h2]

theorem move_rtot : rtot (move o ph) = rtot ph := by
  unfold rtot
  rw [move_length]
  have h := move_sum ph (fun x => half x.1 x.2 * ph.weight x.1 * ph.weight x.2)
    (fun x => half x.1 x.2 * (move o ph).weight x.1 * (move o ph).weight x.2) (fun _ => true) fun x h1 h2 => by
      rw [move_weight o ph h1, move_weight o ph h2]
  simpa using h

theorem move_phaseCalc (D : Data) (s : Sel) : phaseCalc D (move o ph) s = phaseCalc D ph s := by
  have hb : Bad D (move o ph) s ↔ Bad D ph s := by
    unfold Bad
    rw [move_visited, move_np, move_bavg, move_rtot]
    refine or_congr ?_ Iff.rfl
    refine exists_congr fun x => and_congr_right fun hx => ?_
    obtain ⟨h1, h2⟩ := move_in ph hx
    unfold eventOf
    rw [move_event o ph D h1 h2]
  have hc : calcAt D (move o ph) s = calcAt D ph s := by
    funext p i
    have hr : (move o ph).rho0 = ph.rho0 := by
      unfold PPhase.rho0
      rw [move_np]
      rfl
    unfold calcAt
    rw [move_np, hr, move_ract, move_rtot]
    rfl
  unfold phaseCalc
  rw [move_ppp, hc, propext hb]

end

/-- The origin is arbitrary: a common shift of all atoms of a phase changes nothing, whatever the structure and the data set are. -/
theorem C60_origin (D : Data) (o : Fin 3 → ℝ) (ph : PPhase) (s : Sel) (l₁ l₂ : List (Option (PPhase × Sel))) :
    determine D (l₁ ++ some (move o ph, s) :: l₂) = determine D (l₁ ++ some (ph, s) :: l₂) := by
  have h : total D (l₁ ++ some (move o ph, s) :: l₂) = total D (l₁ ++ some (ph, s) :: l₂) := by
    induction l₁ with
    | nil =>
      show (phaseCalc D (move o ph) s >>= _) = (phaseCalc D ph s >>= _)
      rw [move_phaseCalc]
      rfl
    | cons x l ih =>
      cases x with
      | none => exact ih
      | some x =>
        rw [List.cons_append, List.cons_append, total, total, ih]
  unfold determine
  rw [h]

/-! ## Example: a cell that is twice as long, with another origin -/

/-- The four atoms of the larger cell in terms of the two of `demo` and the two boxes. -/
def four : Fin 4 ≃ Fin 2 × Box ![2, 1, 1] where
  toFun i := (⟨i.1 % 2, Nat.mod_lt _ two_pos⟩, fun k => match k with
    | 0 => (⟨i.1 / 2, by omega⟩ : Fin 2)
    | 1 => (0 : Fin 1)
    | 2 => (0 : Fin 1))
  invFun x := ⟨x.1 + 2 * (x.2 0 : ℕ), by have h1 := x.1.2; have h2 : (x.2 0 : ℕ) < 2 := (x.2 0).2; omega⟩
  left_inv i := Fin.ext (by show i.1 % 2 + 2 * (i.1 / 2) = i.1; omega)
  right_inv x := by
    obtain ⟨a, d⟩ := x
    have h1 := a.2
    have h2 : (d 0 : ℕ) < 2 := (d 0).2
    refine Prod.ext (Fin.ext ?_) (funext fun k => ?_)
    · show (a.1 + 2 * (d 0 : ℕ)) % 2 = a.1
      omega
    · match k with
      | 0 => exact Fin.ext (by show (a.1 + 2 * (d 0 : ℕ)) / 2 = (d 0 : ℕ); omega)
      | 1 => exact (Subsingleton.elim (α := Fin 1) _ _)
      | 2 => exact (Subsingleton.elim (α := Fin 1) _ _)

/-- `demo` with a doubled first edge. -/
noncomputable def long : PPhase := { demo with
  cell := ⟨![6, 3, 3], ![90, 90, 90]⟩
  atom := [⟨![1 / 10, 0, 0], 1, ![1 / 100, 1 / 100, 1 / 100, 0, 0, 0], 1⟩,
    ⟨![35 / 100, 1 / 2, 1 / 2], 1, ![1 / 50, 1 / 50, 1 / 50, 0, 0, 0], 3⟩,
    ⟨![6 / 10, 0, 0], 1, ![1 / 100, 1 / 100, 1 / 100, 0, 0, 0], 1⟩,
    ⟨![85 / 100, -(1 / 2), 1 / 2], 1, ![1 / 50, 1 / 50, 1 / 50, 0, 0, 0], 3⟩] }

theorem long_fine : C19.Fine long.toPhs where
  acc := by
    have hv : voll long.toPhs.cell = 1 := by
      unfold voll
      simp only [show ∀ k, long.toPhs.cell.win k = 90 from fun k => by fin_cases k <;> rfl, C45.cosd90]; norm_num
    refine ⟨_, if_neg ?_⟩
    rw [hv, not_le]
    unfold eps; norm_num
  edge := fun k => by
    match k with
    | 0 => show (0 : ℝ) < 6; norm_num
    | 1 => show (0 : ℝ) < 3; norm_num
    | 2 => show (0 : ℝ) < 3; norm_num
  angle := fun k => by fin_cases k <;> (show (0 : ℝ) < 90 ∧ (90 : ℝ) < 180; norm_num)
  small := by
    intro i j _
    left
    rw [show ∀ k, long.toPhs.cell.win k = 90 from fun k => by fin_cases k <;> rfl, C45.cosd90, mul_zero]
  icc := fun k => by fin_cases k <;> exact one_pos

theorem long_near : Near long := near_of _ long_fine fun i j hi hj k => by
  have hi : i < 4 := hi
  have hj : j < 4 := hj
  interval_cases i <;> interval_cases j <;> fin_cases k <;> norm_num [long, PPhase.atm, abs_le]

def noSel : Sel := ⟨fun _ => false, fun _ => false⟩

theorem four_2 (i : ℕ) (h : i < 4) (k : Fin 3) : ((four ⟨i, h⟩).2 k : ℕ) = ![i / 2, 0, 0] k := by fin_cases k <;> rfl

theorem long_atm (i : ℕ) (h : i < 4) : (long.atm i).occ = (demo.atm (i % 2)).occ ∧ (long.atm i).u = (demo.atm (i % 2)).u ∧
    (long.atm i).sf = (demo.atm (i % 2)).sf := by
  match i, h with
  | 0, _ => exact ⟨rfl, rfl, rfl⟩
  | 1, _ => exact ⟨rfl, rfl, rfl⟩
  | 2, _ => exact ⟨rfl, rfl, rfl⟩
  | 3, _ => exact ⟨rfl, rfl, rfl⟩

theorem long_same : Same demo long noSel noSel ![2, 1, 1] four (fun i => if i.1 = 3 then ![0, -1, 0] else 0) ![1 / 5, 0, 0] where
  pos_n := fun k => by fin_cases k <;> simp
  win := rfl
  period := fun k => by fin_cases k <;> norm_num [demo, long]
  pos := fun ⟨i, h⟩ k => by
    show _ = demo.cell.a0 k * ((demo.atm (i % 2)).pos k + ![1 / 5, 0, 0] k + (demo.icc k : ℕ) *
      (((((four ⟨i, h⟩).2 k : ℕ) : ℤ) : ℝ) + (![2, 1, 1] k : ℕ) * (((if i = 3 then ![0, -1, 0] else 0 : Fin 3 → ℤ) k : ℤ) : ℝ)))
    rw [four_2 i h k]
    have hi : i < 4 := h
    interval_cases i <;> fin_cases k <;> norm_num [demo, long, PPhase.atm]
  occ := fun ⟨i, h⟩ => (long_atm i h).1
  u := fun ⟨i, h⟩ => (long_atm i h).2.1
  sf := fun ⟨i, h⟩ => (long_atm i h).2.2
  igI := fun _ => rfl
  igJ := fun _ => rfl
  rest := ⟨rfl, rfl, rfl, rfl, rfl, rfl, rfl⟩

example : ∃ f f', determine (demoD 20) [some (demo, noSel)] = .ok (some f) ∧ determine (demoD 20) [some (long, noSel)] = .ok (some f') ∧
    ∀ i, (demoD 20).ncmin ≤ i → i ≤ (demoD 20).ncmax → f' i = f i := by
  obtain ⟨f, hf, -⟩ := determine_of (demoD_ok 20) (psel := [some (demo, noSel)]) (by
    intro x hx
    simp only [List.mem_singleton, Option.some.injEq] at hx
    subst hx
    exact demo_good _ _)
  obtain ⟨f', h⟩ := C60_same_partial _ (demoD_ok 20) long_same demo_fine long_fine demo_near long_near (le_refl _) [] [] f hf
  exact ⟨f, f', hf, h⟩

/-! ## Violation: the image in which an atom is listed changes the curve -/

section
variable {ph : PPhase} {D : Data}

theorem pairTerm_list (i j : ℕ) (ig : ℤ) : pairTerm D ph i j ig =
    half i j * ((Sphere.points (sphere D ph)).map fun T => term D ph (ph.atm i) (ph.atm j) (ampl ph i j) T ig).sum := by
  unfold pairTerm
  simp only [height_term]
  rw [List.sum_map_mul_left]

theorem pairTerm_all (F : C19.Fine ph.toPhs) (N : Near ph) (hs : ph.stepcut ≤ 0) {i j : ℕ} (hi : i < ph.atom.length)
    (hj : j < ph.atom.length) (ig : ℤ) :
    pairTerm D ph i j ig = half i j * ∑ᶠ T, term D ph (ph.atm i) (ph.atm j) (ampl ph i j) T ig := by
  classical
  rw [pairTerm_list, pair_sum F N hi hj]
  congr 1
  apply finsum_congr
  intro T
  rw [finsum_eq_if]
  split
  · rfl
  · rename_i hT
    by_contra hne
    apply hT
    refine in_ball D F N hs hi hj fun h0 => hne ?_
    unfold term
    rw [h0]

/-- Terms with a nonnegative amplitude are nonnegative if widths are. -/
theorem term_nonneg (a b : PAtom) {amp : ℝ} (h : 0 ≤ amp) (hr : ph.rcut ≤ 0) (T : ℤ × ℤ × ℤ) (ig : ℤ) : 0 ≤ term D ph a b amp T ig := by
  unfold term
  split
  · rename_i d g he
    have hg : 0 ≤ g := by
      unfold event at he
      dsimp only at he
      split_ifs at he
      simp only [Ev.peak.injEq] at he
      rw [← he.2]
      unfold sigma
      rw [if_neg (by have := Real.sqrt_nonneg (ph.toPhs.skal (dd ph a b T) (dd ph a b T)); linarith)]
      positivity
    split
    · unfold gaus
      have := Real.pi_pos
      positivity
    · exact le_rfl
  · exact le_rfl

end

/-- `large` with the second atom listed in the cell on the other side, at -0.9 instead of 9.1. -/
noncomputable def near : PPhase := { large with
  atom := [⟨![0, 0, 0], 1, ![1 / 2, 0, 0, 0, 0, 0], 1⟩, ⟨![-(9 / 10), 0, 0], 1, ![1 / 2, 0, 0, 0, 0, 0], 1⟩] }

theorem near_fine : C19.Fine near.toPhs := ⟨large_fine.acc, large_fine.edge, large_fine.angle, large_fine.small, large_fine.icc⟩

theorem near_near : Near near := near_of _ near_fine fun i j hi hj k => by
  have hi : i < 2 := hi
  have hj : j < 2 := hj
  interval_cases i <;> interval_cases j <;> fin_cases k <;> norm_num [near, PPhase.atm, abs_le]

/-- One box. -/
def box1 : Fin 2 ≃ Fin 2 × Box ![1, 1, 1] where
  toFun i := (i, fun k => ⟨0, by fin_cases k <;> exact one_pos⟩)
  invFun x := x.1
  left_inv _ := rfl
  right_inv x := by
    refine Prod.ext rfl (funext fun k => Fin.ext ?_)
    have h : ((x.2 k : ℕ)) < 1 := lt_of_lt_of_eq (x.2 k).2 (by fin_cases k <;> rfl)
    show 0 = (x.2 k : ℕ)
    omega

theorem large_same : Same near large noSel noSel ![1, 1, 1] box1 (fun i => if i.1 = 1 then ![1, 0, 0] else 0) 0 where
  pos_n := fun k => by fin_cases k <;> simp
  win := rfl
  period := fun k => by fin_cases k <;> norm_num [near, large]
  pos := fun ⟨i, h⟩ k => by
    show _ = near.cell.a0 k * ((near.atm i).pos k + 0 + (near.icc k : ℕ) *
      ((((0 : ℕ) : ℤ) : ℝ) + (![1, 1, 1] k : ℕ) * (((if i = 1 then ![1, 0, 0] else 0 : Fin 3 → ℤ) k : ℤ) : ℝ)))
    have hi : i < 2 := h
    interval_cases i <;> fin_cases k <;> norm_num [near, large, PPhase.atm]
  occ := fun ⟨i, h⟩ => by
    match i, h with
    | 0, _ => rfl
    | 1, _ => rfl
  u := fun ⟨i, h⟩ => by
    match i, h with
    | 0, _ => rfl
    | 1, _ => rfl
  sf := fun ⟨i, h⟩ => by
    match i, h with
    | 0, _ => rfl
    | 1, _ => rfl
  igI := fun _ => rfl
  igJ := fun _ => rfl
  rest := ⟨rfl, rfl, rfl, rfl, rfl, rfl, rfl⟩

theorem near_np : near.np = 2 := by norm_num [PPhase.np, near]
theorem near_bavg : near.bavg = 1 := by
  have : near.bavg = (1 * 1 + (1 * 1 + 0)) / near.np := rfl
  rw [this, near_np]; norm_num
theorem near_weight {i : ℕ} (h : i < 2) : near.weight i = 1 := by
  match i, h with
  | 0, _ => show 1 / near.bavg = 1; rw [near_bavg]; norm_num
  | 1, _ => show 1 / near.bavg = 1; rw [near_bavg]; norm_num
theorem near_ncv : near.ncv = 40 := by
  have : voll near.cell = 1 := by
    unfold voll
    simp only [show ∀ k, near.cell.win k = 90 from large90, C45.cosd90]; norm_num
  unfold PPhase.ncv vol
  rw [this]
  simp [near, large]
  norm_num
theorem near_rtot : rtot near = 4 := by
  have : halfPairs near.atom.length = [(0, 0), (0, 1), (1, 1)] := rfl
  unfold rtot
  rw [this]
  simp only [List.map_cons, List.map_nil, List.sum_cons, List.sum_nil, near_weight two_pos, near_weight one_lt_two, half]
  norm_num
theorem mult1 : mult ![1, 1, 1] = 1 := rfl

theorem large_weight {i : ℕ} (h : i < 2) : large.weight i = 1 := by
  exact (weight_same large_same ⟨i, h⟩).trans (near_weight h)

theorem ampl1 {ph : PPhase} {i j : ℕ} (hi : ph.weight i = 1) (hj : ph.weight j = 1) (oi : (ph.atm i).occ = 1) (oj : (ph.atm j).occ = 1) :
    ampl ph i j = 1 := by
  unfold ampl
  rw [hi, hj, oi, oj]
  norm_num

theorem large_occ {i : ℕ} (h : i < 2) : (large.atm i).occ = 1 ∧ (near.atm i).occ = 1 := by
  match i, h with
  | 0, _ => exact ⟨rfl, rfl⟩
  | 1, _ => exact ⟨rfl, rfl⟩

section
variable {i j : ℕ} (hi : i < 2) (hj : j < 2) (ig : ℤ)
include hi hj

/-- The sum for a pair over all translations is the same for `large` and `near`. -/
theorem near_all : ∑ᶠ T, term largeD large (large.atm i) (large.atm j) 1 T ig = ∑ᶠ T, term largeD near (near.atm i) (near.atm j) 1 T ig := by
  rw [← sum_trans (ph := near) (ph' := large) large_same.pos_n box1 (fun i => if i.1 = 1 then ![1, 0, 0] else 0) ⟨i, hi⟩ ⟨j, hj⟩ _
    (term_support largeD near_fine near_near le_rfl hi hj 1 ig)]
  have hu : (Finset.univ : Finset (Box ![1, 1, 1])) = {fun k => ⟨0, by fin_cases k <;> exact one_pos⟩} := by
    ext x
    simp only [Finset.mem_univ, Finset.mem_singleton, true_iff]
    exact congrArg Prod.snd (box1.right_inv (0, x)).symm
  rw [hu, Finset.sum_singleton]
  refine finsum_congr fun T => ?_
  exact term_same large_same near_fine large_fine largeD ⟨i, hi⟩ ⟨j, hj⟩ 1 T ig

theorem large_support : (Function.support fun T => term largeD large (large.atm i) (large.atm j) 1 T ig).Finite := by
  have h := term_support largeD near_fine near_near le_rfl hi hj 1 ig
  have e : (fun T => term largeD large (large.atm i) (large.atm j) 1 T ig) =
      (fun T => term largeD near (near.atm i) (near.atm j) 1 T ig) ∘
        (trans (ph := near) (ph' := large) box1 (fun i => if i.1 = 1 then ![1, 0, 0] else 0) ⟨i, hi⟩ ⟨j, hj⟩) :=
    funext fun T => term_same large_same near_fine large_fine largeD ⟨i, hi⟩ ⟨j, hj⟩ 1 T ig
  rw [e, Function.support_comp_eq_preimage]
  apply h.preimage
  have hb := (trans_bijective (ph := near) (ph' := large) large_same.pos_n box1 (fun i => if i.1 = 1 then ![1, 0, 0] else 0) ⟨i, hi⟩ ⟨j, hj⟩).1
  intro a _ b _ hab
  have := @hb (fun k => ⟨0, by fin_cases k <;> exact one_pos⟩, a) (fun k => ⟨0, by fin_cases k <;> exact one_pos⟩, b) hab
  exact congrArg Prod.snd this

theorem pair_le : pairTerm largeD large i j ig ≤ pairTerm largeD near i j ig := by
  classical
  rw [pairTerm_all near_fine near_near le_rfl hi hj, pairTerm_list, ampl1 (large_weight hi) (large_weight hj) (large_occ hi).1 (large_occ hj).1,
    ampl1 (near_weight hi) (near_weight hj) (large_occ hi).2 (large_occ hj).2, ← near_all hi hj,
    ← List.sum_toFinset _ (C18.nodup_points (good large_fine))]
  refine mul_le_mul_of_nonneg_left ?_ (by unfold half; split <;> norm_num)
  have hf := large_support hi hj ig
  rw [finsum_eq_sum_of_support_subset _ (s := hf.toFinset ∪ (Sphere.points (sphere largeD large)).toFinset) (by
    rw [Finset.coe_union, Set.Finite.coe_toFinset]; exact Set.subset_union_left)]
  exact Finset.sum_le_sum_of_subset_of_nonneg Finset.subset_union_right fun T _ _ => term_nonneg _ _ zero_le_one le_rfl _ _

end

theorem pair_lt : pairTerm largeD large 0 1 0 < pairTerm largeD near 0 1 0 := by
  classical
  obtain ⟨-, m2, m3⟩ := missed
  have hi : 0 < 2 := two_pos
  have hj : 1 < 2 := one_lt_two
  rw [pairTerm_all near_fine near_near le_rfl hi hj, pairTerm_list, ampl1 (large_weight hi) (large_weight hj) (large_occ hi).1 (large_occ hj).1,
    ampl1 (near_weight hi) (near_weight hj) (large_occ hi).2 (large_occ hj).2, ← near_all hi hj,
    ← List.sum_toFinset _ (C18.nodup_points (good large_fine))]
  refine mul_lt_mul_of_pos_left ?_ (by norm_num [half])
  have hf := large_support hi hj 0
  rw [finsum_eq_sum_of_support_subset _ (s := hf.toFinset ∪ (Sphere.points (sphere largeD large)).toFinset) (by
    rw [Finset.coe_union, Set.Finite.coe_toFinset]; exact Set.subset_union_left)]
  refine Finset.sum_lt_sum_of_subset Finset.subset_union_right (i := (0, 0, 0)) ?_ ?_ m2 fun T _ _ => term_nonneg _ _ zero_le_one le_rfl _ _
  · rw [Finset.mem_union, Set.Finite.mem_toFinset]
    exact .inl m2.ne'
  · rw [List.mem_toFinset]
    exact m3

theorem largeD_ok : largeD.Ok := ⟨by norm_num [largeD], le_rfl, by
  have he : 4 * eps < 1 / 10 := by unfold eps; norm_num
  show 19 / 2 + 4 * eps ≤ 10
  linarith⟩

theorem r_pos {i : ℤ} (hi : 0 ≤ i) : 0 < largeD.r i := by
  have h : (0 : ℝ) ≤ i := by exact_mod_cast hi
  have := C45.eps_pos
  show 0 < (i : ℝ) * (1 / 10) + (19 / 2 + 4 * eps)
  linarith

theorem both_good : ¬Bad largeD large noSel ∧ ¬Bad largeD near noSel := by
  have hu : ∀ i, (∀ k, 0 ≤ (large.atm i).u k) ∧ (large.atm i).u 3 = 0 ∧ (large.atm i).u 4 = 0 ∧ (large.atm i).u 5 = 0 := by
    intro i
    match i with
    | 0 => exact ⟨fun k => by fin_cases k <;> norm_num [large, PPhase.atm], rfl, rfl, rfl⟩
    | 1 => exact ⟨fun k => by fin_cases k <;> norm_num [large, PPhase.atm], rfl, rfl, rfl⟩
    | i + 2 => exact ⟨fun k => le_rfl, rfl, rfl, rfl⟩
  have hu' : ∀ i, (∀ k, 0 ≤ (near.atm i).u k) ∧ (near.atm i).u 3 = 0 ∧ (near.atm i).u 4 = 0 ∧ (near.atm i).u 5 = 0 := by
    intro i
    match i with
    | 0 => exact hu 0
    | 1 => exact hu 1
    | i + 2 => exact ⟨fun k => le_rfl, rfl, rfl, rfl⟩
  constructor
  · rintro (⟨x, -, h⟩ | h | h | h | h | ⟨i, h1, -, h⟩)
    · exact event_ne_nan _ _ _ _ _ (hu _) (hu _) le_rfl h
    · rw [np_same large_same, near_np, mult1] at h; norm_num at h
    · rw [ncv_same large_same, near_ncv, mult1] at h; norm_num at h
    · rw [bavg_same large_same, near_bavg] at h; norm_num at h
    · rw [rtot_same large_same, near_rtot, mult1] at h; norm_num at h
    · exact (r_pos ((ncmin_nonneg largeD_ok).trans h1)).ne' h
  · rintro (⟨x, -, h⟩ | h | h | h | h | ⟨i, h1, -, h⟩)
    · exact event_ne_nan _ _ _ _ _ (hu' _) (hu' _) le_rfl h
    · rw [near_np] at h; norm_num at h
    · rw [near_ncv] at h; norm_num at h
    · rw [near_bavg] at h; norm_num at h
    · rw [near_rtot] at h; norm_num at h
    · exact (r_pos ((ncmin_nonneg largeD_ok).trans h1)).ne' h

/-- Violation: `large` and `near` describe the same crystal (`large_same`), in which the second atom is listed in different cells. Their curves
differ at the first grid point. -/
theorem image_matters : ∃ f f', determine largeD [some (large, noSel)] = .ok (some f) ∧ determine largeD [some (near, noSel)] = .ok (some f') ∧
    largeD.ncmin = 0 ∧ f 0 < f' 0 := by
  have hr := large_r
  have he : 4 * eps < 1 / 10 := by unfold eps; norm_num
  have h0 : largeD.ncmin = 0 := by
    unfold Data.ncmin
    rw [hr.1]
    have : (19 / 2 + 4 * eps - largeD.rmin) / largeD.deltar = ((0 : ℤ) : ℝ) := by
      show (19 / 2 + 4 * eps - (19 / 2 + 4 * eps)) / _ = _
      simp
    rw [this, nint_int]
  have h1 : (0 : ℤ) ≤ largeD.ncmax := by rw [← h0]; exact ncmin_le_ncmax largeD_ok
  obtain ⟨f, e1, e2⟩ := determine_of largeD_ok (psel := [some (large, noSel)]) (by
    intro x hx
    simp only [List.mem_singleton, Option.some.injEq] at hx
    subst hx
    exact both_good.1)
  obtain ⟨f', e1', e2'⟩ := determine_of largeD_ok (psel := [some (near, noSel)]) (by
    intro x hx
    simp only [List.mem_singleton, Option.some.injEq] at hx
    subst hx
    exact both_good.2)
  refine ⟨f, f', e1, e1', h0, ?_⟩
  rw [e2 0 h0.le h1, e2' 0 h0.le h1]
  have hq : ∀ c : ℤ → ℝ, filt largeD c 0 = c 0 := fun c => if_neg (by show ¬(0 : ℝ) < 0; exact lt_irrefl _)
  have hp : pairSum largeD large noSel 0 < pairSum largeD near noSel 0 := by
    rw [pairSum_eq, pairSum_eq, show halfPairs large.atom.length = [(0, 0), (0, 1), (1, 1)] from rfl,
      show halfPairs near.atom.length = [(0, 0), (0, 1), (1, 1)] from rfl]
    simp only [List.map_cons, List.map_nil, List.sum_cons, List.sum_nil, skip, noSel, Bool.or_self, Bool.and_self, Bool.not_false, if_true]
    have a := pair_le two_pos two_pos 0
    have b := pair_lt
    have c := pair_le one_lt_two one_lt_two 0
    linarith
  have henv : ∀ ph : PPhase, ph.spdiameter = 0 → ph.stepcut = 0 → envelope largeD ph (largeD.r 0) = 1 := by
    intro ph e1 e2
    unfold envelope
    rw [e1, e2, if_neg (by show ¬(0 : ℝ) < 0; exact lt_irrefl _), if_neg (lt_irrefl _), if_neg (lt_irrefl _)]
    norm_num
  have hrr := r_pos (le_refl 0)
  simp only [List.filterMap_cons, List.filterMap_nil, id, List.map_cons, List.map_nil, List.sum_cons, List.sum_nil, hq]
  rw [show large.pscale = 1 from rfl, show near.pscale = 1 from rfl, show largeD.dscale = 1 from rfl]
  unfold curve
  rw [henv large rfl rfl, henv near rfl rfl, np_same large_same, rho0_same large_same, ract_same large_same, rtot_same large_same, mult1,
    near_np]
  have : pairSum largeD large noSel 0 / (((1 : ℕ) : ℝ) * 2) / largeD.r 0 < pairSum largeD near noSel 0 / 2 / largeD.r 0 := by
    rw [Nat.cast_one, one_mul]
    gcongr
  simp only [Nat.cast_one, one_mul] at this ⊢
  linarith

end Pdffit.C60
