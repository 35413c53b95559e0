import Verif.Lemmas.Axes
import Mathlib.LinearAlgebra.FreeModule.Finite.CardQuotient
import Mathlib.LinearAlgebra.Matrix.ToLin

/-!
# C91: the choice of the unit cell

A crystal can be described with any of its unit cells: a primitive cell or one of several centred cells, with any basis of the lattice.
`SameCrystal`: the axes of the second cell are integer combinations of the periods of the first, and its atoms are those of the first with their
translations inside the second cell.

* `C91_cell_partial`: both descriptions give the same curve, if there is no step cut and the atoms are listed with images that are close together;
  `C91_reach_partial`: also with a step cut, if the searches reach all peaks below it (`reach_cut` gives a condition on the widths).
* `C91_count`: the second cell holds `|det Q|` times the volume and the atoms of the first.
* `of_same`: C60 is the case in which the edges keep their directions.
* `distant_matters`: with distant images the claim is false.
-/

namespace Pdffit.C91
open Det Bonds Geom Pdffit.Parser C24 C60 Axes

/-- The two phases, with their selections, describe the same crystal. The columns of `P` are the axes of the second cell in coordinates of the first,
`Q` the periods of the second phase in periods of the first, `w` the image of each atom, `o` the origin. -/
structure SameCrystal (ph ph' : PPhase) (s s' : Sel) (ι : Type) (e : Fin ph'.atom.length ≃ Fin ph.atom.length × ι)
    (P : Matrix (Fin 3) (Fin 3) ℝ) (Q : Matrix (Fin 3) (Fin 3) ℤ) (w : Fin ph'.atom.length → Fin 3 → ℤ) (o : Fin 3 → ℝ) : Prop where
  /-- Scalar products of the axes. -/
  metric : ∀ i j, ph'.toPhs.gten i j = ∑ a, ∑ b, P a i * P b j * ph.toPhs.gten a b
  period : ∀ a k, P a k * ph'.icc k = ph.icc a * Q a k
  pos : ∀ (i : Fin ph'.atom.length) (a : Fin 3), ∑ k, P a k * (ph'.atm i).pos k = (ph.atm (e i).1).pos a + o a + ph.icc a * w i a
  /-- Every image of an atom of the first phase is, up to a period, one atom of the second. -/
  all : ∀ j, Function.Bijective fun x : ι × (Fin 3 → ℤ) => Q.mulVec x.2 + w (e.symm (j, x.1))
  occ : ∀ i : Fin ph'.atom.length, (ph'.atm i).occ = (ph.atm (e i).1).occ
  /-- The displacement tensors are the same. -/
  disp : ∀ (i : Fin ph'.atom.length) (a b : Fin 3), (ph.atm (e i).1).u (uix a b) * recEdge ph.cell a * recEdge ph.cell b =
    ∑ k, ∑ l, P a k * P b l * ((ph'.atm i).u (uix k l) * recEdge ph'.cell k * recEdge ph'.cell l)
  sf : ∀ i : Fin ph'.atom.length, (ph'.atm i).sf = (ph.atm (e i).1).sf
  igI : ∀ i : Fin ph'.atom.length, s'.igI i = s.igI (e i).1
  igJ : ∀ i : Fin ph'.atom.length, s'.igJ i = s.igJ (e i).1
  rest : ph'.delta2 = ph.delta2 ∧ ph'.delta1 = ph.delta1 ∧ ph'.rcut = ph.rcut ∧ ph'.sratio = ph.sratio ∧
    ph'.stepcut = ph.stepcut ∧ ph'.spdiameter = ph.spdiameter ∧ ph'.pscale = ph.pscale

/-! ## Sums over axes -/

theorem skal_quad {g g' : Fin 3 → Fin 3 → ℝ} {P : Matrix (Fin 3) (Fin 3) ℝ} (h : ∀ i j, g' i j = ∑ a, ∑ b, P a i * P b j * g a b)
    (v : Fin 3 → ℝ) : skalpro g' v v = skalpro g (P.mulVec v) (P.mulVec v) := by
  unfold skalpro
  simp only [h, Matrix.mulVec, dotProduct, Fin.sum_univ_three]
  ring

theorem quad {B B' : Fin 3 → Fin 3 → ℝ} {P : Matrix (Fin 3) (Fin 3) ℝ} (h : ∀ a b, B a b = ∑ k, ∑ l, P a k * P b l * B' k l)
    {r r' : Fin 3 → ℝ} (hr : ∀ i, r' i = ∑ a, P a i * r a) : ∑ i, ∑ j, B' i j * r' i * r' j = ∑ a, ∑ b, B a b * r a * r b := by
  simp only [h, hr, Fin.sum_univ_three]
  ring

/-! ## Reach of the search -/

/-- Every translation that gives a peak inside the range, or a value that is not a number, is inside the sphere of the search. -/
def Reach (D : Data) (ph : PPhase) : Prop := ∀ i j, i < ph.atom.length → j < ph.atom.length → ∀ T,
  (event D ph (ph.atm i) (ph.atm j) T = .nan → T ∈ ball D ph) ∧
  ∀ d g, event D ph (ph.atm i) (ph.atm j) T = .peak d g → ib D d g ≤ ie D ph d g → T ∈ ball D ph

/-- Without a step cut this is always so. -/
theorem reach_free (D : Data) {ph : PPhase} (F : C19.Fine ph.toPhs) (N : Near ph) (hs : ph.stepcut ≤ 0) : Reach D ph :=
  fun _ _ hi hj _ => ⟨fun h => in_ball D F N hs hi hj (by rw [h]; simp), fun _ _ h _ => in_ball D F N hs hi hj (by rw [h]; simp)⟩

theorem nint_half {x : ℝ} : |(nint x : ℝ) - x| ≤ 1 / 2 := by
  unfold nint
  rw [abs_le]
  split
  · have h1 := Int.floor_le (x + 1 / 2)
    have h2 := Int.lt_floor_add_one (x + 1 / 2)
    constructor <;> linarith
  · have h1 := Int.le_ceil (x - 1 / 2)
    have h2 := Int.ceil_lt_add_one (x - 1 / 2)
    constructor <;> linarith

/-- With a step cut, if the distance of the atoms in the cell, five standard deviations of the peak and a step of the grid are shorter than the
diagonal of the cell. -/
theorem reach_cut (D : Data) (h : D.Ok) {ph : PPhase} (F : C19.Fine ph.toPhs) (N : Near ph)
    (hn : ∀ i j, i < ph.atom.length → j < ph.atom.length → ∀ T, event D ph (ph.atm i) (ph.atm j) T ≠ .nan)
    (hp : ∀ i j, i < ph.atom.length → j < ph.atom.length → ∀ T d g, event D ph (ph.atm i) (ph.atm j) T = .peak d g →
      √(ph.toPhs.skal (fun k => (ph.atm i).pos k - (ph.atm j).pos k) fun k => (ph.atm i).pos k - (ph.atm j).pos k) + 5 * g + D.deltar <
        circumDiameter ph.toPhs) : Reach D ph := by
  rcases le_or_gt ph.stepcut 0 with hs | hs
  · exact reach_free D F N hs
  intro i j hi hj T
  refine ⟨fun e => absurd e (hn i j hi hj T), fun d g e hb => ?_⟩
  have h1 := (tri F i j T).1
  have h2 := hp i j hi hj T d g e
  have h3 := N i j hi hj
  have hr := Real.sqrt_le_sqrt (event_range (by rw [e]; simp : event D ph (ph.atm i) (ph.atm j) T ≠ .skip)).2
  have hd : d = √(ph.toPhs.skal (dd ph (ph.atm i) (ph.atm j) T) (dd ph (ph.atm i) (ph.atm j) T)) := by
    unfold event at e
    dsimp only at e
    split_ifs at e
    cases e
    rfl
  have hδ := h.step
  have h4 : d - 5 * g ≤ ph.stepcut + D.deltar := by
    unfold ib ie at hb
    rw [if_pos hs] at hb
    have a := abs_le.1 (nint_half (x := (max D.rcmin (d - 5 * g) - D.rmin) / D.deltar))
    have b := abs_le.1 (nint_half (x := (min (min D.rcmax (d + 5 * g)) ph.stepcut - D.rmin) / D.deltar))
    have c : ((nint ((max D.rcmin (d - 5 * g) - D.rmin) / D.deltar) : ℤ) : ℝ) ≤
        (nint ((min (min D.rcmax (d + 5 * g)) ph.stepcut - D.rmin) / D.deltar) : ℤ) := by exact_mod_cast hb
    have k : (max D.rcmin (d - 5 * g) - D.rmin) / D.deltar ≤ (min (min D.rcmax (d + 5 * g)) ph.stepcut - D.rmin) / D.deltar + 1 := by linarith
    rw [div_le_iff₀ hδ, add_mul, div_mul_cancel₀ _ hδ.ne'] at k
    have m1 := le_max_right D.rcmin (d - 5 * g)
    have m2 := min_le_right (min D.rcmax (d + 5 * g)) ph.stepcut
    linarith
  show tlen ph T < (if 0 < ph.stepcut then _ else _)
  rw [if_pos hs]
  refine lt_min ?_ ?_ <;> linarith

section
variable {D : Data} {ph : PPhase} (F : C19.Fine ph.toPhs) (N : Near ph) (R : Reach D ph)
include R

theorem in_reach {i j : ℕ} (hi : i < ph.atom.length) (hj : j < ph.atom.length) {amp : ℝ} {T : ℤ × ℤ × ℤ} {ig : ℤ}
    (h : term D ph (ph.atm i) (ph.atm j) amp T ig ≠ 0) : event D ph (ph.atm i) (ph.atm j) T ≠ .skip ∧ T ∈ ball D ph := by
  unfold term at h
  cases e : event D ph (ph.atm i) (ph.atm j) T with
  | skip => rw [e] at h; exact absurd rfl h
  | nan => rw [e] at h; exact absurd rfl h
  | peak d g =>
    rw [e] at h
    dsimp only at h
    have hb : ib D d g ≤ ig ∧ ig ≤ ie D ph d g := by
      by_contra hb
      exact h (if_neg hb)
    exact ⟨by simp, (R i j hi hj T).2 d g e (hb.1.trans hb.2)⟩

include F N in
theorem reach_support {i j : ℕ} (hi : i < ph.atom.length) (hj : j < ph.atom.length) (amp : ℝ) (ig : ℤ) :
    (Function.support fun T => term D ph (ph.atm i) (ph.atm j) amp T ig).Finite := by
  refine ((Sphere.points (sphere D ph)).finite_toSet).subset fun T hT => ?_
  obtain ⟨he, hb⟩ := in_reach R hi hj hT
  exact (points_iff F N hi hj T he).2 hb

theorem S_reach {i j : ℕ} (hi : i < ph.atom.length) (hj : j < ph.atom.length) (ig : ℤ) : S D ph i j ig =
    ∑ᶠ T, term D ph (ph.atm i) (ph.atm j) ((ph.atm i).occ * ph.weight i * ((ph.atm j).occ * ph.weight j)) T ig := by
  classical
  unfold S
  apply finsum_congr
  intro T
  rw [finsum_eq_if]
  split
  · rfl
  · rename_i hT
    by_contra hne
    exact hT (in_reach R hi hj (Ne.symm hne)).2

end

/-! ## Numbers of cells -/

/-- A complete set of representatives modulo the columns of an integer matrix has `|det|` elements. -/
theorem card_det {ι : Type} [Fintype ι] (Q : Matrix (Fin 3) (Fin 3) ℤ) (r : ι → Fin 3 → ℤ)
    (h : Function.Bijective fun x : ι × (Fin 3 → ℤ) => Q.mulVec x.2 + r x.1) : Fintype.card ι = Q.det.natAbs := by
  let f : (Fin 3 → ℤ) →ₗ[ℤ] (Fin 3 → ℤ) := Q.toLin'
  have hf : ∀ x, f x = Q.mulVec x := fun x => Matrix.toLin'_apply Q x
  obtain ⟨⟨d0, -⟩, -⟩ := h.2 0
  have inj : Function.Injective f := by
    intro x y hxy
    rw [hf, hf] at hxy
    have : ((d0, x) : ι × (Fin 3 → ℤ)) = (d0, y) := h.1 (by dsimp only; rw [hxy])
    exact congrArg Prod.snd this
  let N := LinearMap.range f
  let E : (Fin 3 → ℤ) ≃ₗ[ℤ] N := LinearEquiv.ofInjective f inj
  have h1 := Submodule.natAbs_det_equiv N E
  have h2 : N.subtype ∘ₗ AddMonoidHom.toIntLinearMap (E : (Fin 3 → ℤ) →+ N) = f := by
    ext x
    rfl
  rw [h2, show LinearMap.det f = Q.det from LinearMap.det_toLin' Q] at h1
  rw [h1, ← Nat.card_eq_fintype_card]
  refine Nat.card_eq_of_bijective (fun d : ι => N.mkQ (r d)) ⟨?_, ?_⟩
  · intro d d' hd
    dsimp only at hd
    rw [Submodule.mkQ_apply, Submodule.mkQ_apply, Submodule.Quotient.eq] at hd
    obtain ⟨x, hx⟩ := hd
    rw [hf] at hx
    have : ((d, 0) : ι × (Fin 3 → ℤ)) = (d', x) := h.1 (by
      dsimp only
      rw [Matrix.mulVec_zero, zero_add, hx]
      abel)
    exact congrArg Prod.fst this
  · intro y
    obtain ⟨y, rfl⟩ := N.mkQ_surjective y
    obtain ⟨⟨d, x⟩, hx⟩ := h.2 y
    refine ⟨d, ?_⟩
    dsimp only at hx ⊢
    rw [Submodule.mkQ_apply, Submodule.mkQ_apply, Submodule.Quotient.eq]
    refine ⟨-x, ?_⟩
    rw [map_neg, hf, ← hx]
    abel

theorem vol_pos {c : Cell} (h : 0 < voll c) (ha : ∀ i, 0 < c.a0 i) : 0 < vol c :=
  mul_pos (mul_pos (mul_pos (Real.sqrt_pos.2 h) (ha 0)) (ha 1)) (ha 2)

theorem phase_vol_pos {ph : PPhase} (G : C19.Fine ph.toPhs) : 0 < vol ph.cell := by
  have h := vol_pos (C19.voll_pos G) G.edge
  have e : ph.toPhs.cell = ph.cell := rfl
  rwa [e] at h

section
variable {ph ph' : PPhase} {s s' : Sel} {ι : Type} {e : Fin ph'.atom.length ≃ Fin ph.atom.length × ι}
  {P : Matrix (Fin 3) (Fin 3) ℝ} {Q : Matrix (Fin 3) (Fin 3) ℤ} {w : Fin ph'.atom.length → Fin 3 → ℤ} {o : Fin 3 → ℝ}
  (C : SameCrystal ph ph' s s' ι e P Q w o) (F : C19.Fine ph.toPhs) (F' : C19.Fine ph'.toPhs)

theorem det_vol (G : C19.Fine ph.toPhs) : (Matrix.of ph.toPhs.gten).det = vol ph.cell ^ 2 := by
  have hv : ¬voll ph.cell ≤ eps := by
    obtain ⟨m, hm⟩ := G.acc
    intro hv
    unfold lattice at hm
    rw [if_pos (show voll ph.toPhs.cell ≤ eps from hv)] at hm
    cases hm
  exact (C45.direct_partial ph.cell ⟨vol ph.cell, tensor ph.cell.a0 ph.cell.win, recEdge ph.cell, fun i => bacosd (recArg ph.cell i),
    tensor (recEdge ph.cell) (fun i => bacosd (recArg ph.cell i))⟩ (if_neg hv) (fun i => (G.edge i).ne') G.small).2.1

include C

section
include F F'

/-- The second cell is `|det Q|` times as large as the first. -/
theorem ncv_det : ph'.ncv = |(Q.det : ℝ)| * ph.ncv := by
  have h1 : Matrix.of ph'.toPhs.gten = P.transpose * Matrix.of ph.toPhs.gten * P := by
    ext i j
    rw [Matrix.of_apply, C.metric]
    simp only [Matrix.mul_apply, Matrix.transpose_apply, Matrix.of_apply, Fin.sum_univ_three]
    ring
  have h2 := congrArg Matrix.det h1
  rw [Matrix.det_mul, Matrix.det_mul, Matrix.det_transpose, det_vol F, det_vol F'] at h2
  have h3 : vol ph'.cell = |P.det| * vol ph.cell := by
    have p1 : 0 < vol ph'.cell := phase_vol_pos F'
    have p2 : 0 < vol ph.cell := phase_vol_pos F
    rw [← abs_of_pos p1, ← abs_of_pos p2, ← abs_mul, ← sq_eq_sq_iff_abs_eq_abs, h2]
    ring
  have h4 : P * Matrix.diagonal (fun k => (ph'.icc k : ℝ)) = Matrix.diagonal (fun k => (ph.icc k : ℝ)) * Q.map (Int.cast : ℤ → ℝ) := by
    ext a k
    rw [Matrix.mul_diagonal, Matrix.diagonal_mul, Matrix.map_apply]
    exact C.period a k
  have h5 := congrArg Matrix.det h4
  rw [Matrix.det_mul, Matrix.det_mul, Matrix.det_diagonal, Matrix.det_diagonal, Fin.prod_univ_three, Fin.prod_univ_three,
    show (Q.map (Int.cast : ℤ → ℝ)).det = (Q.det : ℝ) from (Int.cast_det Q).symm] at h5
  have h6 := congrArg abs h5
  rw [abs_mul, abs_mul (_ * _ * _) (Q.det : ℝ)] at h6
  have p : ∀ q : PPhase, |(q.icc 0 : ℝ) * q.icc 1 * q.icc 2| = (q.icc 0 * q.icc 1 * q.icc 2 : ℕ) := by
    intro q
    push_cast
    exact abs_of_nonneg (by positivity)
  rw [p, p] at h6
  unfold PPhase.ncv
  rw [h3]
  linear_combination vol ph.cell * h6

end

/-- The number of atoms for each atom of the first cell. -/
theorem card_same [Fintype ι] (h : 0 < ph.atom.length) : (Fintype.card ι : ℝ) = |(Q.det : ℝ)| := by
  have := card_det Q (fun d => w (e.symm (⟨0, h⟩, d))) (C.all ⟨0, h⟩)
  rw [this, ← Int.cast_abs, Int.abs_eq_natAbs, Int.cast_natCast]

/-- The translation of the first phase for a pair of atoms and a translation of the second. -/
def trn (Q : Matrix (Fin 3) (Fin 3) ℤ) (w : Fin ph'.atom.length → Fin 3 → ℤ) (i j : Fin ph'.atom.length) (T : ℤ × ℤ × ℤ) : ℤ × ℤ × ℤ :=
  toT (Q.mulVec (co T) + w j - w i)

theorem dd_map (i j : Fin ph'.atom.length) (T : ℤ × ℤ × ℤ) :
    P.mulVec (dd ph' (ph'.atm i) (ph'.atm j) T) = dd ph (ph.atm (e i).1) (ph.atm (e j).1) (trn Q w i j T) := by
  funext a
  have h1 := C.pos i a
  have h2 := C.pos j a
  have h3 := C.period a
  show ∑ k, P a k * ((ph'.atm i).pos k - (ph'.atm j).pos k - ((co T k : ℤ) : ℝ) * ph'.icc k) =
    (ph.atm (e i).1).pos a - (ph.atm (e j).1).pos a - ((co (trn Q w i j T) a : ℤ) : ℝ) * ph.icc a
  rw [trn, co_toT]
  simp only [Pi.sub_apply, Pi.add_apply, Matrix.mulVec, dotProduct, Fin.sum_univ_three] at h1 h2 ⊢
  push_cast
  linear_combination h1 - h2 - (co T 0 : ℝ) * h3 0 - (co T 1 : ℝ) * h3 1 - (co T 2 : ℝ) * h3 2

theorem skal_map (v : Fin 3 → ℝ) : ph'.toPhs.skal v v = ph.toPhs.skal (P.mulVec v) (P.mulVec v) := skal_quad C.metric v

theorem msd_map (i j : Fin ph'.atom.length) (v : Fin 3 → ℝ) :
    ph'.msd (ph'.atm i) (ph'.atm j) v = ph.msd (ph.atm (e i).1) (ph.atm (e j).1) (P.mulVec v) := by
  rw [msd_sum, msd_sum, skal_map C]
  generalize √(ph.toPhs.skal (P.mulVec v) (P.mulVec v)) = n
  have hr : ∀ i, ∑ k, ph'.toPhs.gten i k * (v k / n) = ∑ a, P a i * ∑ b, ph.toPhs.gten a b * (P.mulVec v b / n) := by
    intro i
    simp only [C.metric, Matrix.mulVec, dotProduct, Fin.sum_univ_three]
    ring
  have hB : ∀ a b, ((ph.atm (e i).1).u (uix a b) + (ph.atm (e j).1).u (uix a b)) * recEdge ph.cell a * recEdge ph.cell b =
      ∑ k, ∑ l, P a k * P b l * (((ph'.atm i).u (uix k l) + (ph'.atm j).u (uix k l)) * recEdge ph'.cell k * recEdge ph'.cell l) := by
    intro a b
    have h1 := C.disp i a b
    have h2 := C.disp j a b
    simp only [Fin.sum_univ_three] at h1 h2 ⊢
    linear_combination h1 + h2
  have q := quad hB hr
  calc _ = ∑ k, ∑ l, (((ph'.atm i).u (uix k l) + (ph'.atm j).u (uix k l)) * recEdge ph'.cell k * recEdge ph'.cell l) *
        (∑ m, ph'.toPhs.gten k m * (v m / n)) * (∑ m, ph'.toPhs.gten l m * (v m / n)) :=
        Finset.sum_congr rfl fun k _ => Finset.sum_congr rfl fun l _ => by ring
    _ = _ := q
    _ = _ := Finset.sum_congr rfl fun k _ => Finset.sum_congr rfl fun l _ => by ring

theorem event_map (D : Data) (i j : Fin ph'.atom.length) (T : ℤ × ℤ × ℤ) :
    event D ph' (ph'.atm i) (ph'.atm j) T = event D ph (ph.atm (e i).1) (ph.atm (e j).1) (trn Q w i j T) := by
  obtain ⟨r1, r2, r3, r4, -⟩ := C.rest
  unfold event
  dsimp only
  rw [skal_map C, msd_map C, dd_map C]
  unfold sigma corfact
  rw [r1, r2, r3, r4]

theorem term_map (D : Data) (i j : Fin ph'.atom.length) (amp : ℝ) (T : ℤ × ℤ × ℤ) (ig : ℤ) :
    term D ph' (ph'.atm i) (ph'.atm j) amp T ig = term D ph (ph.atm (e i).1) (ph.atm (e j).1) amp (trn Q w i j T) ig := by
  obtain ⟨r1, r2, r3, r4, r5, -⟩ := C.rest
  unfold term
  rw [event_map C]
  cases event D ph (ph.atm (e i).1) (ph.atm (e j).1) (trn Q w i j T) with
  | skip => rfl
  | nan => rfl
  | peak d g =>
    dsimp only
    unfold ie
    rw [r5]

theorem trn_bij (i : Fin ph'.atom.length) (j : Fin ph.atom.length) :
    Function.Bijective fun x : ι × (ℤ × ℤ × ℤ) => trn Q w i (e.symm (j, x.1)) x.2 := by
  have h := C.all j
  constructor
  · rintro ⟨d, T⟩ ⟨d', T'⟩ hx
    have h1 := congrArg co hx
    dsimp only [trn] at h1
    have h2 : ((d, co T) : ι × (Fin 3 → ℤ)) = (d', co T') := h.1 (by
      dsimp only
      funext k
      have := congrFun h1 k
      rw [co_toT, co_toT] at this
      simp only [Pi.sub_apply] at this
      linarith)
    rw [Prod.mk.injEq] at h2
    obtain ⟨rfl, h2⟩ := h2
    rw [← toT_co T, ← toT_co T', h2]
  · intro T
    obtain ⟨⟨d, x⟩, hx⟩ := h.2 (co T + w i)
    refine ⟨(d, toT x), ?_⟩
    dsimp only [trn] at hx ⊢
    rw [show co (toT x) = x from funext (co_toT x), hx, add_sub_cancel_right, toT_co]

theorem sum_trn [Fintype ι] (i : Fin ph'.atom.length) (j : Fin ph.atom.length) (f : ℤ × ℤ × ℤ → ℝ) (hf : (Function.support f).Finite) :
    ∑ d : ι, ∑ᶠ T, f (trn Q w i (e.symm (j, d)) T) = ∑ᶠ T, f T := by
  have hb := trn_bij C i j
  rw [← finsum_comp _ hb, finsum_curry, finsum_eq_sum_of_fintype]
  show (Function.support (f ∘ fun x : ι × (ℤ × ℤ × ℤ) => trn Q w i (e.symm (j, x.1)) x.2)).Finite
  rw [Function.support_comp_eq_preimage]
  exact hf.preimage hb.injective.injOn

/-! ## The curve -/

omit C in
theorem sum_atoms_card [Fintype ι] (e : Fin ph'.atom.length ≃ Fin ph.atom.length × ι) (f : ℕ → ℝ) (g : ℕ → ℝ)
    (h : ∀ i : Fin ph'.atom.length, g i = f (e i).1) :
    ∑ i ∈ Finset.range ph'.atom.length, g i = Fintype.card ι * ∑ i ∈ Finset.range ph.atom.length, f i := by
  rw [Finset.sum_range, Finset.sum_range, Finset.mul_sum]
  calc ∑ i : Fin ph'.atom.length, g i = ∑ x : Fin ph.atom.length × ι, f x.1 := by
        rw [← Equiv.sum_comp e]
        exact Finset.sum_congr rfl fun i _ => h i
    _ = _ := by
        rw [Fintype.sum_prod_type]
        refine Finset.sum_congr rfl fun i _ => ?_
        show ∑ _y : ι, f i = _
        rw [Finset.sum_const, Finset.card_univ, nsmul_eq_mul]

omit C in
theorem double_card [Fintype ι] (e : Fin ph'.atom.length ≃ Fin ph.atom.length × ι) (f g : ℕ → ℕ → ℝ)
    (h : ∀ i j : Fin ph'.atom.length, g i j = f (e i).1 (e j).1) :
    ∑ i ∈ Finset.range ph'.atom.length, ∑ j ∈ Finset.range ph'.atom.length, g i j =
      Fintype.card ι * (Fintype.card ι * ∑ i ∈ Finset.range ph.atom.length, ∑ j ∈ Finset.range ph.atom.length, f i j) := by
  rw [Finset.mul_sum]
  refine sum_atoms_card e (fun i => Fintype.card ι * ∑ j ∈ Finset.range ph.atom.length, f i j) _ fun i => ?_
  exact sum_atoms_card e (fun j => f (e i).1 j) _ fun j => h i j

variable [Fintype ι] (h0 : 0 < ph.atom.length)

include C h0

theorem card_pos : (0 : ℝ) < Fintype.card ι := by
  obtain ⟨⟨d, -⟩, -⟩ := (C.all ⟨0, h0⟩).2 0
  have : 0 < Fintype.card ι := Fintype.card_pos_iff.2 ⟨d⟩
  exact_mod_cast this

omit h0 in
theorem np_same : ph'.np = Fintype.card ι * ph.np := by
  unfold PPhase.np
  rw [sum_atoms, sum_atoms]
  exact sum_atoms_card e (fun i => (ph.atm i).occ) _ fun i => C.occ i

theorem bavg_same : ph'.bavg = ph.bavg := by
  have h := card_pos C h0
  unfold PPhase.bavg
  rw [np_same C, sum_atoms ph' fun a => a.occ * a.sf, sum_atoms ph fun a => a.occ * a.sf,
    sum_atoms_card e (fun i => (ph.atm i).occ * (ph.atm i).sf) _ fun i => by rw [C.occ i, C.sf i], mul_div_mul_left _ _ h.ne']

theorem weight_same (i : Fin ph'.atom.length) : ph'.weight i = ph.weight (e i).1 := by
  unfold PPhase.weight
  rw [bavg_same C h0, C.sf i]

omit h0 [Fintype ι] in
theorem selected_same (i j : Fin ph'.atom.length) : Selected s' i j ↔ Selected s (e i).1 (e j).1 := by
  unfold Selected
  rw [C.igI, C.igI, C.igJ, C.igJ]

theorem rtot_same : rtot ph' = Fintype.card ι * (Fintype.card ι * rtot ph) := by
  rw [rtot_double, rtot_double]
  exact double_card e (fun i j => ph.weight i * ph.weight j) _ fun i j => by rw [weight_same C h0, weight_same C h0]

theorem ract_same : ract ph' s' = Fintype.card ι * (Fintype.card ι * ract ph s) := by
  classical
  rw [ract_double, ract_double]
  exact double_card e (fun i j => if Selected s i j then ph.weight i * ph.weight j else 0) _ fun i j => by
    rw [weight_same C h0, weight_same C h0]
    simp only [selected_same C]

include F F'

theorem ncv_same : ph'.ncv = Fintype.card ι * ph.ncv := by rw [card_same C h0, ncv_det C F F']

theorem rho0_same : ph'.rho0 = ph.rho0 := by
  unfold PPhase.rho0
  rw [np_same C, ncv_same C F F' h0, mul_div_mul_left _ _ (card_pos C h0).ne']

variable (N : Near ph) (N' : Near ph') {D : Data} (R : Reach D ph) (R' : Reach D ph')
include N N' R R'

theorem pairSum_same (ig : ℤ) : pairSum D ph' s' ig = Fintype.card ι * pairSum D ph s ig := by
  classical
  rw [pairSum_full F' N', pairSum_full F N]
  simp only [selected_iff]
  refine sum_atoms_card e (fun i => ∑ j ∈ Finset.range ph.atom.length, if Selected s i j then S D ph i j ig else 0) _ fun i => ?_
  rw [Finset.sum_range, Finset.sum_range]
  let G : Fin ph.atom.length × ι → ℝ := fun x => if Selected s (e i).1 x.1 then ∑ᶠ T, term D ph (ph.atm (e i).1) (ph.atm x.1)
    ((ph.atm (e i).1).occ * ph.weight (e i).1 * ((ph.atm x.1).occ * ph.weight x.1)) (trn Q w i (e.symm x) T) ig else 0
  have h1 : ∀ j : Fin ph'.atom.length, (if Selected s' i j then S D ph' i j ig else 0) = G (e j) := by
    intro j
    dsimp only [G]
    rw [Equiv.symm_apply_apply]
    refine if_congr (selected_same C i j) ?_ rfl
    rw [S_reach R' i.2 j.2]
    simp only [term_map C, weight_same C h0, C.occ]
  rw [Finset.sum_congr rfl fun j _ => h1 j, Equiv.sum_comp e G, Fintype.sum_prod_type]
  refine Finset.sum_congr rfl fun j _ => ?_
  dsimp only [G]
  by_cases hsel : Selected s (e i).1 j
  · simp only [if_pos hsel]
    rw [S_reach R (e i).1.2 j.2]
    exact sum_trn C i j _ (reach_support F N R (e i).1.2 j.2 _ ig)
  · simp only [if_neg hsel, Finset.sum_const_zero]

theorem curve_same : curve D ph' s' = curve D ph s := by
  funext ig
  have hm := (card_pos C h0).ne'
  have e5 : envelope D ph' (D.r ig) = envelope D ph (D.r ig) := by
    obtain ⟨r1, r2, r3, r4, r5, r6, r7⟩ := C.rest
    unfold envelope
    rw [r5, r6]
  unfold curve
  rw [pairSum_same C F F' h0 N N' R R', np_same C, rho0_same C F F' h0, ract_same C h0, rtot_same C h0, e5, mul_div_mul_left _ _ hm,
    mul_div_mul_left _ _ hm, mul_div_mul_left _ _ hm]

theorem bad_same : Bad D ph' s' ↔ Bad D ph s := by
  have hm := (card_pos C h0).ne'
  unfold Bad
  rw [nan_iff F' N', nan_iff F N, np_same C, ncv_same C F F' h0, bavg_same C h0, rtot_same C h0]
  simp only [mul_eq_zero, hm, false_or]
  apply or_congr _ Iff.rfl
  constructor
  · rintro ⟨i, j, T, hi, hj, hsel, hT, he⟩
    have h1 := event_map C D ⟨i, hi⟩ ⟨j, hj⟩ T
    rw [he] at h1
    exact ⟨_, _, _, (e ⟨i, hi⟩).1.2, (e ⟨j, hj⟩).1.2, (selected_same C ⟨i, hi⟩ ⟨j, hj⟩).1 hsel,
      (R _ _ (e ⟨i, hi⟩).1.2 (e ⟨j, hj⟩).1.2 _).1 h1.symm, h1.symm⟩
  · rintro ⟨i, j, T, hi, hj, hsel, hT, he⟩
    obtain ⟨⟨d0, -⟩, -⟩ := (C.all ⟨0, h0⟩).2 0
    let i' := e.symm (⟨i, hi⟩, d0)
    have hi' : (e i').1 = ⟨i, hi⟩ := by simp [i']
    obtain ⟨⟨d, T'⟩, hT'⟩ := (trn_bij C i' ⟨j, hj⟩).2 T
    dsimp only at hT'
    have hj' : (e (e.symm (⟨j, hj⟩, d))).1 = ⟨j, hj⟩ := by simp
    have h1 := event_map C D i' (e.symm (⟨j, hj⟩, d)) T'
    rw [hT', hi', hj'] at h1
    have h2 : event D ph' (ph'.atm i') (ph'.atm (e.symm (⟨j, hj⟩, d))) T' = .nan := h1.trans he
    refine ⟨i', e.symm (⟨j, hj⟩, d), T', i'.2, (e.symm (⟨j, hj⟩, d)).2, (selected_same C _ _).2 ?_,
      (R' _ _ i'.2 (e.symm (⟨j, hj⟩, d)).2 _).1 h2, h2⟩
    rw [hi', hj']
    exact hsel

end

/-- The second cell, with all its repetitions, has `|det Q|` times the volume of the first, and `|det Q|` times as many atoms. -/
theorem C91_count {ph ph' : PPhase} {s s' : Sel} {ι : Type} [Fintype ι] {e : Fin ph'.atom.length ≃ Fin ph.atom.length × ι}
    {P : Matrix (Fin 3) (Fin 3) ℝ} {Q : Matrix (Fin 3) (Fin 3) ℤ} {w : Fin ph'.atom.length → Fin 3 → ℤ} {o : Fin 3 → ℝ}
    (C : SameCrystal ph ph' s s' ι e P Q w o) (F : C19.Fine ph.toPhs) (F' : C19.Fine ph'.toPhs) :
    ph'.ncv = |(Q.det : ℝ)| * ph.ncv ∧ ph'.atom.length = Q.det.natAbs * ph.atom.length ∧ ph'.rho0 = ph.rho0 := by
  have hl : ph'.atom.length = ph.atom.length * Fintype.card ι := by
    have := Fintype.card_congr e
    rwa [Fintype.card_fin, Fintype.card_prod, Fintype.card_fin] at this
  rcases Nat.eq_zero_or_pos ph.atom.length with h0 | h0
  · have h0' : ph'.atom.length = 0 := by rw [hl, h0, zero_mul]
    refine ⟨ncv_det C F F', by rw [h0, h0', mul_zero], ?_⟩
    unfold PPhase.rho0 PPhase.np
    rw [List.length_eq_zero_iff.1 h0, List.length_eq_zero_iff.1 h0']
    simp
  · refine ⟨ncv_det C F F', ?_, rho0_same C F F' h0⟩
    rw [hl, ← card_det Q (fun d => w (e.symm (⟨0, h0⟩, d))) (C.all ⟨0, h0⟩), mul_comm]

/-- Two descriptions of the same crystal with different unit cells give the same curve, when atoms are listed with images that are close together
and the searches reach all peaks. -/
theorem C91_reach_partial (D : Data) (h : D.Ok) {ph ph' : PPhase} {s s' : Sel} {ι : Type} [Fintype ι]
    {e : Fin ph'.atom.length ≃ Fin ph.atom.length × ι} {P : Matrix (Fin 3) (Fin 3) ℝ} {Q : Matrix (Fin 3) (Fin 3) ℤ}
    {w : Fin ph'.atom.length → Fin 3 → ℤ} {o : Fin 3 → ℝ} (C : SameCrystal ph ph' s s' ι e P Q w o)
    (F : C19.Fine ph.toPhs) (F' : C19.Fine ph'.toPhs) (N : Near ph) (N' : Near ph') (R : Reach D ph) (R' : Reach D ph')
    (l₁ l₂ : List (Option (PPhase × Sel))) (f : ℤ → ℝ) (hf : determine D (l₁ ++ some (ph, s) :: l₂) = .ok (some f)) :
    ∃ f', determine D (l₁ ++ some (ph', s') :: l₂) = .ok (some f') ∧ ∀ i, D.ncmin ≤ i → i ≤ D.ncmax → f' i = f i := by
  obtain ⟨h1, h2⟩ := determine_some h hf
  have h0 : 0 < ph.atom.length := by
    have hb : ¬Bad D ph s := h1 (ph, s) (by simp)
    rw [Nat.pos_iff_ne_zero]
    intro h0
    refine hb (Or.inr (Or.inl ?_))
    unfold PPhase.np
    rw [List.length_eq_zero_iff.1 h0]
    simp
  obtain ⟨g, e1, e2⟩ := determine_of h (psel := l₁ ++ some (ph', s') :: l₂) (by
    intro x hx
    rw [List.mem_append, List.mem_cons] at hx
    rcases hx with hx | hx | hx
    · exact h1 x (by simp [hx])
    · simp only [Option.some.injEq] at hx
      subst hx
      dsimp only
      rw [bad_same C F F' h0 N N' R R']
      exact h1 (ph, s) (by simp)
    · exact h1 x (by simp [hx]))
  refine ⟨g, e1, fun i hi hi' => ?_⟩
  rw [h2 i hi hi', e2 i hi hi']
  simp only [List.filterMap_append, List.filterMap_cons, id, List.map_append, List.map_cons, List.sum_append, List.sum_cons]
  rw [curve_same C F F' h0 N N' R R', C.rest.2.2.2.2.2.2]

/-- Two descriptions of the same crystal with different unit cells give the same curve, when there is no step cut and atoms are listed with
images that are close together. -/
theorem C91_cell_partial (D : Data) (h : D.Ok) {ph ph' : PPhase} {s s' : Sel} {ι : Type} [Fintype ι]
    {e : Fin ph'.atom.length ≃ Fin ph.atom.length × ι} {P : Matrix (Fin 3) (Fin 3) ℝ} {Q : Matrix (Fin 3) (Fin 3) ℤ}
    {w : Fin ph'.atom.length → Fin 3 → ℤ} {o : Fin 3 → ℝ} (C : SameCrystal ph ph' s s' ι e P Q w o)
    (F : C19.Fine ph.toPhs) (F' : C19.Fine ph'.toPhs) (N : Near ph) (N' : Near ph') (hs : ph.stepcut ≤ 0)
    (l₁ l₂ : List (Option (PPhase × Sel))) (f : ℤ → ℝ) (hf : determine D (l₁ ++ some (ph, s) :: l₂) = .ok (some f)) :
    ∃ f', determine D (l₁ ++ some (ph', s') :: l₂) = .ok (some f') ∧ ∀ i, D.ncmin ≤ i → i ≤ D.ncmax → f' i = f i :=
  C91_reach_partial D h C F F' N N' (reach_free D F N hs) (reach_free D F' N' (by rw [C.rest.2.2.2.2.1]; exact hs)) l₁ l₂ f hf

/-! ## Larger cells with the same directions of the edges (C60) -/

/-- The descriptions of C60 are a special case. -/
theorem of_same {ph ph' : PPhase} {s s' : Sel} {n : Fin 3 → ℕ} {e : Fin ph'.atom.length ≃ Fin ph.atom.length × Box n}
    {w : Fin ph'.atom.length → Fin 3 → ℤ} {o : Fin 3 → ℝ} (S : Same ph ph' s s' n e w o) (F : C19.Fine ph.toPhs) (F' : C19.Fine ph'.toPhs) :
    SameCrystal ph ph' s s' (Box n) e (Matrix.diagonal fun k => ph'.cell.a0 k / ph.cell.a0 k) (Matrix.diagonal fun k => (n k : ℤ))
      (fun i k => ((e i).2 k : ℕ) + n k * w i k) o where
  metric := fun i j => by
    have h : ∀ k, ph.cell.a0 k ≠ 0 := fun k => (F.edge k).ne'
    have hi := h i
    have hj := h j
    simp only [Matrix.diagonal_apply, ite_mul, mul_ite, zero_mul, mul_zero, Finset.sum_ite_eq', Finset.mem_univ, if_true]
    rw [gten_cos F, gten_cos F', S.win]
    field_simp
  period := fun a k => by
    have h : ph.cell.a0 a ≠ 0 := (F.edge a).ne'
    by_cases hk : a = k
    · subst hk
      rw [Matrix.diagonal_apply_eq, Matrix.diagonal_apply_eq]
      have := S.period a
      push_cast
      field_simp
      linarith
    · rw [Matrix.diagonal_apply_ne _ hk, Matrix.diagonal_apply_ne _ hk]
      simp
  pos := fun i a => by
    have h : ph.cell.a0 a ≠ 0 := (F.edge a).ne'
    have := S.pos i a
    simp only [Matrix.diagonal_apply, ite_mul, zero_mul, Finset.sum_ite_eq, Finset.mem_univ, if_true]
    rw [div_mul_eq_mul_div, this, mul_div_assoc, mul_comm, div_mul_cancel₀ _ h]
    push_cast
    rfl
  all := fun j => by
    let i := e.symm (j, fun k => ⟨0, S.pos_n k⟩)
    let c : Fin 3 → ℤ := fun k => ((e i).2 k : ℕ) + n k * w i k
    have hT : Function.Bijective fun x : Box n × (Fin 3 → ℤ) => (x.1, toT x.2) := by
      constructor
      · rintro ⟨d, x⟩ ⟨d', x'⟩ h
        rw [Prod.mk.injEq] at h
        refine Prod.ext h.1 (funext fun k => ?_)
        have := congrFun (congrArg co h.2) k
        rwa [co_toT, co_toT] at this
      · rintro ⟨d, T⟩
        exact ⟨(d, co T), rfl⟩
    have hc : Function.Bijective fun T : ℤ × ℤ × ℤ => co T + c := by
      constructor
      · intro T T' h
        have h := add_right_cancel h
        rw [← toT_co T, ← toT_co T', h]
      · intro y
        refine ⟨toT (y - c), funext fun k => ?_⟩
        show co (toT (y - c)) k + c k = y k
        rw [co_toT, Pi.sub_apply, sub_add_cancel]
    have hb := (hc.comp (trans_bijective S.pos_n e w i j)).comp hT
    convert hb using 1
    funext x k
    symm
    show co (trans e w i (e.symm (j, x.1)) (toT x.2)) k + (((e i).2 k : ℕ) + n k * w i k) =
      (Matrix.diagonal fun k => (n k : ℤ)).mulVec x.2 k + (((e (e.symm (j, x.1))).2 k : ℕ) + n k * w (e.symm (j, x.1)) k)
    rw [Pdffit.C60.trans, co_toT, tr, co_toT, Matrix.mulVec_diagonal]
    ring
  occ := S.occ
  disp := fun i a b => by
    have h : ∀ k, ph.cell.a0 k ≠ 0 := fun k => (F.edge k).ne'
    have ha := edge_same F F' S.win a
    have hb := edge_same F F' S.win b
    simp only [Matrix.diagonal_apply, ite_mul, zero_mul, mul_ite, mul_zero, Finset.sum_ite_eq, Finset.mem_univ, if_true]
    rw [S.u i]
    have e1 : ∀ k, recEdge ph.cell k = ph'.cell.a0 k / ph.cell.a0 k * recEdge ph'.cell k := by
      intro k
      have := edge_same F F' S.win k
      rw [div_mul_eq_mul_div, eq_div_iff (h k)]
      linarith
    rw [e1 a, e1 b]
    ring
  sf := S.sf
  igI := S.igI
  igJ := S.igJ
  rest := S.rest

/-- Violation: the claim fails when an atom is listed in a distant cell (`near` and `large` of C60). -/
theorem distant_matters : ∃ (D : Data) (ph ph' : PPhase) (s s' : Sel) (ι : Type) (_ : Fintype ι)
    (e : Fin ph'.atom.length ≃ Fin ph.atom.length × ι) (P : Matrix (Fin 3) (Fin 3) ℝ) (Q : Matrix (Fin 3) (Fin 3) ℤ)
    (w : Fin ph'.atom.length → Fin 3 → ℤ) (o : Fin 3 → ℝ) (f f' : ℤ → ℝ), D.Ok ∧ SameCrystal ph ph' s s' ι e P Q w o ∧
      C19.Fine ph.toPhs ∧ C19.Fine ph'.toPhs ∧ ph.stepcut ≤ 0 ∧ determine D [some (ph, s)] = .ok (some f) ∧
      determine D [some (ph', s')] = .ok (some f') ∧ f' D.ncmin < f D.ncmin := by
  obtain ⟨f', f, h1, h2, h3, h4⟩ := image_matters
  refine ⟨largeD, near, large, noSel, noSel, Box ![1, 1, 1], inferInstance, box1, _, _, _, _, f, f', largeD_ok,
    of_same large_same near_fine large_fine, near_fine, large_fine, le_rfl, h2, h1, ?_⟩
  rw [h3]
  exact h4

/-! ## Example: a face centred cube and its primitive cell -/

/-- Four atoms in a cube with edge 4. -/
noncomputable def cube : PPhase := { demo with
  cell := ⟨![4, 4, 4], ![90, 90, 90]⟩
  atom := [⟨![0, 0, 0], 1, ![1 / 100, 1 / 100, 1 / 100, 0, 0, 0], 1⟩,
    ⟨![0, 1 / 2, 1 / 2], 1, ![1 / 100, 1 / 100, 1 / 100, 0, 0, 0], 1⟩,
    ⟨![1 / 2, 0, 1 / 2], 1, ![1 / 100, 1 / 100, 1 / 100, 0, 0, 0], 1⟩,
    ⟨![1 / 2, 1 / 2, 0], 1, ![1 / 100, 1 / 100, 1 / 100, 0, 0, 0], 1⟩] }

/-- One atom in a rhombohedral cell. -/
noncomputable def prim : PPhase := { demo with
  cell := ⟨![√8, √8, √8], ![60, 60, 60]⟩
  atom := [⟨![0, 0, 0], 1, ![1 / 100, 1 / 100, 1 / 100, -1 / 300, -1 / 300, -1 / 300], 1⟩] }

theorem s8 : √(8 : ℝ) * √8 = 8 := Real.mul_self_sqrt (by norm_num)

theorem cube_win (k : Fin 3) : cube.cell.win k = 90 := by fin_cases k <;> rfl
theorem cube_a0 (k : Fin 3) : cube.cell.a0 k = 4 := by fin_cases k <;> rfl
theorem prim_win (k : Fin 3) : prim.cell.win k = 60 := by fin_cases k <;> rfl
theorem prim_a0 (k : Fin 3) : prim.cell.a0 k = √8 := by fin_cases k <;> rfl

theorem cube_voll : voll cube.cell = 1 := by
  unfold voll
  simp only [cube_win, C45.cosd90]
  norm_num

theorem prim_voll : voll prim.cell = 1 / 2 := by
  unfold voll
  simp only [prim_win, C20.cosd60]
  norm_num

theorem cube_fine : C19.Fine cube.toPhs where
  acc := by
    refine ⟨_, if_neg ?_⟩
    rw [show voll cube.toPhs.cell = 1 from cube_voll, not_le]
    unfold eps; norm_num
  edge := fun k => by
    show 0 < cube.cell.a0 k
    rw [cube_a0]; norm_num
  angle := fun k => by
    show 0 < cube.cell.win k ∧ cube.cell.win k < 180
    rw [cube_win]; norm_num
  small := by
    intro i j _
    left
    show cube.cell.a0 i * cube.cell.a0 j * bcosd (cube.cell.win _) = 0
    rw [cube_win, C45.cosd90, mul_zero]
  icc := fun k => by fin_cases k <;> exact one_pos

theorem prim_fine : C19.Fine prim.toPhs where
  acc := by
    refine ⟨_, if_neg ?_⟩
    rw [show voll prim.toPhs.cell = 1 / 2 from prim_voll, not_le]
    unfold eps; norm_num
  edge := fun k => by
    show 0 < prim.cell.a0 k
    rw [prim_a0]; exact Real.sqrt_pos.2 (by norm_num)
  angle := fun k => by
    show 0 < prim.cell.win k ∧ prim.cell.win k < 180
    rw [prim_win]; norm_num
  small := by
    intro i j _
    right
    show eps ≤ |prim.cell.a0 i * prim.cell.a0 j * bcosd (prim.cell.win _)|
    rw [prim_win, prim_a0, prim_a0, C20.cosd60, s8]
    unfold eps
    norm_num
  icc := fun k => by fin_cases k <;> exact one_pos

theorem cube_gten (i j : Fin 3) : cube.toPhs.gten i j = if i = j then 16 else 0 := by
  have h : cube.toPhs.gten i j = _ := C45.tensor_eq cube_fine.small i j
  rw [h]
  show (if i = j then cube.cell.a0 i * cube.cell.a0 j else cube.cell.a0 i * cube.cell.a0 j * bcosd (cube.cell.win _)) = _
  rw [cube_win, cube_a0, cube_a0, C45.cosd90]
  norm_num

theorem prim_gten (i j : Fin 3) : prim.toPhs.gten i j = if i = j then 8 else 4 := by
  have h : prim.toPhs.gten i j = _ := C45.tensor_eq prim_fine.small i j
  rw [h]
  show (if i = j then prim.cell.a0 i * prim.cell.a0 j else prim.cell.a0 i * prim.cell.a0 j * bcosd (prim.cell.win _)) = _
  rw [prim_win, prim_a0, prim_a0, C20.cosd60, s8]
  norm_num

theorem sind60 : bsind 60 * bsind 60 = 3 / 4 := by
  have h := Real.sin_sq_add_cos_sq (rad * 60)
  have hc : Real.cos (rad * 60) = 1 / 2 := C20.cosd60
  rw [hc] at h
  show Real.sin (rad * 60) * Real.sin (rad * 60) = 3 / 4
  linarith [sq (Real.sin (rad * 60))]

theorem cube_rec (i : Fin 3) : recEdge cube.cell i = 1 / 4 := by
  have h90 : bsind 90 = 1 := by
    unfold bsind rad
    rw [show Real.pi / 180 * 90 = Real.pi / 2 by ring, Real.sin_pi_div_two]
  unfold recEdge vol
  rw [cube_voll, cube_a0, cube_a0, cube_a0, cube_a0, cube_a0, cube_win, h90, Real.sqrt_one]
  norm_num

theorem prim_rec (i j : Fin 3) : recEdge prim.cell i * recEdge prim.cell j = 3 / 16 := by
  unfold recEdge vol
  rw [prim_voll]
  simp only [prim_a0, prim_win]
  have hv : √(1 / 2 : ℝ) * √(1 / 2) = 1 / 2 := Real.mul_self_sqrt (by norm_num)
  have hs := s8
  have hb := sind60
  generalize √(1 / 2 : ℝ) = q at *
  generalize √(8 : ℝ) = s at *
  generalize bsind 60 = b at *
  rw [div_mul_div_comm, show s * s * b * (s * s * b) = (s * s) * (s * s) * (b * b) by ring,
    show q * s * s * s * (q * s * s * s) = (q * q) * ((s * s) * (s * s) * (s * s)) by ring, hv, hs, hb]
  norm_num

/-- The axes of the cube in terms of those of the primitive cell. -/
def axes : Matrix (Fin 3) (Fin 3) ℤ := !![-1, 1, 1; 1, -1, 1; 1, 1, -1]

/-- The image of each atom. -/
def img (i : Fin 4) : Fin 3 → ℤ := ![![0, 0, 0], ![1, 0, 0], ![0, 1, 0], ![0, 0, 1]] i

def four : Fin 4 ≃ Fin 1 × Fin 4 where
  toFun i := (0, i)
  invFun x := x.2
  left_inv _ := rfl
  right_inv _ := Prod.ext (Subsingleton.elim _ _) rfl

theorem axes_mul (x : Fin 3 → ℤ) : axes.mulVec x = ![-x 0 + x 1 + x 2, x 0 - x 1 + x 2, x 0 + x 1 - x 2] := by
  funext k
  simp only [axes, Matrix.mulVec, dotProduct, Fin.sum_univ_three]
  fin_cases k <;> simp <;> ring

theorem img_all : Function.Bijective fun x : Fin 4 × (Fin 3 → ℤ) => axes.mulVec x.2 + img x.1 := by
  constructor
  · rintro ⟨d, x⟩ ⟨d', x'⟩ h
    dsimp only at h
    rw [axes_mul, axes_mul] at h
    have h0 := congrFun h 0
    have h1 := congrFun h 1
    have h2 := congrFun h 2
    fin_cases d <;> fin_cases d' <;> simp [img] at h0 h1 h2 ⊢ <;> first
      | omega
      | (funext k
         match k with
         | 0 => omega
         | 1 => omega
         | 2 => omega)
  · intro y
    have key : ∃ (d : Fin 4) (a b c : ℤ), -a + b + c + img d 0 = y 0 ∧ a - b + c + img d 1 = y 1 ∧ a + b - c + img d 2 = y 2 := by
      rcases Int.emod_two_eq_zero_or_one (y 0 + y 1) with h0 | h0 <;> rcases Int.emod_two_eq_zero_or_one (y 1 + y 2) with h1 | h1
      · exact ⟨0, (y 1 + y 2) / 2, (y 0 + y 2) / 2, (y 0 + y 1) / 2, by simp [img]; omega, by simp [img]; omega, by simp [img]; omega⟩
      · exact ⟨3, (y 1 + y 2 - 1) / 2, (y 0 + y 2 - 1) / 2, (y 0 + y 1) / 2, by simp [img]; omega, by simp [img]; omega, by simp [img]; omega⟩
      · exact ⟨1, (y 1 + y 2) / 2, (y 0 + y 2 - 1) / 2, (y 0 + y 1 - 1) / 2, by simp [img]; omega, by simp [img]; omega, by simp [img]; omega⟩
      · exact ⟨2, (y 1 + y 2 - 1) / 2, (y 0 + y 2) / 2, (y 0 + y 1 - 1) / 2, by simp [img]; omega, by simp [img]; omega, by simp [img]; omega⟩
    obtain ⟨d, a, b, c, e0, e1, e2⟩ := key
    refine ⟨(d, ![a, b, c]), ?_⟩
    dsimp only
    rw [axes_mul]
    funext k
    match k with
    | 0 => exact e0
    | 1 => exact e1
    | 2 => exact e2

theorem cube_atm (i : ℕ) (h : i < 4) : (cube.atm i).occ = 1 ∧ (cube.atm i).u = ![1 / 100, 1 / 100, 1 / 100, 0, 0, 0] ∧ (cube.atm i).sf = 1 := by
  match i, h with
  | 0, _ => exact ⟨rfl, rfl, rfl⟩
  | 1, _ => exact ⟨rfl, rfl, rfl⟩
  | 2, _ => exact ⟨rfl, rfl, rfl⟩
  | 3, _ => exact ⟨rfl, rfl, rfl⟩

theorem prim_u : (prim.atm 0).u = ![1 / 100, 1 / 100, 1 / 100, -1 / 300, -1 / 300, -1 / 300] := rfl

theorem cube_same : SameCrystal prim cube noSel noSel (Fin 4) four (axes.map (Int.cast : ℤ → ℝ)) axes img 0 where
  metric := fun i j => by
    simp only [prim_gten, cube_gten, Fin.sum_univ_three, Matrix.map_apply]
    match i, j with
    | 0, 0 | 0, 1 | 0, 2 | 1, 0 | 1, 1 | 1, 2 | 2, 0 | 2, 1 | 2, 2 => simp [axes]; norm_num
  period := fun a k => by
    rw [Matrix.map_apply, show cube.icc k = 1 from by fin_cases k <;> rfl, show prim.icc a = 1 from by fin_cases a <;> rfl]
    push_cast
    ring
  pos := fun ⟨i, h⟩ a => by
    have hi : i < 4 := h
    show ∑ k, ((axes a k : ℤ) : ℝ) * (cube.atm i).pos k = (![0, 0, 0] : Fin 3 → ℝ) a + 0 + (prim.icc a : ℝ) * ((img ⟨i, hi⟩ a : ℤ) : ℝ)
    rw [show prim.icc a = 1 from by fin_cases a <;> rfl]
    simp only [Fin.sum_univ_three]
    interval_cases i <;> fin_cases a <;> simp [axes, img, cube, PPhase.atm] <;> norm_num
  all := fun j => img_all
  occ := fun ⟨i, h⟩ => (cube_atm i h).1
  disp := fun ⟨i, h⟩ a b => by
    show (prim.atm 0).u (uix a b) * _ * _ = ∑ k, ∑ l, ((axes a k : ℤ) : ℝ) * ((axes b l : ℤ) : ℝ) * ((cube.atm i).u (uix k l) * _ * _)
    rw [mul_assoc, prim_rec, prim_u, (cube_atm i h).2.1]
    simp only [cube_rec, Fin.sum_univ_three]
    match a, b with
    | 0, 0 | 0, 1 | 0, 2 | 1, 0 | 1, 1 | 1, 2 | 2, 0 | 2, 1 | 2, 2 => simp [axes, uix]; norm_num
  sf := fun ⟨i, h⟩ => (cube_atm i h).2.2
  igI := fun _ => rfl
  igJ := fun _ => rfl
  rest := ⟨rfl, rfl, rfl, rfl, rfl, rfl, rfl⟩

theorem cube_near : Near cube := near_of _ cube_fine fun i j hi hj k => by
  have hi : i < 4 := hi
  have hj : j < 4 := hj
  interval_cases i <;> interval_cases j <;> fin_cases k <;> norm_num [cube, PPhase.atm, abs_le]

theorem prim_near : Near prim := near_of _ prim_fine fun i j hi hj k => by
  have hi : i < 1 := hi
  have hj : j < 1 := hj
  interval_cases i
  interval_cases j
  simp

theorem prim_good (q : ℝ) : ¬Bad (demoD q) prim noSel := by
  have hn : prim.np = 1 := by norm_num [PPhase.np, prim]
  have hb : prim.bavg = 1 := by
    have : prim.bavg = (1 * 1 + 0) / prim.np := rfl
    rw [this, hn]; norm_num
  have hw : prim.weight 0 = 1 := by
    have : prim.weight 0 = 1 / prim.bavg := rfl
    rw [this, hb]; norm_num
  have hr : rtot prim = 1 := by
    have : rtot prim = 1 * prim.weight 0 * prim.weight 0 + 0 := by
      unfold rtot half
      rw [show halfPairs prim.atom.length = [(0, 0)] from by decide +kernel]
      simp
    rw [this, hw]; norm_num
  have hu : ∀ i, (∀ k, 0 ≤ (cube.atm i).u k) ∧ (cube.atm i).u 3 = 0 ∧ (cube.atm i).u 4 = 0 ∧ (cube.atm i).u 5 = 0 := by
    intro i
    by_cases h : i < 4
    · rw [(cube_atm i h).2.1]
      exact ⟨fun k => by fin_cases k <;> norm_num, rfl, rfl, rfl⟩
    · obtain ⟨n, rfl⟩ := Nat.exists_eq_add_of_le' (not_lt.1 h)
      exact ⟨fun k => le_rfl, rfl, rfl, rfl⟩
  have hv : prim.ncv ≠ 0 := by
    have p : 0 < vol prim.cell := phase_vol_pos prim_fine
    have : prim.ncv = vol prim.cell := by simp [PPhase.ncv, prim, demo]
    rw [this]
    exact p.ne'
  rw [← bad_same cube_same prim_fine cube_fine one_pos prim_near cube_near (reach_free _ prim_fine prim_near le_rfl)
    (reach_free _ cube_fine cube_near le_rfl)]
  have hc : (Fintype.card (Fin 4) : ℝ) = 4 := by norm_num
  rintro (⟨x, -, h⟩ | h | h | h | h | ⟨i, h1, -, h⟩)
  · exact event_ne_nan _ _ _ _ _ (hu _) (hu _) le_rfl h
  · rw [np_same cube_same, hn, hc] at h; norm_num at h
  · rw [ncv_same cube_same prim_fine cube_fine one_pos, hc] at h
    exact hv (by linarith)
  · rw [bavg_same cube_same one_pos, hb] at h; norm_num at h
  · rw [rtot_same cube_same one_pos, hr, hc] at h; norm_num at h
  · have h0 := (ncmin_nonneg (demoD_ok q)).trans h1
    have : (0 : ℝ) ≤ i := by exact_mod_cast h0
    unfold Data.r demoD at h
    dsimp only at h
    linarith

example : ∃ f f', determine (demoD 20) [some (prim, noSel)] = .ok (some f) ∧ determine (demoD 20) [some (cube, noSel)] = .ok (some f') ∧
    ∀ i, (demoD 20).ncmin ≤ i → i ≤ (demoD 20).ncmax → f' i = f i := by
  obtain ⟨f, hf, -⟩ := determine_of (demoD_ok 20) (psel := [some (prim, noSel)]) (by
    intro x hx
    simp only [List.mem_singleton, Option.some.injEq] at hx
    subst hx
    exact prim_good _)
  obtain ⟨f', h⟩ := C91_cell_partial _ (demoD_ok 20) cube_same prim_fine cube_fine prim_near cube_near le_rfl [] [] f hf
  exact ⟨f, f', hf, h⟩

/-! The same with a step cut. -/

noncomputable def cubeCut : PPhase := { cube with stepcut := 2 }
noncomputable def primCut : PPhase := { prim with stepcut := 2 }

theorem cubeCut_fine : C19.Fine cubeCut.toPhs := ⟨cube_fine.acc, cube_fine.edge, cube_fine.angle, cube_fine.small, cube_fine.icc⟩
theorem primCut_fine : C19.Fine primCut.toPhs := ⟨prim_fine.acc, prim_fine.edge, prim_fine.angle, prim_fine.small, prim_fine.icc⟩
theorem cubeCut_near : Near cubeCut := fun i j hi hj => cube_near i j hi hj
theorem primCut_near : Near primCut := fun i j hi hj => prim_near i j hi hj

theorem cut_same : SameCrystal primCut cubeCut noSel noSel (Fin 4) four (axes.map (Int.cast : ℤ → ℝ)) axes img 0 :=
  ⟨cube_same.metric, cube_same.period, cube_same.pos, cube_same.all, cube_same.occ, cube_same.disp, cube_same.sf, cube_same.igI, cube_same.igJ,
    rfl, rfl, rfl, rfl, rfl, rfl, rfl⟩

theorem cube_skal (v : Fin 3 → ℝ) : cube.toPhs.skal v v = 16 * (v 0 ^ 2 + v 1 ^ 2 + v 2 ^ 2) := by
  unfold Phs.skal skalpro
  simp only [cube_gten, mul_ite, mul_zero, Finset.sum_ite_eq, Finset.mem_univ, if_true, Fin.sum_univ_three]
  ring

theorem iso_u (i j : Fin 3) : (![1 / 100, 1 / 100, 1 / 100, 0, 0, 0] : Fin 6 → ℝ) (uix i j) = if i = j then 1 / 100 else 0 := by
  match i, j with
  | 0, 0 | 0, 1 | 0, 2 | 1, 0 | 1, 1 | 1, 2 | 2, 0 | 2, 1 | 2, 2 => simp [uix]

theorem cube_u (i : ℕ) : (∀ k, 0 ≤ (cube.atm i).u k) ∧ (cube.atm i).u 3 = 0 ∧ (cube.atm i).u 4 = 0 ∧ (cube.atm i).u 5 = 0 := by
  by_cases h : i < 4
  · rw [(cube_atm i h).2.1]
    exact ⟨fun k => by fin_cases k <;> norm_num, rfl, rfl, rfl⟩
  · obtain ⟨n, rfl⟩ := Nat.exists_eq_add_of_le' (not_lt.1 h)
    exact ⟨fun k => le_rfl, rfl, rfl, rfl⟩

theorem cube_msd {i j : ℕ} (hi : i < 4) (hj : j < 4) (v : Fin 3 → ℝ) : cube.msd (cube.atm i) (cube.atm j) v ≤ 1 / 50 := by
  rw [msd_sum, (cube_atm i hi).2.1, (cube_atm j hj).2.1]
  have hn := cube_skal v
  have h0 : 0 ≤ cube.toPhs.skal v v := by rw [hn]; positivity
  have hs := Real.sq_sqrt h0
  generalize √(cube.toPhs.skal v v) = n at *
  simp only [cube_rec, cube_gten, iso_u, ite_mul, zero_mul, Finset.sum_ite_eq, Finset.mem_univ, if_true, ite_add_ite, add_zero]
  rw [Fin.sum_univ_three]
  rcases eq_or_ne n 0 with e | e
  · rw [e]
    norm_num
  · have : n ^ 2 = 16 * (v 0 ^ 2 + v 1 ^ 2 + v 2 ^ 2) := by rw [hs, hn]
    have k : ∀ x y z : ℝ, (1 / 100 + 1 / 100) * (1 / 4 * (16 * (x / n))) * (1 / 4 * (16 * (x / n))) +
        (1 / 100 + 1 / 100) * (1 / 4 * (16 * (y / n))) * (1 / 4 * (16 * (y / n))) +
        (1 / 100 + 1 / 100) * (1 / 4 * (16 * (z / n))) * (1 / 4 * (16 * (z / n))) = 16 * (x ^ 2 + y ^ 2 + z ^ 2) / n ^ 2 / 50 := by
      intro x y z
      field_simp
      ring
    rw [k, ← this, div_self (pow_ne_zero 2 e)]

theorem cube_width {q : ℝ} {i j : ℕ} (hi : i < 4) (hj : j < 4) {T : ℤ × ℤ × ℤ} {d g : ℝ}
    (e : event (demoD q) cubeCut (cubeCut.atm i) (cubeCut.atm j) T = .peak d g) : g ≤ 3 / 20 := by
  have hm : cubeCut.msd (cubeCut.atm i) (cubeCut.atm j) (dd cubeCut (cubeCut.atm i) (cubeCut.atm j) T) ≤ 1 / 50 := cube_msd hi hj _
  unfold event at e
  dsimp only at e
  split_ifs at e
  cases e
  unfold sigma
  rw [if_neg (not_lt.2 (show cubeCut.rcut ≤ _ from Real.sqrt_nonneg _)),
    show corfact (demoD q) cubeCut (cubeCut.toPhs.skal (dd cubeCut (cubeCut.atm i) (cubeCut.atm j) T) (dd cubeCut (cubeCut.atm i) (cubeCut.atm j) T)) = 1 by
      unfold corfact
      rw [show cubeCut.delta2 = 0 from rfl, show cubeCut.delta1 = 0 from rfl, show (demoD q).qbroad = 0 from rfl]
      norm_num, Real.sqrt_one, mul_one]
  exact (Real.sqrt_le_left (by norm_num)).2 (by linarith)

theorem diag (c : PPhase) (F : C19.Fine c.toPhs) (hne : c.atom.length ≠ 0) (h : c.toPhs.skal (fun _ => 1) (fun _ => 1) = 48) :
    6 < circumDiameter c.toPhs := by
  have h1 := C19.diag_bound c.toPhs F (by
    intro e
    have : c.toPhs.atom.length = c.atom.length := by simp [PPhase.toPhs]
    rw [e] at this
    exact hne this.symm) (fun _ => 1) (fun _ => by simp)
  rw [h] at h1
  have : 6 < √(48 : ℝ) := Real.lt_sqrt_of_sq_lt (by norm_num)
  linarith

theorem cubeCut_reach (q : ℝ) : Reach (demoD q) cubeCut := by
  refine reach_cut _ (demoD_ok q) cubeCut_fine cubeCut_near (fun i j _ _ T => event_ne_nan _ _ _ _ _ (cube_u i) (cube_u j) le_rfl) ?_
  intro i j hi hj T d g e
  have hg := cube_width hi hj e
  have hd : 6 < circumDiameter cubeCut.toPhs := diag cubeCut cubeCut_fine (by show 4 ≠ 0; norm_num) (by
    have := cube_skal fun _ => 1
    norm_num at this
    exact this)
  have hp : ∀ k, |(cubeCut.atm i).pos k - (cubeCut.atm j).pos k| ≤ 1 / 2 := by
    intro k
    have hi : i < 4 := hi
    have hj : j < 4 := hj
    interval_cases i <;> interval_cases j <;> fin_cases k <;> norm_num [cubeCut, cube, PPhase.atm, abs_le]
  have hs : √(cubeCut.toPhs.skal (fun k => (cubeCut.atm i).pos k - (cubeCut.atm j).pos k)
      fun k => (cubeCut.atm i).pos k - (cubeCut.atm j).pos k) ≤ 4 := by
    have h1 := cube_skal fun k => (cubeCut.atm i).pos k - (cubeCut.atm j).pos k
    have h2 : cubeCut.toPhs.skal (fun k => (cubeCut.atm i).pos k - (cubeCut.atm j).pos k)
      (fun k => (cubeCut.atm i).pos k - (cubeCut.atm j).pos k) = _ := h1
    rw [h2]
    refine (Real.sqrt_le_left (by norm_num)).2 ?_
    have q0 := sq_le_sq' (abs_le.1 (hp 0)).1 (abs_le.1 (hp 0)).2
    have q1 := sq_le_sq' (abs_le.1 (hp 1)).1 (abs_le.1 (hp 1)).2
    have q2 := sq_le_sq' (abs_le.1 (hp 2)).1 (abs_le.1 (hp 2)).2
    linarith
  have hδ : (demoD q).deltar = 1 / 2 := by norm_num [demoD]
  rw [hδ]
  linarith

theorem primCut_event (q : ℝ) (T : ℤ × ℤ × ℤ) : ∃ j < 4, ∃ T', event (demoD q) primCut (primCut.atm 0) (primCut.atm 0) T =
    event (demoD q) cubeCut (cubeCut.atm 0) (cubeCut.atm j) T' := by
  obtain ⟨⟨j, T'⟩, h⟩ := (trn_bij cut_same ⟨0, by decide⟩ ⟨0, one_pos⟩).2 T
  have := event_map cut_same (demoD q) ⟨0, by decide⟩ (four.symm (0, j)) T'
  exact ⟨j, j.2, T', by rw [← h]; exact this.symm⟩

theorem primCut_reach (q : ℝ) : Reach (demoD q) primCut := by
  refine reach_cut _ (demoD_ok q) primCut_fine primCut_near ?_ ?_
  · intro i j hi hj T
    have hi : i < 1 := hi
    have hj : j < 1 := hj
    interval_cases i
    interval_cases j
    obtain ⟨k, -, T', h⟩ := primCut_event q T
    rw [h]
    exact event_ne_nan _ _ _ _ _ (cube_u 0) (cube_u k) le_rfl
  · intro i j hi hj T d g e
    have hi : i < 1 := hi
    have hj : j < 1 := hj
    interval_cases i
    interval_cases j
    obtain ⟨k, hk, T', h⟩ := primCut_event q T
    have hg := cube_width (by norm_num) hk (h ▸ e)
    have hd : 6 < circumDiameter primCut.toPhs := diag primCut primCut_fine (by show 1 ≠ 0; norm_num) (by
      show prim.toPhs.skal _ _ = 48
      unfold Phs.skal skalpro
      simp only [prim_gten, Fin.sum_univ_three]
      simp
      norm_num)
    have hδ : (demoD q).deltar = 1 / 2 := by norm_num [demoD]
    simp only [sub_self]
    rw [hδ, show primCut.toPhs.skal (fun _ => 0) (fun _ => 0) = 0 by simp [Phs.skal, skalpro], Real.sqrt_zero]
    linarith

example (l₁ l₂ : List (Option (PPhase × Sel))) (f : ℤ → ℝ) (hf : determine (demoD 20) (l₁ ++ some (primCut, noSel) :: l₂) = .ok (some f)) :
    ∃ f', determine (demoD 20) (l₁ ++ some (cubeCut, noSel) :: l₂) = .ok (some f') ∧
      ∀ i, (demoD 20).ncmin ≤ i → i ≤ (demoD 20).ncmax → f' i = f i :=
  C91_reach_partial _ (demoD_ok 20) cut_same primCut_fine cubeCut_fine primCut_near cubeCut_near (primCut_reach _) (cubeCut_reach _) l₁ l₂ f hf

example : cube.ncv = 4 * prim.ncv := by
  have h := (C91_count cube_same prim_fine cube_fine).1
  have hd : axes.det = 4 := by rw [Matrix.det_fin_three]; simp [axes]
  rw [hd] at h
  norm_num at h
  exact h

end Pdffit.C91
