import Verif.Lemmas.RefineLinRun
import Verif.Lemmas.ConstrDet
import Mathlib.Data.Rat.Floor
import Mathlib.Tactic.FinCases

/-!
# C73: a fit in which the curve depends linearly on the parameters finds the best values

* `C73_least_squares`: one call of `refine()` brings chi-square to its minimum up to a factor that depends on the number of calls and
  on how well the points determine the parameters (`Sharp`).
* `C73_sharp`: points that determine the parameters do so with some sharpness.
* `C73_accuracy`: the factor is at most `10 ^ -36 / μ ^ 8`.
* `C73_one_parameter`: with one free parameter `μ = 1`; its distance from the best value shrinks by `10 ^ 18` at least.
* `C73_constrained`: the engine with its constraints.
-/

namespace Pdffit.C73
variable {K W : Type} [Field K] [LinearOrder K] [IsStrictOrderedRing K]

/-- Indices of the free parameters. -/
abbrev free (par : ParStore K) : Finset ℕ := (Finset.range par.p.length).filter fun i => par.ip.getD i false = true

/-- `par` differs from `p0` in the values of free parameters only. -/
def Same (p0 par : ParStore K) : Prop :=
  par.ip = p0.ip ∧ par.id = p0.id ∧ par.p.length = p0.p.length ∧
    ∀ i, i < p0.p.length → p0.ip.getD i false = false → par.p.getD i 0 = p0.p.getD i 0

/-- The points `B`, given at the parameters `p0`, moved along their derivatives to the parameters `par`. -/
def at_ (p0 : ParStore K) (B : List (List (Pt K))) (par : ParStore K) : List (List (Pt K)) :=
  B.map (List.map fun pt =>
    { pt with mod := pt.mod + ∑ i ∈ free p0, pt.d i * (par.p.getD i 0 - p0.p.getD i 0) })

/-- The same points, as far as the fit is concerned: derivatives with respect to fixed parameters do not matter. -/
def Agrees (p0 : ParStore K) (A B : List (List (Pt K))) : Prop :=
  List.Forall₂ (List.Forall₂ fun p q => p.w = q.w ∧ p.obs = q.obs ∧ p.mod = q.mod ∧ ∀ l ∈ free p0, p.d l = q.d l) A B

theorem agrees_of_eq {p0 : ParStore K} {A B : List (List (Pt K))} (h : A = B) : Agrees p0 A B := h ▸ Lin.Agree.refl _ _

/-- Chi-square of fitted points. -/
def chi (dss : List (List (Pt K))) : K := (dss.flatten.map fun pt => pt.w * (pt.obs - pt.mod) ^ 2).sum

/-- A change `y` of the free parameters changes the curve by at least `μ` times what the same changes would give if the
parameters acted on different points. -/
def Sharp (p0 : ParStore K) (B : List (List (Pt K))) (μ : K) : Prop :=
  0 < μ ∧ ∀ y : ℕ → K, μ * ∑ i ∈ free p0, (B.flatten.map fun pt => pt.w * pt.d i * pt.d i).sum * y i ^ 2 ≤
    (B.flatten.map fun pt => pt.w * (∑ i ∈ free p0, pt.d i * y i) ^ 2).sum

/-- Factor left after `k` steps: the damping is 1/1000 and becomes ten times smaller in every step. -/
def left (μ : K) (k : ℕ) : K := ∏ j ∈ Finset.range k, (1 / 1000 / 10 ^ j / (1 / 1000 / 10 ^ j + μ)) ^ 2

theorem left_le_one {μ : K} (hμ : 0 < μ) (k : ℕ) : left μ k ≤ 1 := by
  refine Finset.prod_le_one (fun _ _ => sq_nonneg _) fun j _ => ?_
  have h : (0 : K) < 1 / 1000 / 10 ^ j := by positivity
  have h1 : 1 / 1000 / 10 ^ j / (1 / 1000 / 10 ^ j + μ) ≤ 1 := by
    rw [div_le_one (by positivity)]
    linarith
  exact pow_le_one₀ (by positivity) h1

theorem left_le {μ : K} (hμ : 0 < μ) (k : ℕ) (hk : 4 ≤ k) : left μ k ≤ 1 / (10 ^ 36 * μ ^ 8) := by
  have hfac : ∀ j : ℕ, 0 ≤ (1 / 1000 / 10 ^ j / (1 / 1000 / 10 ^ j + μ) : K) ∧
      (1 / 1000 / 10 ^ j / (1 / 1000 / 10 ^ j + μ) : K) ≤ 1 := by
    intro j
    have h : (0 : K) < 1 / 1000 / 10 ^ j := by positivity
    refine ⟨by positivity, ?_⟩
    rw [div_le_one (by positivity)]
    linarith
  have h1 : left μ k ≤ left μ 4 := by
    unfold left
    obtain ⟨m, rfl⟩ := Nat.exists_eq_add_of_le hk
    rw [Finset.prod_range_add]
    refine mul_le_of_le_one_right (Finset.prod_nonneg fun _ _ => sq_nonneg _) ?_
    exact Finset.prod_le_one (fun _ _ => sq_nonneg _) fun j _ => pow_le_one₀ (hfac _).1 (hfac _).2
  refine h1.trans ?_
  have h2 : ∀ j : ℕ, (1 / 1000 / 10 ^ j / (1 / 1000 / 10 ^ j + μ) : K) ^ 2 ≤ (1 / 1000 / 10 ^ j / μ) ^ 2 := by
    intro j
    have h : (0 : K) < 1 / 1000 / 10 ^ j := by positivity
    refine pow_le_pow_left₀ (hfac j).1 ?_ 2
    exact div_le_div_of_nonneg_left h.le hμ (by linarith)
  calc left μ 4 ≤ ∏ j ∈ Finset.range 4, (1 / 1000 / 10 ^ j / μ) ^ 2 :=
        Finset.prod_le_prod (fun _ _ => sq_nonneg _) fun j _ => h2 j
    _ = 1 / (10 ^ 36 * μ ^ 8) := by
        simp only [Finset.prod_range_succ, Finset.prod_range_zero]
        field_simp
        norm_num

theorem chi_at (p0 : ParStore K) (B : List (List (Pt K))) (par : ParStore K) :
    chi (at_ p0 B par) = Lin.chiAt (Lin.Fr p0) B.flatten (Lin.off p0 par) := Lin.shift_chi _ _ B

theorem chi_start (p0 : ParStore K) (B : List (List (Pt K))) : chi (at_ p0 B p0) = chi B := by
  have h : at_ p0 B p0 = B := by
    unfold at_
    simp
  rw [h]

theorem Sharp.hc {p0 : ParStore K} {B : List (List (Pt K))} {μ : K} (h : Sharp p0 B μ) (y : ℕ → K) :
    μ * ∑ i ∈ Lin.Fr p0, Lin.diag B.flatten i * y i ^ 2 ≤ Lin.bil (Lin.Fr p0) B.flatten y y := by
  refine (h.2 y).trans (le_of_eq ?_)
  unfold Lin.bil Lin.lin
  congr 1
  refine List.map_congr_left fun pt _ => ?_
  rw [mul_assoc, ← pow_two]
  rfl

/-- **C73** Every evaluation with other values of the free parameters gives the points of the start moved along their derivatives.
Then `refine()`, started afresh, ends normally after 5 to 101 calls; the fixed parameters keep their values, `chi`-square and
`Rw` are those of the values found, the engine holds the curve of these values, and chi-square exceeds that of any other values `par`
by no more than `left μ (calls - 1)` times what it did at the start. -/
theorem C73_least_squares (th : Theory K W) (P : W → Prop) (B : List (List (Pt K))) (toler : K) (s : Statics K) (e : Eng K W)
    (hfresh : ¬ (s.fitRunning = true ∧ e.iter ≠ 0)) (w : W) (hset : th.setup e.par e.world = (w, none)) (hw : P w)
    (hlin : ∀ par w, Same e.par par → P w → ∃ w', th.eval par w = (w', none) ∧ P w' ∧ Agrees e.par (th.pts w') (at_ e.par B par))
    (hB : Determined e.par B) (μ : K) (hs : Sharp e.par B μ) (fuel : ℕ) (hf : 101 ≤ fuel) :
    let r := refineLoop th toler fuel (s, e)
    r.2.1 = .done ∧ 5 ≤ r.2.2 ∧ r.2.2 ≤ 101 ∧ Same e.par r.1.2.par ∧ Agrees e.par (th.pts r.1.2.world) (at_ e.par B r.1.2.par) ∧
      r.1.2.chisq = chi (at_ e.par B r.1.2.par) ∧
      r.1.2.rw2 = chi (at_ e.par B r.1.2.par) / (B.flatten.map fun pt => pt.w * pt.obs * pt.obs).sum ∧
      P r.1.2.world ∧ (∃ w0, P w0 ∧ th.eval r.1.2.par w0 = (r.1.2.world, none)) ∧
      ∀ par, Same e.par par →
        r.1.2.chisq - chi (at_ e.par B par) ≤ left μ (r.2.2 - 1) * (chi B - chi (at_ e.par B par)) := by
  have hl : Lin.LinTh th e.par P B := fun par w h1 h2 => hlin par w ⟨h1.1.1, h1.1.2.1, h1.1.2.2, h1.2⟩ h2
  obtain ⟨x, hx⟩ := Lin.exists_min hB
  obtain ⟨c, c1, c2, c3, c4, c5, c6, c7, c8, w0, c9, c10⟩ := Lin.refineLoop_lin hl hB hs.1 hs.hc hx toler s e hfresh rfl w hset hw fuel hf
  have hsame : Same e.par (refineLoop th toler fuel (s, e)).1.2.par := ⟨c4.1.1, c4.1.2.1, c4.1.2.2, c4.2⟩
  dsimp only
  rw [c3]
  refine ⟨rfl, by dsimp only; omega, by dsimp only; omega, hsame, ?_, ?_, ?_, c8, ⟨w0, c9, c10⟩, ?_⟩
  · obtain ⟨w', k1, k2, k3⟩ := hlin _ w0 hsame c9
    rw [c10] at k1
    cases k1
    exact k3
  · rw [chi_at]; exact c6
  · rw [chi_at]; exact c7
  · intro par hp
    have hrate : Lin.rate μ c = left μ c := rfl
    rw [hrate] at c5
    show _ ≤ left μ (c + 1 - 1) * _
    rw [Nat.add_sub_cancel, c6, ← chi_start e.par B, chi_at, chi_at, Lin.chi_exc hx, Lin.chi_exc hx, Lin.chi_exc hx]
    have h1 := left_le_one hs.1 c
    have h2 := Lin.exc_nonneg hB x par
    have h3 : left μ c * Lin.exc e.par B x par ≤ Lin.exc e.par B x par := mul_le_of_le_one_left h2 h1
    linarith

/-- **C73** Points that determine the free parameters do so with some sharpness, whatever the calculated and observed values are. -/
theorem C73_sharp {p0 : ParStore K} {B : List (List (Pt K))} (hB : Determined p0 B) : ∃ μ, Sharp p0 B μ := by
  obtain ⟨μ, h1, h2⟩ := Lin.exists_sharp hB
  refine ⟨μ, h1, fun y => (h2 y).trans (le_of_eq ?_)⟩
  unfold Lin.bil Lin.lin
  congr 1
  refine List.map_congr_left fun pt _ => ?_
  rw [mul_assoc, ← pow_two]
  rfl

theorem chi_nonneg {p0 : ParStore K} {B : List (List (Pt K))} (hB : Determined p0 B) (par : ParStore K) :
    0 ≤ chi (at_ p0 B par) := by
  rw [chi_at]
  refine List.sum_nonneg fun x hx => ?_
  obtain ⟨pt, hpt, rfl⟩ := List.mem_map.1 hx
  exact mul_nonneg (hB.weight pt hpt) (sq_nonneg _)

/-- **C73** The same in numbers: chi-square is minimal up to `10 ^ -36 / μ ^ 8` of its value at the start. -/
theorem C73_accuracy (th : Theory K W) (P : W → Prop) (B : List (List (Pt K))) (toler : K) (s : Statics K) (e : Eng K W)
    (hfresh : ¬ (s.fitRunning = true ∧ e.iter ≠ 0)) (w : W) (hset : th.setup e.par e.world = (w, none)) (hw : P w)
    (hlin : ∀ par w, Same e.par par → P w → ∃ w', th.eval par w = (w', none) ∧ P w' ∧ Agrees e.par (th.pts w') (at_ e.par B par))
    (hB : Determined e.par B) (μ : K) (hs : Sharp e.par B μ) (fuel : ℕ) (hf : 101 ≤ fuel) (par : ParStore K) (hp : Same e.par par) :
    (refineLoop th toler fuel (s, e)).1.2.chisq ≤ chi (at_ e.par B par) + chi B / (10 ^ 36 * μ ^ 8) := by
  obtain ⟨-, h2, -, -, -, -, -, -, -, h9⟩ := C73_least_squares th P B toler s e hfresh w hset hw hlin hB μ hs fuel hf
  have h := h9 par hp
  have h1 := left_le hs.1 ((refineLoop th toler fuel (s, e)).2.2 - 1) (by omega)
  have h0 : 0 ≤ left μ ((refineLoop th toler fuel (s, e)).2.2 - 1) := Finset.prod_nonneg fun _ _ => sq_nonneg _
  have hn := chi_nonneg hB par
  have hn0 : 0 ≤ chi B := by rw [← chi_start e.par B]; exact chi_nonneg hB _
  have h3 := mul_le_mul_of_nonneg_right h1 hn0
  have h4 : 1 / (10 ^ 36 * μ ^ 8) * chi B = chi B / (10 ^ 36 * μ ^ 8) := by ring
  rw [h4] at h3
  have h5 := mul_nonneg h0 hn
  rw [mul_sub] at h
  linarith

/-- One free parameter is determined with sharpness one. -/
theorem sharp_one {p0 : ParStore K} (B : List (List (Pt K))) (i : ℕ) (hi : free p0 = {i}) : Sharp p0 B 1 := by
  refine ⟨one_pos, fun y => le_of_eq ?_⟩
  rw [hi]
  simp only [Finset.sum_singleton, one_mul]
  rw [mul_comm, ← List.sum_map_mul_left]
  congr 1
  refine List.map_congr_left fun pt _ => ?_
  ring

/-- **C73** One free parameter, `i`.  Its best value is `p + (Σ w (obs - mod) d) / (Σ w d d)`; `refine()` brings it at least
`10 ^ 18` times closer to that value. -/
theorem C73_one_parameter (th : Theory K W) (P : W → Prop) (B : List (List (Pt K))) (toler : K) (s : Statics K) (e : Eng K W)
    (hfresh : ¬ (s.fitRunning = true ∧ e.iter ≠ 0)) (w : W) (hset : th.setup e.par e.world = (w, none)) (hw : P w)
    (hlin : ∀ par w, Same e.par par → P w → ∃ w', th.eval par w = (w', none) ∧ P w' ∧ Agrees e.par (th.pts w') (at_ e.par B par))
    (i : ℕ) (hi : free e.par = {i}) (hB : Determined e.par B) (fuel : ℕ) (hf : 101 ≤ fuel) (best : K)
    (hb : best = e.par.p.getD i 0 +
      (B.flatten.map fun pt => pt.w * (pt.obs - pt.mod) * pt.d i).sum / (B.flatten.map fun pt => pt.w * pt.d i * pt.d i).sum) :
    let r := refineLoop th toler fuel (s, e)
    r.2.1 = .done ∧ |r.1.2.par.p.getD i 0 - best| ≤ |e.par.p.getD i 0 - best| / 10 ^ 18 ∧
      ∀ par, Same e.par par → chi (at_ e.par B par) =
        chi (at_ e.par B r.1.2.par) + (B.flatten.map fun pt => pt.w * pt.d i * pt.d i).sum *
          ((par.p.getD i 0 - best) ^ 2 - (r.1.2.par.p.getD i 0 - best) ^ 2) := by
  have hl : Lin.LinTh th e.par P B := fun par w h1 h2 => hlin par w ⟨h1.1.1, h1.1.2.1, h1.1.2.2, h1.2⟩ h2
  have hs := sharp_one B i hi
  have hFr : Lin.Fr e.par = {i} := hi
  have hmem : i ∈ Lin.Fr e.par := by rw [hFr]; exact Finset.mem_singleton_self i
  set D := (B.flatten.map fun pt => pt.w * pt.d i * pt.d i).sum with hD
  have hD0 : D ≠ 0 := by
    intro h0
    have h2 := sum_eq_zero_all (B.flatten.map fun pt => pt.w * pt.d i * pt.d i)
      (by
        intro x hx
        obtain ⟨pt, hpt, rfl⟩ := List.mem_map.1 hx
        rw [mul_assoc]
        exact mul_nonneg (hB.weight pt hpt) (mul_self_nonneg _)) h0.le
    have h3 := hB.indep (fun _ => 1) (by
      intro pt hpt hw
      have h4 := h2 _ (List.mem_map_of_mem hpt)
      rw [mul_assoc] at h4
      have h5 := mul_self_eq_zero.1 ((mul_eq_zero.1 h4).resolve_left hw)
      show ∑ j ∈ free e.par, 1 * pt.d j = 0
      rw [hi, Finset.sum_singleton, h5, mul_zero]) i ((Lin.mem_Fr _ _).1 hmem).1 ((Lin.mem_Fr _ _).1 hmem).2
    exact one_ne_zero h3
  have hDpos : 0 < D := lt_of_le_of_ne (Lin.diag_nonneg hB.weight i) (Ne.symm hD0)
  have hx : ∀ j ∈ Lin.Fr e.par, Lin.grad (Lin.Fr e.par) B.flatten j (fun _ => best - e.par.p.getD i 0) = 0 := by
    intro j hj
    rw [hFr, Finset.mem_singleton] at hj
    subst hj
    rw [Lin.grad_zero]
    have h1 : Lin.row (Lin.Fr e.par) B.flatten j (fun _ => best - e.par.p.getD j 0) = D * (best - e.par.p.getD j 0) := by
      rw [Lin.row_pts, hFr, Finset.sum_singleton, hD]
    have h2 : Lin.grad (Lin.Fr e.par) B.flatten j (fun _ => 0) = (B.flatten.map fun pt => pt.w * (pt.obs - pt.mod) * pt.d j).sum := by
      unfold Lin.grad Lin.lin
      simp
    rw [h1, h2, hb]
    field_simp
    ring
  have hexc : ∀ par, Lin.exc e.par B (fun _ => best - e.par.p.getD i 0) par = D * (par.p.getD i 0 - best) ^ 2 := by
    intro par
    unfold Lin.exc
    rw [Lin.bil_row, hFr, Finset.sum_singleton, Lin.row_pts, Finset.sum_singleton, ← hD]
    unfold Lin.off
    ring
  obtain ⟨c, c1, c2, c3, c4, c5, c6, -⟩ := Lin.refineLoop_lin hl hB hs.1 hs.hc hx toler s e hfresh rfl w hset hw fuel hf
  dsimp only
  rw [c3]
  refine ⟨rfl, ?_, ?_⟩
  · rw [hexc, hexc] at c5
    have h1 : Lin.rate 1 c ≤ 1 / (10 ^ 36 * 1 ^ 8 : K) := left_le one_pos c c1
    rw [one_pow, mul_one] at h1
    have h2 : D * ((refineLoop th toler fuel (s, e)).1.2.par.p.getD i 0 - best) ^ 2 ≤
        D * (1 / 10 ^ 36 * (e.par.p.getD i 0 - best) ^ 2) := by
      calc _ ≤ Lin.rate 1 c * (D * (e.par.p.getD i 0 - best) ^ 2) := c5
        _ ≤ 1 / 10 ^ 36 * (D * (e.par.p.getD i 0 - best) ^ 2) := by gcongr
        _ = _ := by ring
    have h3 := le_of_mul_le_mul_left h2 hDpos
    refine abs_le_of_sq_le_sq' ?_ (by positivity) |> abs_le.2
    calc _ ≤ _ := h3
      _ = (|e.par.p.getD i 0 - best| / 10 ^ 18) ^ 2 := by rw [div_pow, sq_abs]; ring
  · intro par _
    rw [chi_at, chi_at, Lin.chi_exc hx, Lin.chi_exc hx, hexc, hexc]
    ring

section
variable {F C : Type} [FloorRing K]

/-- **C73** (constraints) For the engine with its constraints: `V par` are the variables that the constraints prescribe at the
parameters `par`, and the curve calculated from them is linear in the free parameters.  The refinement ends at the least
squares solution, and the variables are those that the constraints prescribe there. -/
theorem C73_constrained (S : CStatic F K C) (hp : ParserOK S.parse) (hicc : ∀ a n, S.icc a = some n → 0 < n)
    (B : List (List (Pt K))) (toler : K) (s : Statics K) (e : Eng K (CWorld F K C)) (hw : e.par.Wf) (hm : e.world.dvdp.WF)
    (hnp : S.slots.length = S.npar) (hcon : ∀ par, Same e.par par → ∀ c ∈ e.world.cons, ∃ r, cres S.parse par c = .ok r)
    (V : ParStore K → Nat → K) (hV : ∀ par, V par = wrapVars S.icc (e.world.cons.foldl (cstep S.parse par) e.world.vars))
    (hcalc : ∀ par, Same e.par par → ∀ rv vr m c, (S.det (V par) rv vr m c).2 = none)
    (hlin : ∀ par w w', Same e.par par → (constrTheory S).eval par w = (w', none) → w'.vars = V par →
      w'.cons.map Constr.core = e.world.cons.map Constr.core → Agrees e.par (S.pts w'.curve) (at_ e.par B par))
    (hB : Determined e.par B) (μ : K) (hs : Sharp e.par B μ)
    (hfresh : ¬ (s.fitRunning = true ∧ e.iter ≠ 0)) (fuel : Nat) (hf : 101 ≤ fuel) :
    let r := refineLoop (constrTheory S) toler fuel (s, e)
    r.2.1 = .done ∧ 5 ≤ r.2.2 ∧ r.2.2 ≤ 101 ∧ Same e.par r.1.2.par ∧ r.1.2.world.vars = V r.1.2.par ∧
      Agrees e.par (S.pts r.1.2.world.curve) (at_ e.par B r.1.2.par) ∧ r.1.2.chisq = chi (at_ e.par B r.1.2.par) ∧
      ∀ par, Same e.par par →
        r.1.2.chisq - chi (at_ e.par B par) ≤ left μ (r.2.2 - 1) * (chi B - chi (at_ e.par B par)) := by
  let P : CWorld F K C → Prop := CInv S (fun _ => True) e.world.cons e.world.vars
  have hP0 : P e.world := ⟨rfl, fun _ _ => rfl, hm, trivial⟩
  have hfill : ∀ par w, Same e.par par → P w → ∃ cs' v' m', fillVariables S.parse par w.cons w.vars w.dvdp = (cs', v', m', none) ∧
      P { w with cons := cs', vars := v', dvdp := m' } ∧ wrapVars S.icc v' = V par := by
    intro par w hsm hw'
    obtain ⟨cs', v', m', so, h1, h2, h3, h4, -⟩ := fill_inv (par := par) hp hw ⟨hsm.1, hsm.2.1, hsm.2.2.1⟩ hw'
    cases so with
    | some x => exact absurd (hcon par hsm) (h4 (by simp))
    | none => exact ⟨cs', v', m', h1, h2, by rw [hV]; exact (h3 rfl).2⟩
  have heval : ∀ par w, Same e.par par → P w → ∃ w', (constrTheory S).eval par w = (w', none) ∧ P w' ∧ w'.vars = V par := by
    intro par w hsm hw'
    obtain ⟨cs', v', m', h1, h2, h3⟩ := hfill par w hsm hw'
    refine ⟨((constrTheory S).eval par w).1, Prod.ext rfl ?_, ?_, ?_⟩
    · simp only [constrTheory, fitTheory, h1, h3, hcalc par hsm, Option.map_none]
    · simp only [constrTheory, fitTheory, h1]
      refine ⟨h2.cons, ?_, h2.wf, trivial⟩
      intro a ha
      dsimp only
      rw [wrapVars_idem hicc]
      exact h2.vars a ha
    · simp only [constrTheory, fitTheory, h1]
      exact h3
  have hself : Same e.par e.par := ⟨rfl, rfl, rfl, fun _ _ _ => rfl⟩
  have hset : ∃ w, (constrTheory S).setup e.par e.world = (w, none) ∧ P w := by
    obtain ⟨cs', v', m', h1, h2, h3⟩ := hfill e.par e.world hself hP0
    refine ⟨((constrTheory S).setup e.par e.world).1, Prod.ext rfl ?_, ?_⟩
    · simp only [constrTheory, fitSetup, h1, hnp, ne_eq, not_true_eq_false, if_false, Option.map_none]
    · simp only [constrTheory, fitSetup, h1, hnp, ne_eq, not_true_eq_false, if_false]
      exact ⟨h2.cons, h2.vars, h2.wf, trivial⟩
  obtain ⟨w, hw1, hw2⟩ := hset
  obtain ⟨h1, h2, h3, h4, h5, h6, -, -, ⟨w0, h7, h8⟩, h9⟩ := C73_least_squares (constrTheory S) P B toler s e hfresh w hw1 hw2
    (fun par w hsm hw' => by
      obtain ⟨w', g1, g2, g3⟩ := heval par w hsm hw'
      exact ⟨w', g1, g2, hlin par w w' hsm g1 g3 g2.cons⟩) hB μ hs fuel hf
  refine ⟨h1, h2, h3, h4, ?_, h5, h6, h9⟩
  obtain ⟨w', g1, g2, g3⟩ := heval _ w0 h4 h7
  rw [g1] at h8
  cases h8
  exact g3

end

/-! ### Non-trivial cases -/

/-- Observed values 1 and 3, both calculated as the single parameter. -/
def two : Theory ℚ ℚ where
  setup _ w := (w, none)
  eval par _ := (par.p.getD 0 0, none)
  pts w := [[⟨1, 1, w, fun _ => 1⟩, ⟨1, 3, w, fun _ => 1⟩]]
  dmax := 1000000

def eng (x : ℚ) : Eng ℚ ℚ := ⟨⟨[x], [true], [1]⟩, 0, 0, 0, 0, 0, 0, fun _ _ => 0, fun _ _ => 0, [], 0⟩

theorem two_det (x : ℚ) : Determined (eng x).par (two.pts x) := by
  refine ⟨?_, ?_⟩
  · intro pt hpt
    simp only [two, List.flatten_cons, List.flatten_nil, List.append_nil, List.mem_cons, List.not_mem_nil, or_false] at hpt
    rcases hpt with rfl | rfl <;> norm_num
  · intro y hy i hi _
    have h := hy ⟨1, 1, x, fun _ => 1⟩ (by simp [two]) (by norm_num)
    have hi0 : i = 0 := by
      have : i < 1 := hi
      omega
    subst hi0
    simpa [eng, Finset.sum_filter] using h

theorem eng_free (x : ℚ) : free (eng x).par = {0} := by
  simp [free, eng, Finset.filter_singleton]

/-- Started at 5, the refinement ends within `3 / 10 ^ 18` of the mean. -/
example : (refineLoop two (1 / 100) 101 ({}, eng 5)).2.1 = .done ∧
    |(refineLoop two (1 / 100) 101 ({}, eng 5)).1.2.par.p.getD 0 0 - 2| ≤ 3 / 10 ^ 18 := by
  have h := C73_one_parameter two (fun _ => True) (two.pts 5) (1 / 100) {} (eng 5) (by simp) 0 rfl trivial
    (fun par w hs _ => ⟨par.p.getD 0 0, rfl, trivial, agrees_of_eq <| by
      simp only [at_, eng_free, Finset.sum_singleton]
      simp [two, eng]⟩) 0 (eng_free 5) (two_det 5) 101 (by omega) 2 (by norm_num [two, eng])
  refine ⟨h.1, h.2.1.trans (le_of_eq ?_)⟩
  norm_num [eng]

/-- The first step: nearer, but not there. -/
example : (refineLoop two (1 / 100) 1 ({}, eng 5)).1.2.par.p = [2005 / 1001] := by decide +kernel

/-- A line `p + q t` at `t = 0` and `t = 1`: the two parameters act on the same points, and the sharpness is 1/4. -/
example (o1 o2 : ℚ) : Sharp (⟨[0, 0], [true, true], [1, 2]⟩ : ParStore ℚ)
    [[⟨1, o1, 0, fun i => if i = 0 then 1 else 0⟩, ⟨1, o2, 0, fun _ => 1⟩]] (1 / 4) := by
  refine ⟨by norm_num, fun y => ?_⟩
  have hfree : free (⟨[0, 0], [true, true], [1, 2]⟩ : ParStore ℚ) = {0, 1} := by decide
  rw [hfree, Finset.sum_pair (by norm_num)]
  simp only [List.flatten_cons, List.flatten_nil, List.append_nil, List.map_cons, List.map_nil, List.sum_cons, List.sum_nil]
  rw [Finset.sum_pair (by norm_num), Finset.sum_pair (by norm_num)]
  norm_num
  nlinarith [sq_nonneg (3 * y 0 + 2 * y 1), sq_nonneg (y 1)]

/-- It is not 1. -/
example (o1 o2 : ℚ) : ¬ Sharp (⟨[0, 0], [true, true], [1, 2]⟩ : ParStore ℚ)
    [[⟨1, o1, 0, fun i => if i = 0 then 1 else 0⟩, ⟨1, o2, 0, fun _ => 1⟩]] 1 := by
  intro h
  have h1 := h.2 fun i => if i = 0 then 1 else -1
  have hfree : free (⟨[0, 0], [true, true], [1, 2]⟩ : ParStore ℚ) = {0, 1} := by decide
  rw [hfree, Finset.sum_pair (by norm_num)] at h1
  simp only [List.flatten_cons, List.flatten_nil, List.append_nil, List.map_cons, List.map_nil, List.sum_cons, List.sum_nil] at h1
  rw [Finset.sum_pair (by norm_num), Finset.sum_pair (by norm_num)] at h1
  norm_num at h1

end Pdffit.C73
