import Verif.Model.Quality
import Verif.Props.C14
import Verif.Props.C06
import Mathlib.LinearAlgebra.Matrix.Rank
import Mathlib.Algebra.BigOperators.Field

/-!
# C58 The reported quality of fit

`enough_points`: a refinement finishes only if there are at least as many points of nonzero weight as free parameters. Therefore the reduced
chi-square is never negative (`redchisq_partial`); it is not a number when the two are equal (`no_freedom`). The values of the data sets add up to
the total when the last trial was accepted (`ds_sum_partial`, `ds_rw_partial`), otherwise they need not (`ds_differ`).
-/

namespace Pdffit.C58
variable {W : Type}

section
variable {K : Type} [Field K] [LinearOrder K] [IsStrictOrderedRing K]

/-- Points that count. -/
def used (dss : List (List (Pt K))) : ℕ := (dss.flatten.filter fun p => decide (p.w ≠ 0)).length

theorem sum_filter (l : List (Pt K)) (i j : ℕ) :
    (l.map fun p => p.w * p.d i * p.d j).sum = ((l.filter fun p => decide (p.w ≠ 0)).map fun p => p.w * p.d i * p.d j).sum := by
  induction l with
  | nil => rfl
  | cons p l ih =>
    by_cases h : p.w = 0
    · rw [List.filter_cons_of_neg (by simp [h]), ← ih]
      simp [h]
    · rw [List.filter_cons_of_pos (by simp [h])]
      simp [ih]

/-- A curvature matrix with an inverse has at least as many points as rows. -/
theorem card_le (dss : List (List (Pt K))) (F : Finset ℕ) (c : ℕ → ℕ → K)
    (h : ∀ i ∈ F, ∀ k ∈ F, ∑ j ∈ F, C14.curvature dss i j * c j k = if i = k then 1 else 0) : F.card ≤ used dss := by
  set l := dss.flatten.filter fun p => decide (p.w ≠ 0) with hl
  let D : Matrix F (Fin l.length) K := fun i k => (l.get k).w * (l.get k).d i
  let E : Matrix (Fin l.length) F K := fun k j => (l.get k).d j
  let C : Matrix F F K := fun j k => c j k
  have hA : ∀ i j : F, (D * E) i j = C14.curvature dss i j := by
    intro i j
    rw [Matrix.mul_apply, C14.curvature, sum_filter, ← hl]
    show ∑ k, (fun p : Pt K => p.w * p.d i * p.d j) (l.get k) = _
    rw [← List.sum_ofFn]
    congr 1
    conv_rhs => rw [← List.ofFn_get l, List.map_ofFn]
    rfl
  have h1 : D * E * C = 1 := by
    ext i k
    rw [Matrix.mul_apply, Matrix.one_apply]
    have := h i i.2 k k.2
    rw [← Finset.sum_coe_sort F (fun j => C14.curvature dss i j * c j k)] at this
    rw [show ∑ j, (D * E) i j * C j k = ∑ j : F, C14.curvature dss i j * c j k from Finset.sum_congr rfl fun j _ => by rw [hA], this]
    exact if_congr Subtype.ext_iff.symm rfl rfl
  have h2 : (1 : Matrix F F K).rank ≤ l.length := by
    rw [← h1, Matrix.mul_assoc]
    exact ((Matrix.rank_mul_le_left D (E * C)).trans (Matrix.rank_le_card_width D)).trans (by simp)
  rw [Matrix.rank_one, Fintype.card_coe] at h2
  exact h2

/-- **C58** A refinement that finishes has at least as many points of nonzero weight as free parameters. -/
theorem enough_points (th : Theory K W) (toler : K) (s : Statics K) (e : Eng K W) (hfresh : ¬ (s.fitRunning = true ∧ e.iter ≠ 0)) (fuel : ℕ)
    (hd : (refineLoop th toler fuel (s, e)).2.1 = .done) (N : ℕ) (hN : ∀ par w w', th.eval par w = (w', none) → used (th.pts w') ≤ N) :
    let r := (refineLoop th toler fuel (s, e)).1.2
    ((Finset.range r.par.p.length).filter fun j => C14.free r.par j).card ≤ N := by
  obtain ⟨dss, ⟨w0, w', h1, h2⟩, h3⟩ := C14.C14_covariance_is_inverse_curvature th toler s e hfresh fuel hd
  dsimp only
  refine (card_le dss _ (refineLoop th toler fuel (s, e)).1.2.covar fun i hi k hk => ?_).trans (by rw [← h2]; exact hN _ _ _ h1)
  rw [Finset.mem_filter, Finset.mem_range] at hi hk
  exact (h3 i k hi.1 hk.1).1 ⟨hi.2, hk.2⟩

theorem ndof_eq (e : Eng K W) : e.ndof = ((Finset.range e.par.p.length).filter fun j => C14.free e.par j).card := by
  unfold Eng.ndof Eng.ma
  generalize e.par.p.length = n
  induction n with
  | zero => rfl
  | succ n ih =>
    rw [Finset.range_add_one, Finset.filter_insert, nfree, ih]
    have : (e.ia n = true) ↔ C14.free e.par n := Iff.rfl
    by_cases h : C14.free e.par n
    · rw [if_pos (this.2 h), if_pos h, Finset.card_insert_of_notMem (by simp)]
    · rw [if_neg (fun x => h (this.1 x)), if_neg h]

theorem used_le (dss : List (List (Pt K))) : used dss ≤ ntotOf dss := by
  unfold used ntotOf
  exact (List.length_filter_le ..).trans (by rw [List.length_flatten])

end

section
variable {K : Type} [Field K] [LinearOrder K] [IsStrictOrderedRing K] {p0 : ParStore K} {I : W → Prop} {chi : List K → Option K} {wn : K}

theorem loop_mid {th : Theory K W} (hdet : th.Det p0 I chi wn) (toler : K) (fuel : ℕ) : ∀ (s : Statics K) (e : Eng K W),
    SameKeys p0 e.par → I e.world → ∀ c0, (¬ (s.fitRunning = true ∧ e.iter ≠ 0) ∧ chi e.par.p = some c0) ∨ (Mid th p0 I chi wn s e ∧ c0 = e.chisq) →
    (refineLoop th toler fuel (s, e)).2.1 = .done →
    ChiOK th p0 I chi wn (refineLoop th toler fuel (s, e)).1.2 ∧
      ∃ w0, I w0 ∧ th.eval (refineLoop th toler fuel (s, e)).1.2.par w0 = ((refineLoop th toler fuel (s, e)).1.2.world, none) := by
  induction fuel with
  | zero => intro s e _ _ _ _ h; simp [refineLoop] at h
  | succ n ih =>
    intro s e hk hi c0 h hd
    obtain ⟨-, h1, h2⟩ := refineStep_mid hdet toler s e hk hi c0 h
    rw [refineLoop] at hd ⊢
    dsimp only at hd ⊢
    split at hd
    · rename_i ho
      obtain ⟨hm, -⟩ := h1 ho
      exact ih _ _ hm.ok.keys hm.ok.inv _ (.inr ⟨hm, rfl⟩) hd
    · rename_i o hne
      dsimp only at hd ⊢
      obtain ⟨-, -, -, h4, h5⟩ := h2 hd
      exact ⟨h4, h5⟩

end

/-- **C58** After `refine()` the reduced chi-square is the weighted sum of the squares of the residuals of the final curve, divided by the number of points
minus the number of free parameters, and it is not negative. Missing: equal numbers, where the program divides by zero. -/
theorem redchisq_partial {K : Type} [Field K] [LinearOrder K] [IsStrictOrderedRing K] {p0 : ParStore K} {I : W → Prop} {chi : List K → Option K} {wn : K} (th : Theory K W) (hdet : th.Det p0 I chi wn)
    (toler : K) (s : Statics K) (e : Eng K W) (hk : SameKeys p0 e.par) (hi : I e.world) (c0 : K) (hc : chi e.par.p = some c0)
    (hfresh : ¬ (s.fitRunning = true ∧ e.iter ≠ 0)) (fuel : ℕ) (hd : (refineLoop th toler fuel (s, e)).2.1 = .done)
    (N : ℕ) (hN : ∀ par w w', th.eval par w = (w', none) → ((th.pts w').map List.length).sum = N)
    (hw : ∀ par w w', th.eval par w = (w', none) → ∀ p ∈ (th.pts w').flatten, 0 ≤ p.w) :
    let r := (refineLoop th toler fuel (s, e)).1.2
    let n := ((Finset.range r.par.p.length).filter fun j => C14.free r.par j).card
    let chi2 := ((th.pts r.world).flatten.map fun p => p.w * (p.obs - p.mod) ^ 2).sum
    n ≤ N ∧ 0 ≤ chi2 ∧ (n ≠ N → r.redchisq th = some (chi2 / ((N : K) - n)) ∧ 0 ≤ chi2 / ((N : K) - n)) ∧
      (n = N → r.redchisq th = none) := by
  have hle := enough_points th toler s e hfresh fuel hd N fun par w w' h => (used_le _).trans (le_of_eq (hN par w w' h))
  obtain ⟨h1, w0, h2, h3⟩ := loop_mid hdet toler fuel s e hk hi c0 (.inl ⟨hfresh, hc⟩) hd
  dsimp only at hle ⊢
  generalize (refineLoop th toler fuel (s, e)).1.2 = r at *
  have hnd := ndof_eq r
  generalize ((Finset.range r.par.p.length).filter fun j => C14.free r.par j).card = n at *
  have hchi : r.chisq = ((th.pts r.world).flatten.map fun p => p.w * (p.obs - p.mod) ^ 2).sum := by
    have := (hdet.value _ _ _ h1.keys h2 h3).1
    rw [h1.chi] at this
    exact Option.some.inj this
  have h0 : 0 ≤ ((th.pts r.world).flatten.map fun p => p.w * (p.obs - p.mod) ^ 2).sum := by
    refine List.sum_nonneg fun x hx => ?_
    rw [List.mem_map] at hx
    obtain ⟨p, hp, rfl⟩ := hx
    exact mul_nonneg (hw _ _ _ h3 p hp) (sq_nonneg _)
  have hred : r.nred th = (N : ℤ) - n := by
    unfold Eng.nred ntotOf
    rw [hN _ _ _ h3, hnd]
  refine ⟨hle, h0, fun hne => ?_, fun h => ?_⟩
  · have hlt : n < N := lt_of_le_of_ne hle hne
    unfold Eng.redchisq
    rw [hred, if_neg (by omega), hchi]
    refine ⟨by push_cast; rfl, div_nonneg h0 ?_⟩
    have : (n : K) ≤ N := by exact_mod_cast hle
    linarith
  · unfold Eng.redchisq
    rw [hred, if_pos (by omega)]

/-! ## Data sets -/

theorem sum_getD (f : List ℝ → ℝ) (l : List (List ℝ)) : ∑ is ∈ Finset.range l.length, f (l.getD is []) = (l.map f).sum := by
  induction l with
  | nil => rfl
  | cons a l ih =>
    rw [List.length_cons, Finset.sum_range_succ', List.map_cons, List.sum_cons, ← ih, add_comm]
    rfl

/-- **C58** When the last trial improved chi-square (call from `e` to `e1`) and the next call finishes the refinement, the values reported for the data sets
add up to the total, if there are more points than free parameters. Missing: a rejected last trial. -/
theorem ds_sum_partial (th : Theory ℝ W) (toler : ℝ) (s : Statics ℝ) (e : Eng ℝ W) (h : RunInv th s e) (m : ℕ)
    (hm : ∀ par w w', th.eval par w = (w', none) → (th.pts w').length = m)
    (hmore : (refineStep th toler s e).2.2 = .more) (himp : (refineStep th toler s e).2.1.chisq < e.chisq)
    (hdone : (refineStep th toler (refineStep th toler s e).1 (refineStep th toler s e).2.1).2.2 = .done) :
    let r := (refineStep th toler (refineStep th toler s e).1 (refineStep th toler s e).2.1).2.1
    0 < r.nred th → r.redchisq th = some (∑ is ∈ Finset.range m, r.dsredchisq th is) := by
  have hb := refineBody_run th toler s.work e (Or.inr ⟨h.lam, h.it, h.work⟩)
  rw [← refineStep_running th toler s e h] at hb
  obtain ⟨h1, h2, -⟩ := hb.1 hmore
  have h2 := h2 h.it himp
  generalize hr : refineStep th toler s e = r at *
  obtain ⟨s1, e1, o⟩ := r
  dsimp only at *
  have hb := refineBody_run th toler s1.work e1 (Or.inr ⟨h1.lam, h1.it, h1.work⟩)
  rw [← refineStep_running th toler s1 e1 h1] at hb
  obtain ⟨g1, g2, g3, g4, -⟩ := hb.2 hdone
  generalize refineStep th toler s1 e1 = r2 at *
  obtain ⟨s2, e2, o2⟩ := r2
  dsimp only at *
  obtain ⟨⟨par, w0', a1⟩, a3⟩ := h1.cum
  have hlen : e2.cum.length = m := by rw [g2, a3, List.length_map, hm _ _ _ a1]
  intro hp
  unfold Eng.redchisq Eng.dsredchisq
  simp only [gt_iff_lt, hp, if_true, if_neg (ne_of_gt hp)]
  rw [← Finset.sum_div, ← hlen, sum_getD lastOr0, g3, h2, g2]

/-- **C58** In the same situation the squares of the Rw values of the data sets add up to the square of the total. -/
theorem ds_rw_partial (th : Theory ℝ W) (toler : ℝ) (s : Statics ℝ) (e : Eng ℝ W) (h : RunInv th s e) (m : ℕ) (wn : ℝ) (hwn : 0 < wn)
    (hm : ∀ par w w', th.eval par w = (w', none) → (th.pts w').length = m ∧ wnormOf (th.pts w') = wn ∧ ∀ p ∈ (th.pts w').flatten, 0 ≤ p.w)
    (hmore : (refineStep th toler s e).2.2 = .more) (himp : (refineStep th toler s e).2.1.chisq < e.chisq)
    (hdone : (refineStep th toler (refineStep th toler s e).1 (refineStep th toler s e).2.1).2.2 = .done) :
    let r := (refineStep th toler (refineStep th toler s e).1 (refineStep th toler s e).2.1).2.1
    r.getrw ^ 2 = ∑ is ∈ Finset.range m, r.dsrw th is ^ 2 := by
  have hb := refineBody_run th toler s.work e (Or.inr ⟨h.lam, h.it, h.work⟩)
  rw [← refineStep_running th toler s e h] at hb
  obtain ⟨h1, h2, -⟩ := hb.1 hmore
  have h2 := h2 h.it himp
  generalize hr : refineStep th toler s e = r at *
  obtain ⟨s1, e1, o⟩ := r
  dsimp only at *
  have hb := refineBody_run th toler s1.work e1 (Or.inr ⟨h1.lam, h1.it, h1.work⟩)
  rw [← refineStep_running th toler s1 e1 h1] at hb
  obtain ⟨g1, g2, g3, g4, ⟨w1, g5⟩, -⟩ := hb.2 hdone
  generalize refineStep th toler s1 e1 = r2 at *
  obtain ⟨s2, e2, o2⟩ := r2
  dsimp only at *
  obtain ⟨⟨par, w0', a1⟩, a3⟩ := h1.cum
  obtain ⟨b1, b2, b3⟩ := hm _ _ _ a1
  have hlen : e2.cum.length = m := by rw [g2, a3, List.length_map, b1]
  have hnn : ∀ l ∈ e2.cum, 0 ≤ lastOr0 l := by
    intro l hl
    rw [g2, a3, List.mem_map] at hl
    obtain ⟨ds, hds, rfl⟩ := hl
    unfold lastOr0
    cases hx : (cumChisq 0 ds).getLast? with
    | none => simp
    | some x =>
      exact C06.cum_ge 0 ds (fun p hp => b3 p (List.mem_flatten.2 ⟨ds, hds, hp⟩)) x (List.mem_of_getLast? hx)
  have hsq : ∀ is, e2.dsrw th is ^ 2 = lastOr0 (e2.cum.getD is []) / wn := by
    intro is
    have h0 : 0 ≤ lastOr0 (e2.cum.getD is []) := by
      rw [List.getD_eq_getElem?_getD]
      cases hx : e2.cum[is]? with
      | none => simp [lastOr0]
      | some l => exact hnn l (List.mem_of_getElem? hx)
    unfold Eng.dsrw Eng.getcrw
    rw [(hm _ _ _ g5).2.1]
    simp only [gt_iff_lt, hwn, if_true]
    generalize e2.cum.getD is [] = l at *
    unfold lastOr0 at h0 ⊢
    rw [List.getLast?_map]
    cases hx : l.getLast? with
    | none => simp
    | some x =>
      rw [hx] at h0
      simp only [Option.getD_some, Option.map_some] at h0 ⊢
      rw [Real.sq_sqrt (by positivity)]
      ring
  have hs0 : 0 ≤ (e2.cum.map lastOr0).sum := by
    refine List.sum_nonneg fun x hx => ?_
    obtain ⟨l, hl, rfl⟩ := List.mem_map.1 hx
    exact hnn l hl
  rw [Finset.sum_congr rfl fun is _ => hsq is, ← Finset.sum_div, ← hlen, sum_getD lastOr0]
  unfold Eng.getrw
  rw [g4, b2, h2, ← g2, Real.sq_sqrt (div_nonneg hs0 hwn.le)]

/-! ## Violations and examples -/

/-- **Violation**: one point and one free parameter; the refinement finishes and the reduced chi-square is a division by zero, although Rw is fine. -/
theorem no_freedom :
    let r := refineLoop demoTheory (1/100000000) 101 ({}, demoEng 0)
    r.2.1 = .done ∧ r.1.2.redchisq demoTheory = none ∧ r.1.2.rw2 = 1/4 ∧ r.1.2.dsredchisq demoTheory 0 = 0 := by
  decide +kernel

/-- The model of `demoTheory` with a second data set of one point, which it describes exactly. -/
def twoSets : Theory ℚ (List ℚ) := { demoTheory with pts := fun w => demoTheory.pts w ++ [[⟨1, 1, 1, fun _ => 0⟩]] }

/-- **Violation**: all trials are rejected; the total is 1, the values of the data sets are 25/4 and 0. -/
theorem ds_differ :
    let r := refineLoop twoSets (1/100000000) 101 ({}, demoEng 0)
    r.2.1 = .done ∧ r.1.2.redchisq twoSets = some 1 ∧ r.1.2.dsredchisq twoSets 0 = 25/4 ∧ r.1.2.dsredchisq twoSets 1 = 0 := by
  decide +kernel

theorem two_det : twoSets.Det (demoEng 0).par (fun _ => True) (fun p => some (chisqOf (twoSets.pts p))) 5 := by
  refine ⟨fun _ _ _ _ => trivial, fun _ _ _ _ => trivial, ?_, ?_⟩
  · intro par w w' x _ _ h
    simp [twoSets, demoTheory] at h
  · intro par w w' _ _ h
    simp only [twoSets, demoTheory, Prod.mk.injEq, and_true] at h
    subst h
    refine ⟨rfl, ?_⟩
    simp [wnormOf, twoSets, demoTheory]
    norm_num

set_option maxRecDepth 4000 in
/-- The hypotheses of `redchisq_partial` hold for this model, with two points and one free parameter. -/
example : (refineLoop twoSets (1/100000000) 101 ({}, demoEng 0)).1.2.redchisq twoSets ≠ none := by
  have h := redchisq_partial twoSets two_det (1/100000000) {} (demoEng 0) ⟨rfl, rfl, rfl⟩ trivial _ rfl (by decide) 101 (by decide +kernel) 2
    (by intro par w w' h; simp [twoSets, demoTheory])
    (by intro par w w' h p hp; simp [twoSets, demoTheory] at hp; rcases hp with rfl | rfl <;> simp)
  have hn : ((Finset.range (refineLoop twoSets (1/100000000) 101 ({}, demoEng 0)).1.2.par.p.length).filter
      fun j => C14.free (refineLoop twoSets (1/100000000) 101 ({}, demoEng 0)).1.2.par j).card = 1 := by decide +kernel
  rw [(h.2.2.1 (by rw [hn]; decide)).1]
  simp

/-- The last trial is accepted: the total is the sum, and not zero. -/
example :
    let st3 := stepN twoSets 1 3 ({}, demoEng 3)
    let r4 := refineStep twoSets 1 st3.1 st3.2
    let r5 := refineStep twoSets 1 r4.1 r4.2.1
    r4.2.2 = .more ∧ r4.2.1.chisq < st3.2.chisq ∧ r5.2.2 = .done ∧ 0 < r5.2.1.nred twoSets ∧ r5.2.1.dsredchisq twoSets 0 ≠ 0 ∧
      r5.2.1.redchisq twoSets = some (r5.2.1.dsredchisq twoSets 0 + r5.2.1.dsredchisq twoSets 1) := by
  decide +kernel

end Pdffit.C58
