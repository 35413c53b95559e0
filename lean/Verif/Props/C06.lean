import Verif.Lemmas.RefineSeq
import Verif.Model.RefineReal
import Verif.Props.RefineDemo

/-!
# C06  Cumulative Rw agrees with total Rw

Monotonicity, sign and length are proved for every history.  The statement about the last
element is false when the last trial step was rejected (`C06_last_crw_can_differ_from_rw`); it is
proved when the last trial step was an improvement.
-/

namespace Pdffit.C06
variable {W : Type}

theorem cum_ge (prev : ℝ) (l : List (Pt ℝ)) (hw : ∀ p ∈ l, 0 ≤ p.w) :
    ∀ x ∈ cumChisq prev l, prev ≤ x := by
  induction l generalizing prev with
  | nil => intro x hx; simp [cumChisq] at hx
  | cons p ps ih =>
    have hc : 0 ≤ contrib p := by
      unfold contrib
      exact mul_nonneg (mul_self_nonneg _) (hw p (List.mem_cons_self ..))
    intro x hx
    simp only [cumChisq, List.mem_cons] at hx
    rcases hx with rfl | hx
    · linarith
    · have := ih (prev + contrib p) (fun q hq => hw q (List.mem_cons_of_mem _ hq)) x hx
      linarith

theorem cum_sorted (prev : ℝ) (l : List (Pt ℝ)) (hw : ∀ p ∈ l, 0 ≤ p.w) :
    (cumChisq prev l).Pairwise (· ≤ ·) := by
  induction l generalizing prev with
  | nil => simp [cumChisq]
  | cons p ps ih =>
    have hw' : ∀ q ∈ ps, 0 ≤ q.w := fun q hq => hw q (List.mem_cons_of_mem _ hq)
    simp only [cumChisq, List.pairwise_cons]
    exact ⟨cum_ge _ ps hw', ih _ hw'⟩

/-- The evaluations give `npts` fitted points with nonnegative weights in data set `is`. -/
def DataOK (th : Theory ℝ W) (is npts : Nat) : Prop :=
  ∀ par w w', th.eval par w = (w', none) →
    ((th.pts w').getD is []).length = npts ∧ ∀ p ∈ (th.pts w').getD is [], 0 ≤ p.w

theorem crw_shape (th : Theory ℝ W) (e : Eng ℝ W) (is npts : Nat) (hdata : DataOK th is npts)
    (h : CumOK th e) :
    (e.getcrw th is).Pairwise (· ≤ ·) ∧ (∀ x ∈ e.getcrw th is, 0 ≤ x) ∧
      (e.getcrw th is).length = npts := by
  obtain ⟨dss, ⟨par, w0, w', h1, h2⟩, h3⟩ := h
  obtain ⟨d1, d2⟩ := hdata par w0 w' h1
  rw [h2] at d1 d2
  have hg : e.cum.getD is [] = cumChisq 0 (dss.getD is []) := by
    rw [h3, List.getD_eq_getElem?_getD, List.getD_eq_getElem?_getD, List.getElem?_map]
    cases dss[is]? <;> simp [cumChisq]
  unfold Eng.getcrw
  dsimp only
  rw [hg]
  have hrec : 0 ≤ (if wnormOf (th.pts e.world) > 0 then 1 / wnormOf (th.pts e.world) else (1:ℝ)) := by
    split
    · rename_i h; exact le_of_lt (one_div_pos.2 h)
    · exact zero_le_one
  refine ⟨?_, ?_, ?_⟩
  · rw [List.pairwise_map]
    exact (cum_sorted 0 _ d2).imp fun hab => Real.sqrt_le_sqrt (mul_le_mul_of_nonneg_right hab hrec)
  · intro x hx
    obtain ⟨y, _, rfl⟩ := List.mem_map.1 hx
    exact Real.sqrt_nonneg _
  · rw [List.length_map, cumChisq_length, d1]

/-- **C06** (shape) After a finished `refine()`, `getcrw` is a non-decreasing sequence of
nonnegative numbers, one per fitted point. -/
theorem C06_crw_shape_after_refine (th : Theory ℝ W) (toler : ℝ) (s : Statics ℝ) (e : Eng ℝ W)
    (hfresh : ¬ (s.fitRunning = true ∧ e.iter ≠ 0)) (fuel : Nat)
    (hd : (refineLoop th toler fuel (s, e)).2.1 = .done)
    (is npts : Nat) (hdata : DataOK th is npts) :
    let r := (refineLoop th toler fuel (s, e)).1.2
    (r.getcrw th is).Pairwise (· ≤ ·) ∧ (∀ x ∈ r.getcrw th is, 0 ≤ x) ∧
      (r.getcrw th is).length = npts := by
  obtain ⟨s1, e1, h1, h2, h3⟩ := refineLoop_done th toler fuel s e (Or.inl hfresh) hd
  have hb := refineBody_run th toler s1.work e1 (Or.inr ⟨h1.lam, h1.it, h1.work⟩)
  rw [← refineStep_running th toler s1 e1 h1] at hb
  have hc := (hb.2 h2).2.1
  rw [h3]
  apply crw_shape th _ is npts hdata
  obtain ⟨dss, a, b⟩ := h1.cumOK
  exact ⟨dss, a, hc.trans b⟩

/-- **C06** (shape) Also between the calls of a refinement. -/
theorem C06_crw_shape_during_refine (th : Theory ℝ W) (toler : ℝ) (s : Statics ℝ) (e : Eng ℝ W)
    (hfresh : ¬ (s.fitRunning = true ∧ e.iter ≠ 0)) (n : Nat)
    (ho : ∀ o ∈ outN th toler (n + 1) (s, e), o = .more)
    (is npts : Nat) (hdata : DataOK th is npts) :
    let r := (stepN th toler (n + 1) (s, e)).2
    (r.getcrw th is).Pairwise (· ≤ ·) ∧ (∀ x ∈ r.getcrw th is, 0 ≤ x) ∧
      (r.getcrw th is).length = npts :=
  crw_shape th _ is npts hdata (stepN_run th toler n s e (Or.inl hfresh) ho).cumOK

/-- **C06** (last element, last trial step accepted) For one data set, data norm `wn > 0` that
the evaluations do not change: when the last trial step improved chi-square (call from `e` to
`e1`) and the next call finishes the refinement, the last element of `getcrw` is `getrw`.
Missing: the case of a rejected last trial, where the claim is false. -/
theorem C06_last_crw_is_rw_partial (th : Theory ℝ W) (toler : ℝ) (s : Statics ℝ) (e : Eng ℝ W)
    (h : RunInv th s e) (wn : ℝ) (hwn : 0 < wn)
    (hdata : ∀ par w w', th.eval par w = (w', none) →
      wnormOf (th.pts w') = wn ∧ (th.pts w').length = 1)
    (hmore : (refineStep th toler s e).2.2 = .more)
    (himp : (refineStep th toler s e).2.1.chisq < e.chisq)
    (hdone : (refineStep th toler (refineStep th toler s e).1 (refineStep th toler s e).2.1).2.2
      = .done) :
    let r := (refineStep th toler (refineStep th toler s e).1 (refineStep th toler s e).2.1).2.1
    (r.getcrw th 0).getLast?.getD 0 = r.getrw := by
  have hb := refineBody_run th toler s.work e (Or.inr ⟨h.lam, h.it, h.work⟩)
  rw [← refineStep_running th toler s e h] at hb
  obtain ⟨h1, h2, -⟩ := hb.1 hmore
  have h2 := h2 h.it himp
  generalize hr : refineStep th toler s e = r at *
  obtain ⟨s1, e1, o⟩ := r
  dsimp only at *
  have hb := refineBody_run th toler s1.work e1 (Or.inr ⟨h1.lam, h1.it, h1.work⟩)
  rw [← refineStep_running th toler s1 e1 h1] at hb
  obtain ⟨g1, g2, g3, g4, ⟨w0, g5⟩, -⟩ := hb.2 hdone
  generalize refineStep th toler s1 e1 = r2 at *
  obtain ⟨s2, e2, o2⟩ := r2
  dsimp only at *
  obtain ⟨⟨par, w0', a1⟩, a3⟩ := h1.cum
  have hlen := (hdata _ _ _ a1).2
  have hworld := (hdata _ _ _ a1).1
  obtain ⟨l, hl⟩ : ∃ l, th.pts e1.world = [l] := List.length_eq_one_iff.1 hlen
  have hw2 := (hdata _ _ _ g5).1
  unfold Eng.getcrw Eng.getrw
  rw [g2, g4, hworld, h2, a3, hw2, hl]
  simp only [List.map_cons, List.map_nil, List.sum_cons, List.sum_nil, add_zero,
    List.getD_cons_zero, gt_iff_lt, hwn, if_true, List.getLast?_map]
  unfold lastOr0
  cases (cumChisq 0 l).getLast? with
  | none => simp
  | some x => simp [div_eq_mul_inv]

/-- Non-trivial case, over the rationals: with tolerance 1 every step counts as stagnating; the
fourth trial improves chi-square and the fifth call finishes. -/
example :
    let st3 := stepN demoTheory 1 3 ({}, demoEng 3)
    let r4 := refineStep demoTheory 1 st3.1 st3.2
    let r5 := refineStep demoTheory 1 r4.1 r4.2.1
    r4.2.2 = .more ∧ r4.2.1.chisq < st3.2.chisq ∧ r5.2.2 = .done ∧
      (r5.2.1.cum.map fun l => l.map (· / 4)) = [[r5.2.1.rw2]] := by
  decide +kernel

/-- **C06** is false in general: one data point, one parameter.  All four trial steps are worse
than the start and are rejected; `refine()` finishes with `getrw² = 1/4` while the last element
of `getcrw` is the square root of `(25/4)/4`, the residual of the last rejected trial. -/
theorem C06_last_crw_can_differ_from_rw :
    let r := refineLoop demoTheory (1/100000000) 101 ({}, demoEng 0)
    r.2.1 = .done ∧ r.1.2.rw2 = 1/4 ∧ r.1.2.cum = [[25/4]] ∧
      wnormOf (demoTheory.pts r.1.2.world) = 4 := by
  decide +kernel

end Pdffit.C06
