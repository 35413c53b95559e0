import Verif.Lemmas.RefineSeq
import Verif.Props.RefineDemo

/-!
# C15  The normal equations are those of weighted least squares
-/

namespace Pdffit.C15
variable {K W : Type} [Field K] [LinearOrder K] [IsStrictOrderedRing K]

/-- Number of free parameters before parameter `l`: its row in the compact matrix. -/
def row (ia : Nat → Bool) (l : Nat) : Nat := ((List.range l).filter fun m => ia m).length

theorem row_eq (ia : Nat → Bool) (l : Nat) : row ia l = nfree ia l := by
  induction l with
  | zero => rfl
  | succ l ih =>
    unfold row at ih ⊢
    rw [List.range_succ, List.filter_append, List.length_append, ih]
    simp only [nfree]
    by_cases h : ia l = true
    · simp [h]
    · simp [h]

/-- **C15** For all data sets, derivative tables and fixed/free patterns, `mrqcof` produces
* `alpha[row l][row m] = ∑ w d_l d_m` over all fitted points of all data sets,
* `beta[row l] = ∑ w (obs - calc) d_l`,
* `chisq = ∑ w (obs - calc)²`. -/
theorem C15_mrqcof_gives_normal_equations (ia : Nat → Bool) (ma : Nat) (dss : List (List (Pt K)))
    (al : Nat → Nat → K) (be : Nat → K) :
    let r := mrqAcc ia ma dss al be
    (∀ l m, l < ma → m < ma → ia l = true → ia m = true →
      r.1 (row ia l) (row ia m) = (dss.flatten.map fun pt => pt.w * pt.d l * pt.d m).sum) ∧
    (∀ l, l < ma → ia l = true →
      r.2.1 (row ia l) = (dss.flatten.map fun pt => pt.w * (pt.obs - pt.mod) * pt.d l).sum) ∧
    r.2.2.1 = (dss.flatten.map fun pt => pt.w * (pt.obs - pt.mod) ^ 2).sum := by
  refine ⟨fun l m hl hm fl fm => ?_, fun l hl fl => ?_, chisq_eq ia ma dss al be⟩
  · rw [row_eq, row_eq]; exact mrqAcc_alpha ia ma dss al be l m hl hm fl fm
  · rw [row_eq]; exact mrqAcc_beta ia ma dss al be l hl fl

/-- **C15** The matrix is symmetric. -/
theorem C15_curvature_symmetric (ia : Nat → Bool) (ma : Nat) (dss : List (List (Pt K)))
    (al : Nat → Nat → K) (be : Nat → K) (i j : Nat) (hi : i < nfree ia ma) (hj : j < nfree ia ma) :
    (mrqAcc ia ma dss al be).1 i j = (mrqAcc ia ma dss al be).1 j i := by
  obtain ⟨l, h1, h2, rfl⟩ := nfree_surj ia hi
  obtain ⟨m, h3, h4, rfl⟩ := nfree_surj ia hj
  rw [mrqAcc_alpha ia ma dss al be l m h1 h3 h2 h4, mrqAcc_alpha ia ma dss al be m l h3 h1 h4 h2]
  congr 1
  apply List.map_congr_left
  intro p _; ring

/-- **C15** The matrix is positive semidefinite when the weights are nonnegative. -/
theorem C15_curvature_nonneg (ia : Nat → Bool) (ma : Nat) (dss : List (List (Pt K)))
    (al : Nat → Nat → K) (be : Nat → K) (hw : ∀ p ∈ dss.flatten, 0 ≤ p.w) (x : Nat → K) :
    0 ≤ ∑ i : Fin (nfree ia ma), ∑ j : Fin (nfree ia ma),
      x i * (mrqAcc ia ma dss al be).1 i j * x j := by
  -- `y` is `x` on the full set of parameters
  have hS : ∀ g : Nat → Nat → K, (∑ i : Fin (nfree ia ma), ∑ j : Fin (nfree ia ma), g i j) =
      ∑ l ∈ (Finset.range ma).filter (fun j => ia j = true),
        ∑ m ∈ (Finset.range ma).filter (fun j => ia j = true), g (nfree ia l) (nfree ia m) := by
    intro g
    rw [← sum_free ia ma (fun t => ∑ j : Fin (nfree ia ma), g t j)
      (fun l => ∑ m ∈ (Finset.range ma).filter (fun j => ia j = true), g (nfree ia l) (nfree ia m))]
    intro l _ _ _
    exact sum_free ia ma (fun t => g (nfree ia l) t) _ (fun _ _ _ _ => rfl)
  rw [hS fun i j => x i * (mrqAcc ia ma dss al be).1 i j * x j]
  have hE : (∑ l ∈ (Finset.range ma).filter (fun j => ia j = true),
        ∑ m ∈ (Finset.range ma).filter (fun j => ia j = true),
          x (nfree ia l) * (mrqAcc ia ma dss al be).1 (nfree ia l) (nfree ia m) * x (nfree ia m)) =
      (dss.flatten.map fun pt => pt.w *
        (∑ l ∈ (Finset.range ma).filter (fun j => ia j = true), x (nfree ia l) * pt.d l) ^ 2).sum := by
    have h1 : ∀ l ∈ (Finset.range ma).filter (fun j => ia j = true),
        ∀ m ∈ (Finset.range ma).filter (fun j => ia j = true),
        x (nfree ia l) * (mrqAcc ia ma dss al be).1 (nfree ia l) (nfree ia m) * x (nfree ia m) =
        x (nfree ia l) * (dss.flatten.map fun pt => pt.w * pt.d l * pt.d m).sum * x (nfree ia m) := by
      intro l hl m hm
      rw [Finset.mem_filter, Finset.mem_range] at hl hm
      rw [mrqAcc_alpha ia ma dss al be l m hl.1 hm.1 hl.2 hm.2]
    rw [Finset.sum_congr rfl fun l hl => Finset.sum_congr rfl fun m hm => h1 l hl m hm]
    generalize dss.flatten = pts
    induction pts with
    | nil => simp
    | cons p ps ih =>
      simp only [List.map_cons, List.sum_cons]
      rw [← ih]
      simp only [mul_add, add_mul, Finset.sum_add_distrib]
      congr 1
      rw [sq, Finset.sum_mul_sum, Finset.mul_sum]
      refine Finset.sum_congr rfl fun l _ => ?_
      rw [Finset.mul_sum]
      refine Finset.sum_congr rfl fun m _ => ?_
      ring
  rw [hE]
  apply List.sum_nonneg
  intro y hy
  obtain ⟨p, hp, rfl⟩ := List.mem_map.1 hy
  exact mul_nonneg (hw p hp) (sq_nonneg _)

/-- **C15** The refinement uses them: after every normal non-final call of a refinement, the
engine's curvature matrix and gradient, which the next step solves, are those of the points
evaluated at the current parameter values. -/
theorem C15_refinement_uses_current_normal_equations (th : Theory K W) (toler : K)
    (s : Statics K) (e : Eng K W) (hfresh : ¬ (s.fitRunning = true ∧ e.iter ≠ 0)) (n : Nat)
    (ho : ∀ o ∈ outN th toler (n + 1) (s, e), o = .more) :
    let st := stepN th toler (n + 1) (s, e)
    ∃ wk dss, st.1.work = some wk ∧
      (∃ w0 w', th.eval st.2.par w0 = (w', none) ∧ th.pts w' = dss) ∧
      let ia := fun l => st.2.par.ip.getD l false
      (∀ l m, l < st.2.par.p.length → m < st.2.par.p.length → ia l = true → ia m = true →
        st.2.alpha (row ia l) (row ia m) =
          (dss.flatten.map fun pt => pt.w * pt.d l * pt.d m).sum) ∧
      (∀ l, l < st.2.par.p.length → ia l = true → wk.beta (row ia l) =
          (dss.flatten.map fun pt => pt.w * (pt.obs - pt.mod) * pt.d l).sum) := by
  have h := stepN_run th toler n s e (Or.inl hfresh) ho
  obtain ⟨wk, h1, h2, -⟩ := h.work
  obtain ⟨dss, h3, h4, h5⟩ := h2.eqs
  refine ⟨wk, dss, h1, h3, fun l m hl hm fl fm => ?_, fun l hl fl => ?_⟩
  · rw [row_eq, row_eq]; exact h4 l m hl hm fl fm
  · rw [row_eq]; exact h5 l hl fl

/-- **C15** What "solves" means: when a trial is made with damping `lam`, the step `da` satisfies
`(alpha + lam diag alpha) da = beta`, and the trial parameters are the current ones plus the
step on the free parameters. -/
theorem C15_trial_step_solves_damped_equations (mfit : Nat) (e : Eng K W) (beta : Nat → K)
    (covar : Nat → Nat → K) (da0 : Nat → K) (cov : Nat → Nat → K) (da : Nat → K)
    (h : solveNormal mfit (augmented e) beta covar da0 = .ok (cov, da)) (i : Fin mfit) :
    (∑ j : Fin mfit, e.alpha i j * da j) + e.alambda * e.alpha i i * da i = beta i := by
  unfold solveNormal at h
  rcases C13.C13_gaussj_inverts_or_reports_singular (n := mfit) (m := 1)
    (fun i j => augmented e i j) (fun i _ => beta i) with ⟨_, hg⟩ | ⟨_, inv, X, hg, h1, h2, h3⟩
  · rw [hg] at h; cases h
  · rw [hg] at h
    cases h
    have h4 := congrFun (congrFun h3 i) 0
    have h5 : ∑ j : Fin mfit, augmented e i j * X j 0 = beta i :=
      (Matrix.mul_apply (M := (fun i j => augmented e i j : Matrix (Fin mfit) (Fin mfit) K))
        (N := X) (i := i) (k := 0)).symm.trans h4
    rw [← h5]
    have hsplit : ∀ j : Fin mfit, augmented e i j * X j 0 =
        e.alpha i j * X j 0 + (if i = j then e.alambda * e.alpha i i * X i 0 else 0) := by
      intro j
      unfold augmented
      by_cases hij : i = j
      · subst hij; simp; ring
      · have : ¬ (i : Nat) = j := fun h => hij (Fin.ext h)
        simp [this, hij]
    rw [Finset.sum_congr rfl fun j _ => hsplit j, Finset.sum_add_distrib]
    simp

/-- Non-trivial case: two points, parameters free, fixed, free. -/
example :
    let r := mrqAcc (K := ℚ) (fun l => l != 1) 3
      [[⟨2, 5, 1, fun l => l + 1⟩], [⟨1, 0, 3, fun l => 7 * l⟩]] (fun _ _ => 9) (fun _ => 9)
    r.1 0 0 = 2 ∧ r.1 0 1 = 6 ∧ r.1 1 0 = 6 ∧ r.1 1 1 = 214 ∧ r.2.1 0 = 8 ∧ r.2.1 1 = -18 ∧
      r.2.2.1 = 41 := by
  decide +kernel

end Pdffit.C15
