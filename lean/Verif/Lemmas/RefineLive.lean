import Verif.Lemmas.RefineWorld
import Mathlib.LinearAlgebra.Matrix.ToLinearEquiv
import Mathlib.Algebra.Order.BigOperators.Group.List

/-! Refinements in which nothing goes wrong. -/

namespace Pdffit
set_option linter.unusedSectionVars false
variable {K W : Type} [Field K] [LinearOrder K] [IsStrictOrderedRing K]

/-- The fitted points determine the free parameters: no weight is negative, and a change of the free parameters that
leaves all points with non-zero weight unchanged (to first order) is zero. -/
structure Determined (par : ParStore K) (dss : List (List (Pt K))) : Prop where
  weight : ∀ pt ∈ dss.flatten, 0 ≤ pt.w
  indep : ∀ y : Nat → K,
    (∀ pt ∈ dss.flatten, pt.w ≠ 0 →
      ∑ i ∈ (Finset.range par.p.length).filter (fun i => par.ip.getD i false = true), y i * pt.d i = 0) →
    ∀ i, i < par.p.length → par.ip.getD i false = true → y i = 0

omit [LinearOrder K] [IsStrictOrderedRing K] in
theorem quad_points (s : Finset Nat) (y : Nat → K) (l : List (Pt K)) :
    ∑ i ∈ s, ∑ j ∈ s, y i * (l.map fun pt => pt.w * pt.d i * pt.d j).sum * y j =
      (l.map fun pt => pt.w * (∑ i ∈ s, y i * pt.d i) ^ 2).sum := by
  induction l with
  | nil => simp
  | cons pt l ih =>
    simp only [List.map_cons, List.sum_cons]
    rw [← ih, pow_two, Finset.sum_mul_sum, Finset.mul_sum, ← Finset.sum_add_distrib]
    refine Finset.sum_congr rfl fun i _ => ?_
    rw [Finset.mul_sum, ← Finset.sum_add_distrib]
    exact Finset.sum_congr rfl fun j _ => by ring

theorem sum_eq_zero_all : ∀ (l : List K), (∀ x ∈ l, 0 ≤ x) → l.sum ≤ 0 → ∀ x ∈ l, x = 0 := by
  intro l
  induction l with
  | nil => intro _ _ x hx; simp at hx
  | cons a l ih =>
    intro h hs x hx
    have ha := h a (by simp)
    have hl : 0 ≤ l.sum := List.sum_nonneg fun y hy => h y (by simp [hy])
    rw [List.sum_cons] at hs
    rcases List.mem_cons.1 hx with rfl | hx
    · linarith
    · exact ih (fun y hy => h y (by simp [hy])) (by linarith) x hx

/-- The augmented matrix of points that determine the free parameters is regular. -/
theorem augmented_det_pts (e : Eng K W) (mfit : Nat) (hmf : mfit = nfree e.ia e.ma) (dss : List (List (Pt K)))
    (be : Nat → K) (h2 : NormalEqs e.ia e.ma dss e.alpha be) (hD : Determined e.par dss) (hl : 0 ≤ e.alambda) :
    Matrix.det (fun (i j : Fin mfit) => augmented e i j) ≠ 0 := by
  replace h2 := h2.1
  subst hmf
  intro h0
  obtain ⟨v, hv, hz⟩ := Matrix.exists_mulVec_eq_zero_iff.2 h0
  -- the vector over all parameters
  set F := (Finset.range e.ma).filter (fun j => e.ia j = true) with hF
  let y : Nat → K := fun j => if hr : nfree e.ia j < nfree e.ia e.ma then v ⟨nfree e.ia j, hr⟩ else 0
  have hy : ∀ j hr, y j = v ⟨nfree e.ia j, hr⟩ := fun j hr => dif_pos hr
  have hmem : ∀ j, j ∈ F → j < e.ma ∧ e.ia j = true := by
    intro j hj; rw [hF, Finset.mem_filter, Finset.mem_range] at hj; exact hj
  have hq : ∑ i ∈ F, ∑ j ∈ F, y i * augmented e (nfree e.ia i) (nfree e.ia j) * y j = 0 := by
    have hrow : ∀ i ∈ F, ∑ j ∈ F, augmented e (nfree e.ia i) (nfree e.ia j) * y j = 0 := by
      intro i hi
      obtain ⟨hi1, hi2⟩ := hmem i hi
      have hri := nfree_lt e.ia hi1 hi2
      have hzi := congrFun hz ⟨nfree e.ia i, hri⟩
      simp only [Matrix.mulVec, dotProduct, Pi.zero_apply] at hzi
      rw [← hzi]
      refine sum_free e.ia e.ma (fun t => augmented e (nfree e.ia i) t * v t) _ ?_
      intro j _ _ hr
      rw [hy j hr]
    refine Finset.sum_eq_zero fun i hi => ?_
    simp only [mul_assoc]
    rw [← Finset.mul_sum, hrow i hi, mul_zero]
  have hpts : ∀ i ∈ F, ∀ j ∈ F, e.alpha (nfree e.ia i) (nfree e.ia j) =
      (dss.flatten.map fun pt => pt.w * pt.d i * pt.d j).sum := by
    intro i hi j hj
    obtain ⟨hi1, hi2⟩ := hmem i hi
    obtain ⟨hj1, hj2⟩ := hmem j hj
    exact h2 i j hi1 hj1 hi2 hj2
  have hsplit : ∑ i ∈ F, ∑ j ∈ F, y i * augmented e (nfree e.ia i) (nfree e.ia j) * y j =
      (dss.flatten.map fun pt => pt.w * (∑ i ∈ F, y i * pt.d i) ^ 2).sum +
      e.alambda * ∑ i ∈ F, y i ^ 2 * (dss.flatten.map fun pt => pt.w * pt.d i * pt.d i).sum := by
    rw [← quad_points, Finset.mul_sum, ← Finset.sum_add_distrib]
    refine Finset.sum_congr rfl fun i hi => ?_
    have hone : ∀ j ∈ F, y i * augmented e (nfree e.ia i) (nfree e.ia j) * y j =
        y i * (dss.flatten.map fun pt => pt.w * pt.d i * pt.d j).sum * y j +
        if j = i then e.alambda * (y i ^ 2 * (dss.flatten.map fun pt => pt.w * pt.d i * pt.d i).sum) else 0 := by
      intro j hj
      unfold augmented
      by_cases hij : j = i
      · subst hij
        rw [if_pos rfl, if_pos rfl, hpts j hj j hj]; ring
      · rw [if_neg hij, if_neg fun hn => hij (nfree_inj e.ia (hmem j hj).2 (hmem i hi).2 hn.symm), hpts i hi j hj]
        ring
    rw [Finset.sum_congr rfl hone, Finset.sum_add_distrib, Finset.sum_ite_eq' F i, if_pos hi]
  have hnn : 0 ≤ e.alambda * ∑ i ∈ F, y i ^ 2 * (dss.flatten.map fun pt => pt.w * pt.d i * pt.d i).sum := by
    refine mul_nonneg hl (Finset.sum_nonneg fun i _ => mul_nonneg (sq_nonneg _) (List.sum_nonneg fun x hx => ?_))
    obtain ⟨pt, hpt, rfl⟩ := List.mem_map.1 hx
    rw [mul_assoc]
    exact mul_nonneg (hD.weight pt hpt) (mul_self_nonneg _)
  have hzero := sum_eq_zero_all (dss.flatten.map fun pt => pt.w * (∑ i ∈ F, y i * pt.d i) ^ 2)
    (by
      intro x hx
      obtain ⟨pt, hpt, rfl⟩ := List.mem_map.1 hx
      exact mul_nonneg (hD.weight pt hpt) (sq_nonneg _))
    (by linarith [hq, hsplit])
  have hyz := hD.indep y (by
    intro pt hpt hw
    have := hzero _ (List.mem_map_of_mem hpt)
    have := (mul_eq_zero.1 this).resolve_left hw
    exact pow_eq_zero_iff (two_ne_zero) |>.1 this)
  refine hv (funext fun t => ?_)
  obtain ⟨l, l1, l2, l3⟩ := nfree_surj e.ia t.2
  have := hyz l l1 l2
  rw [hy l (by rw [l3]; exact t.2)] at this
  have ht : (⟨nfree e.ia l, by rw [l3]; exact t.2⟩ : Fin (nfree e.ia e.ma)) = t := Fin.ext l3
  rw [ht] at this
  exact this

/-- The augmented matrix is regular. -/
theorem augmented_det (th : Theory K W) (wk : Work K) (e : Eng K W) (h : NormOK th wk e)
    (hdet : ∀ dss, EvalPts th e.par dss → Determined e.par dss) (hl : 0 ≤ e.alambda) :
    Matrix.det (fun (i j : Fin wk.mfit) => augmented e i j) ≠ 0 := by
  obtain ⟨dss, h1, h2⟩ := h.eqs
  exact augmented_det_pts e wk.mfit h.mfit dss wk.beta h2 (hdet dss h1) hl

theorem solveNormal_regular {mfit : Nat} {m : Nat → Nat → K} (hd : Matrix.det (fun (i j : Fin mfit) => m i j) ≠ 0)
    (be : Nat → K) (c) (da) : ∃ c' d', solveNormal mfit m be c da = .ok (c', d') := by
  unfold solveNormal
  rcases C13.C13_gaussj_inverts_or_reports_singular (n := mfit) (m := 1)
    (fun i j => m i j) (fun i _ => be i) with ⟨h, _⟩ | ⟨_, A', X, h, _⟩
  · exact absurd h hd
  · rw [h]; exact ⟨_, _, rfl⟩

section
variable {th : Theory K W} {Q : ParStore K → Prop} {P : W → Prop}
  (hQ : ∀ (e : Eng K W) (a : Nat → K), Q e.par → Q (e.setP a).par)
  (hev : ∀ par w, Q par → P w → ∃ w', th.eval par w = (w', none) ∧ P w')
  (hdet : ∀ par dss, Q par → EvalPts th par dss → Determined par dss)

include hev in
omit [IsStrictOrderedRing K] in
theorem hev_keep : ∀ par w w', Q par → P w → th.eval par w = (w', none) → P w' := by
  intro par w w' h1 h2 h3
  obtain ⟨w1, h4, h5⟩ := hev par w h1 h2
  rw [h4] at h3
  cases h3
  exact h5

include hQ hev
omit [IsStrictOrderedRing K] in
theorem mrqcof_live (e : Eng K W) (a al be) (h : Good Q P e) : ∃ x, (mrqcof th e a al be).2 = .ok x := by
  obtain ⟨w', h1, -⟩ := hev (e.setP a).par (e.setP a).world (hQ e a h.1) h.2
  unfold mrqcof
  dsimp only
  rw [h1]
  exact ⟨_, rfl⟩

omit [IsStrictOrderedRing K] in
theorem mrqInit_live (old) (e : Eng K W) (h : Good Q P e) : (mrqInit th old e).2.2 = none := by
  obtain ⟨x, hx⟩ := mrqcof_live hQ hev { e with alambda := 1 / 1000 }
    ({ e with alambda := 1 / 1000 } : Eng K W).a e.alpha (fun _ => 0) h
  unfold mrqInit
  dsimp only
  generalize mrqcof th { e with alambda := 1 / 1000 } _ e.alpha _ = r at hx ⊢
  obtain ⟨e2, o⟩ := r
  dsimp only at hx
  subst hx
  rfl

include hdet
theorem mrqTry_live (wk : Work K) (e : Eng K W) (h : Good Q P e) (hn : NormOK th wk e) (hl : 0 ≤ e.alambda) :
    (mrqTry th wk e).2.2 = .more := by
  obtain ⟨cov, da, hs⟩ := solveNormal_regular
    (augmented_det th wk e hn (fun dss => hdet e.par dss h.1) hl) wk.beta e.covar wk.da
  unfold mrqTry
  rw [hs]
  dsimp only
  split
  · rw [hn.mfit]
    obtain ⟨c1, hc1, -⟩ := covsrt_spec e.ia e.ma cov
    obtain ⟨c2, hc2, -⟩ := covsrt_spec e.ia e.ma e.alpha
    rw [hc1, hc2]
  · obtain ⟨x, hx⟩ := mrqcof_live hQ hev { e with covar := cov }
      (fun l => if l < e.ma ∧ e.ia l = true then e.a l + da (nfree e.ia l) else wk.atry l) cov da h
    generalize mrqcof th { e with covar := cov } _ cov da = r at hx ⊢
    obtain ⟨e1, o⟩ := r
    dsimp only at hx
    subst hx
    dsimp only
    split <;> rfl

theorem mrqmin_live (old) (e : Eng K W) (h : Good Q P e)
    (hs : e.alambda < 0 ∨ 0 ≤ e.alambda ∧ ∃ wk, old = some wk ∧ NormOK th wk e) :
    (mrqmin th old e).2.2 = .more := by
  unfold mrqmin
  rcases hs with hs | ⟨hs, wk, rfl, hn⟩
  · rw [if_pos hs]
    have h1 := mrqInit_live hQ hev old e h
    have h2 := mrqInit_norm th old e h1
    have h3 := mrqInit_good hQ (hev_keep hev) old e h h1
    generalize mrqInit th old e = r at h1 h2 h3 ⊢
    obtain ⟨wk, e1, o⟩ := r
    dsimp only at h1
    subst h1
    exact mrqTry_live hQ hev hdet wk e1 h3 h2.1 (by rw [h2.2.2]; positivity)
  · rw [if_neg (not_lt.2 hs)]
    dsimp only
    rw [if_pos ⟨hn.ma, hn.mfit⟩]
    exact mrqTry_live hQ hev hdet wk e h hn hs

theorem refineBody_live (toler : K) (work) (e : Eng K W) (h : Good Q P e)
    (hs : e.alambda < 0 ∧ e.iter = 0 ∨ 0 < e.alambda ∧ ∃ wk, work = some wk ∧ NormOK th wk e) :
    (refineBody th toler work e).2.2 = .more ∨ (refineBody th toler work e).2.2 = .done := by
  unfold refineBody
  split
  · have h1 := mrqmin_live hQ hev hdet work { e with ochisq := e.chisq } h (by
      rcases hs with hs | ⟨hs, wk, h1, h2⟩
      · exact Or.inl hs.1
      · exact Or.inr ⟨hs.le, wk, h1, h2.congr rfl rfl⟩)
    generalize mrqmin th work { e with ochisq := e.chisq } = r at h1 ⊢
    obtain ⟨wk, e1, o⟩ := r
    dsimp only at h1
    subst h1
    exact Or.inl rfl
  · rename_i hc
    have h1 := mrqmin_live hQ hev hdet work { e with alambda := 0 } h (by
      rcases hs with hs | ⟨hs, wk, h1, h2⟩
      · exact absurd (Or.inl (by omega)) hc
      · exact Or.inr ⟨le_rfl, wk, h1, h2.congr rfl rfl⟩)
    have h2 := mrqmin_good hQ (hev_keep hev) work { e with alambda := 0 } h h1
    generalize mrqmin th work { e with alambda := 0 } = r at h1 h2 ⊢
    obtain ⟨wk, e1, o⟩ := r
    dsimp only at h1
    subst h1
    dsimp only at h2 ⊢
    obtain ⟨w', g1, -⟩ := hev e1.par e1.world h2.1 h2.2
    rw [g1]
    exact Or.inr rfl

theorem refineStep_live {P0 : W → Prop}
    (hset : ∀ par w, Q par → P0 w → ∃ w', th.setup par w = (w', none) ∧ P w')
    (toler : K) (s : Statics K) (e : Eng K W) (hq : Q e.par)
    (h : ¬ (s.fitRunning = true ∧ e.iter ≠ 0) ∧ P0 e.world ∨ RunInv th s e ∧ P e.world) :
    (refineStep th toler s e).2.2 = .more ∨ (refineStep th toler s e).2.2 = .done := by
  rcases h with ⟨h1, h2⟩ | ⟨h1, h2⟩
  · unfold refineStep
    rw [if_neg h1]
    dsimp only
    obtain ⟨w', g1, g2⟩ := hset e.par e.world hq h2
    rw [g1]
    exact refineBody_live hQ hev hdet toler s.work
      { e with iter := 0, alambda := -1, stagnating := 0, chisq := th.dmax, world := w' } ⟨hq, g2⟩
      (Or.inl ⟨by simp, rfl⟩)
  · rw [refineStep_running th toler s e h1]
    obtain ⟨wk, g1, g2, -⟩ := h1.work
    exact refineBody_live hQ hev hdet toler s.work e ⟨hq, h2⟩ (Or.inr ⟨h1.lam, wk, g1, g2⟩)

theorem refineLoop_live {P0 : W → Prop}
    (hset : ∀ par w, Q par → P0 w → ∃ w', th.setup par w = (w', none) ∧ P w')
    (toler : K) (fuel : Nat) : ∀ (s : Statics K) (e : Eng K W), Q e.par →
    (¬ (s.fitRunning = true ∧ e.iter ≠ 0) ∧ P0 e.world ∨ RunInv th s e ∧ P e.world) →
    (refineLoop th toler fuel (s, e)).2.1 = .more ∨ (refineLoop th toler fuel (s, e)).2.1 = .done := by
  have hset' : ∀ par w w', Q par → P0 w → th.setup par w = (w', none) → P w' := by
    intro par w w' h1 h2 h3
    obtain ⟨w1, h4, h5⟩ := hset par w h1 h2
    rw [h4] at h3
    cases h3
    exact h5
  induction fuel with
  | zero => intro s e _ _; exact Or.inl rfl
  | succ n ih =>
    intro s e hq hs
    have h1 := refineStep_live hQ hev hdet hset toler s e hq hs
    have h2 := refineStep_run th toler s e (hs.imp And.left And.left)
    have h3 : (refineStep th toler s e).2.2 = .more → Good Q P (refineStep th toler s e).2.1 := by
      rcases hs with ⟨g1, g2⟩ | ⟨g1, g2⟩
      · intro hm
        exact (refineStep_good hQ (hev_keep hev) hset' toler s e hq ⟨fun h => absurd h g1, g2⟩).1 (Or.inl hm)
      · rw [refineStep_running th toler s e g1]
        intro hm
        exact (refineBody_good hQ (hev_keep hev) toler s.work e ⟨hq, g2⟩).1 (Or.inl hm)
    rw [refineLoop]
    dsimp only at h2 ⊢
    generalize refineStep th toler s e = r at h1 h2 h3 ⊢
    obtain ⟨s1, e1, o⟩ := r
    rcases h1 with h1 | h1
    · dsimp only at h1
      subst h1
      have h4 := h3 rfl
      exact ih s1 e1 h4.1 (Or.inr ⟨h2.1 rfl, h4.2⟩)
    · dsimp only at h1
      subst h1
      exact Or.inr rfl

end
end Pdffit
