import Verif.Lemmas.Arith
import Verif.Props.C13

/-! Exact arithmetic: the refinement in any arithmetic is that of `Model/Refine.lean`. -/

namespace Pdffit.Any
set_option linter.unusedSectionVars false
variable {K W : Type} [Field K] [LinearOrder K]

attribute [local instance] Arith.exact

theorem lt_iff (x y : K) : Arith.lt x y = true ↔ x < y := decide_eq_true_iff

theorem le_iff (x y : K) : Arith.le x y = true ↔ x ≤ y := decide_eq_true_iff

theorem eq_iff (x y : K) : Arith.eq x y = true ↔ x = y := decide_eq_true_iff

theorem gjSearch_exact {n : ℕ} (a : Matrix (Fin n) (Fin n) K) (ipiv init) : Any.gjSearch a ipiv init = Pdffit.gjSearch a ipiv init := by
  unfold Any.gjSearch Pdffit.gjSearch
  simp only [le_iff, ge_iff_le]
  rfl

theorem gjUnscramble_exact {n : ℕ} (l : List (Fin n × Fin n)) : ∀ a : Matrix (Fin n) (Fin n) K, Any.gjUnscramble a l = Pdffit.gjUnscramble a l := by
  induction l with
  | nil => intro a; rfl
  | cons rc l ih => intro a; exact ih _

theorem gjStep_exact {n m : ℕ} (s : GJ n m K) (h : Pdffit.gjStep s ≠ .ub) : Any.gjStep s = Pdffit.gjStep s := by
  revert h
  unfold Any.gjStep Pdffit.gjStep
  rw [gjSearch_exact]
  rcases (Pdffit.gjSearch s.a s.ipiv s.piv).2 with _ | ⟨r, c⟩
  · exact fun h => absurd rfl h
  · intro _
    dsimp only
    by_cases hz : Pdffit.gjSwapRows s.a r c c c = 0
    · rw [if_pos hz]
      exact if_pos (decide_eq_true hz)
    · rw [if_neg hz]
      exact if_neg (mt (eq_iff _ _).1 hz)

theorem gjLoop_exact {n m : ℕ} (k : ℕ) : ∀ s : GJ n m K, Pdffit.gjLoop k s ≠ .ub → Any.gjLoop k s = Pdffit.gjLoop k s := by
  induction k with
  | zero => intro s _; rfl
  | succ k ih =>
    intro s h
    unfold Any.gjLoop
    unfold Pdffit.gjLoop at h ⊢
    rcases hs : Pdffit.gjStep s with t | e | _
    · rw [hs] at h
      rw [gjStep_exact s (by rw [hs]; simp), hs]
      exact ih t h
    · rw [gjStep_exact s (by rw [hs]; simp), hs]
      rfl
    · rw [hs] at h
      exact absurd rfl h

theorem gaussj_exact [IsStrictOrderedRing K] {n m : ℕ} (A : Matrix (Fin n) (Fin n) K) (B : Matrix (Fin n) (Fin m) K) :
    Any.gaussj A B = Pdffit.gaussj A B := by
  have hu : Pdffit.gaussj A B ≠ .ub := by
    rcases C13.C13_gaussj_inverts_or_reports_singular A B with ⟨_, h⟩ | ⟨_, A', X, h, _⟩ <;> rw [h] <;> simp
  unfold Pdffit.gaussj at hu ⊢
  unfold Any.gaussj
  have hl := gjLoop_exact n (GJ.mk A B (fun _ => 0) none [])
  rcases ht : Pdffit.gjLoop n (GJ.mk A B (fun _ => 0) none []) with t | e | _
  · rw [hl (by rw [ht]; simp), ht]
    dsimp only
    rw [gjUnscramble_exact]
  · rw [hl (by rw [ht]; simp), ht]
  · rw [ht] at hu
    exact absurd rfl hu

theorem accRow_exact (ia : ℕ → Bool) (d : ℕ → K) (wt j al) (m : ℕ) : Any.accRow ia d wt j al m = Pdffit.accRow ia d wt j al m := by
  induction m with
  | zero => rfl
  | succ m ih =>
    unfold Any.accRow Pdffit.accRow
    rw [ih]
    rfl

theorem accPoint_exact (ia : ℕ → Bool) (pt : Pt K) (al be) (l : ℕ) : Any.accPoint ia pt al be l = Pdffit.accPoint ia pt al be l := by
  induction l with
  | zero => rfl
  | succ l ih =>
    unfold Any.accPoint Pdffit.accPoint
    rw [ih]
    dsimp only
    rw [accRow_exact]
    rfl

theorem cumChisq_exact (l : List (Pt K)) : ∀ x : K, Any.cumChisq x l = Pdffit.cumChisq x l := by
  induction l with
  | nil => intro x; rfl
  | cons p l ih =>
    intro x
    unfold Any.cumChisq Pdffit.cumChisq
    rw [ih]
    rfl

theorem mrqAcc_exact (ia : ℕ → Bool) (ma) (dss : List (List (Pt K))) (al be) : Any.mrqAcc ia ma dss al be = Pdffit.mrqAcc ia ma dss al be := by
  unfold Any.mrqAcc Pdffit.mrqAcc
  dsimp only
  have h1 : (fun (s : (ℕ → ℕ → K) × (ℕ → K)) pt => (Any.accPoint ia pt s.1 s.2 ma).2) = fun s pt => (Pdffit.accPoint ia pt s.1 s.2 ma).2 := by
    funext s pt
    rw [accPoint_exact]
  have h2 : (Any.cumChisq Arith.zero : List (Pt K) → List K) = Pdffit.cumChisq 0 := by
    funext l
    exact cumChisq_exact l 0
  rw [h1, h2]
  rfl

theorem covLoop_exact (ia : ℕ → Bool) (j : ℕ) : ∀ (k : ℕ) (c : ℕ → ℕ → K), Any.covLoop ia j k c = Pdffit.covLoop ia j k c := by
  induction j with
  | zero => intro k c; rfl
  | succ j ih =>
    intro k c
    rw [Any.covLoop.eq_def, Pdffit.covLoop.eq_def]
    dsimp only
    split
    · cases k with
      | zero => rfl
      | succ k => exact ih _ _
    · exact ih _ _

theorem covsrt_exact (c : ℕ → ℕ → K) (ma) (ia : ℕ → Bool) (mfit) : Any.covsrt c ma ia mfit = Pdffit.covsrt c ma ia mfit := covLoop_exact _ _ _ _

theorem wnormOf_exact (dss : List (List (Pt K))) : Any.wnormOf dss = Pdffit.wnormOf dss := by
  have h1 : ∀ (l : List (Pt K)) (x : K), l.foldl (fun x p => x + p.w * p.obs * p.obs) x = x + (l.map fun p => p.w * p.obs * p.obs).sum := by
    intro l
    induction l with
    | nil => intro x; simp
    | cons p l ih => intro x; rw [List.foldl_cons, ih, List.map_cons, List.sum_cons, add_assoc]
  have h2 : ∀ (l : List (List (Pt K))) (x : K), l.foldl (fun s l => s + l.foldl (fun x p => x + p.w * p.obs * p.obs) 0) x =
      x + (l.flatten.map fun p => p.w * p.obs * p.obs).sum := by
    intro l
    induction l with
    | nil => intro x; simp
    | cons p l ih =>
      intro x
      rw [List.foldl_cons, ih, List.flatten_cons, List.map_append, List.sum_append, h1, zero_add, add_assoc]
  have := h2 dss 0
  rw [zero_add] at this
  exact this

theorem mrqcof_exact (th : Theory K W) (e : Eng K W) (a al be) : Any.mrqcof th e a al be = Pdffit.mrqcof th e a al be := by
  unfold Any.mrqcof Pdffit.mrqcof
  dsimp only
  rw [show Any.setP e a = e.setP a from rfl]
  rcases th.eval (e.setP a).par (e.setP a).world with ⟨w, _ | x⟩
  · dsimp only
    rw [mrqAcc_exact]
    rfl
  · rfl

theorem mrqInit_exact (th : Theory K W) (old) (e : Eng K W) : Any.mrqInit th old e = Pdffit.mrqInit th old e := by
  unfold Any.mrqInit Pdffit.mrqInit
  dsimp only
  rw [mrqcof_exact]
  show (match Pdffit.mrqcof th { e with alambda := 1 / 1000 } (Eng.a { e with alambda := 1 / 1000 }) e.alpha (fun _ => 0) with
    | (e2, .error x) => _
    | (e2, .ok (al, be)) => _) = _
  rcases Pdffit.mrqcof th { e with alambda := 1 / 1000 } (Eng.a { e with alambda := 1 / 1000 }) e.alpha (fun _ => 0) with ⟨e1, x | ⟨al, be⟩⟩
  · rfl
  · dsimp only
    rw [wnormOf_exact]
    rfl

theorem solveNormal_exact [IsStrictOrderedRing K] (mfit m be cov) (da : ℕ → K) : Any.solveNormal mfit m be cov da = Pdffit.solveNormal mfit m be cov da := by
  unfold Any.solveNormal Pdffit.solveNormal
  rw [show Any.gaussj (n := mfit) (m := 1) (fun i j => m i j) (fun i _ => be i) = Pdffit.gaussj (n := mfit) (m := 1) (fun i j => m i j) (fun i _ => be i) from
    gaussj_exact _ _]
  rfl

theorem mrqTry_exact [IsStrictOrderedRing K] (th : Theory K W) (wk) (e : Eng K W) : Any.mrqTry th wk e = Pdffit.mrqTry th wk e := by
  unfold Any.mrqTry Pdffit.mrqTry
  rw [solveNormal_exact, show Any.augmented e = Pdffit.augmented e from rfl]
  rcases Pdffit.solveNormal wk.mfit (Pdffit.augmented e) wk.beta e.covar wk.da with ⟨cov, da⟩ | x | _
  · dsimp only
    by_cases hz : e.alambda = 0
    · rw [if_pos hz, if_pos ((eq_iff e.alambda Arith.zero).2 hz), covsrt_exact, covsrt_exact]
      rfl
    · rw [if_neg hz, if_neg (mt (eq_iff e.alambda Arith.zero).1 hz), mrqcof_exact]
      rw [show Any.trial wk e da = fun l => if l < e.ma ∧ e.ia l = true then e.a l + da (nfree e.ia l) else wk.atry l from rfl]
      rcases Pdffit.mrqcof th { e with covar := cov } (fun l => if l < e.ma ∧ e.ia l = true then e.a l + da (nfree e.ia l) else wk.atry l) cov da with ⟨e1, x | ⟨al, be⟩⟩
      · rfl
      · dsimp only
        by_cases hl : e1.chisq < wk.ochisq
        · rw [if_pos hl, if_pos ((lt_iff _ _).2 hl)]
          rw [show e1.alambda / 10 = e1.alambda * (1 / 10) by ring]
          rfl
        · rw [if_neg hl, if_neg (mt (lt_iff _ _).1 hl)]
          rfl
  · rfl
  · rfl

theorem mrqmin_exact [IsStrictOrderedRing K] (th : Theory K W) (old) (e : Eng K W) : Any.mrqmin th old e = Pdffit.mrqmin th old e := by
  unfold Any.mrqmin Pdffit.mrqmin
  by_cases hl : e.alambda < 0
  · rw [if_pos hl, if_pos ((lt_iff e.alambda Arith.zero).2 hl), mrqInit_exact]
    rcases Pdffit.mrqInit th old e with ⟨wk, e1, _ | x⟩
    · exact mrqTry_exact th wk e1
    · rfl
  · rw [if_neg hl, if_neg (mt (lt_iff e.alambda Arith.zero).1 hl)]
    cases old with
    | none => rfl
    | some wk =>
      dsimp only
      rw [mrqTry_exact]
      rfl

theorem refineBody_exact [IsStrictOrderedRing K] (th : Theory K W) (toler : K) (work) (e : Eng K W) :
    Any.refineBody th toler work e = Pdffit.refineBody th toler work e := by
  unfold Any.refineBody Pdffit.refineBody
  rw [mrqmin_exact, mrqmin_exact]
  split
  · rcases Pdffit.mrqmin th work { e with ochisq := e.chisq } with ⟨wk, e1, _ | _ | x | _⟩
    · dsimp only
      rw [wnormOf_exact]
      simp only [le_iff]
      rfl
    all_goals rfl
  · show (match Pdffit.mrqmin th work { e with alambda := 0 } with
      | (wk, e1, .more) => _
      | (wk, e1, o) => _) = _
    rcases Pdffit.mrqmin th work { e with alambda := 0 } with ⟨wk, e1, _ | _ | x | _⟩
    · dsimp only
      rw [wnormOf_exact]
      rfl
    all_goals rfl

theorem refineStep_exact [IsStrictOrderedRing K] (th : Theory K W) (toler : K) (s : Statics K) (e : Eng K W) :
    Any.refineStep th toler s e = Pdffit.refineStep th toler s e := by
  unfold Any.refineStep Pdffit.refineStep
  rw [refineBody_exact]
  split
  · rfl
  · dsimp only
    rcases th.setup e.par e.world with ⟨w, _ | x⟩
    · exact refineBody_exact _ _ _ _
    · rfl

theorem refineLoop_exact [IsStrictOrderedRing K] (th : Theory K W) (toler : K) (n : ℕ) : ∀ st : Statics K × Eng K W,
    Any.refineLoop th toler n st = Pdffit.refineLoop th toler n st := by
  induction n with
  | zero => intro st; rfl
  | succ n ih =>
    intro st
    rw [Any.refineLoop.eq_def, Pdffit.refineLoop.eq_def]
    dsimp only
    rw [refineStep_exact]
    rcases Pdffit.refineStep th toler st.1 st.2 with ⟨s1, e1, _ | _ | x | _⟩
    · dsimp only
      rw [ih]
    all_goals rfl

end Pdffit.Any
