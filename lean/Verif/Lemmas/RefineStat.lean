import Verif.Lemmas.RefineLive

/-! Refinements that start where the gradient of chi-square vanishes. -/

namespace Pdffit
set_option linter.unusedSectionVars false
variable {K W : Type} [Field K] [LinearOrder K] [IsStrictOrderedRing K]

/-- At the parameters `p0` every evaluation (from a world in `P`) succeeds and gives points with chi-square `X`,
normalisation `wn` and zero gradient that determine the free parameters. -/
def AtMin (th : Theory K W) (p0 : ParStore K) (P : W → Prop) (X wn : K) : Prop :=
  ∀ w, P w → ∃ w', th.eval p0 w = (w', none) ∧ P w' ∧ chisqOf (th.pts w') = X ∧ wnormOf (th.pts w') = wn ∧
    Determined p0 (th.pts w') ∧
    ∀ i, i < p0.p.length → p0.ip.getD i false = true →
      ((th.pts w').flatten.map fun pt => pt.w * (pt.obs - pt.mod) * pt.d i).sum = 0

/-- Between two calls. -/
structure MinInv (th : Theory K W) (p0 : ParStore K) (P : W → Prop) (X wn : K) (wk : Work K) (e : Eng K W) : Prop where
  par : e.par = p0
  world : P e.world
  wn : wnormOf (th.pts e.world) = wn
  ma : wk.ma = e.ma
  mfit : wk.mfit = nfree e.ia e.ma
  och : wk.ochisq = X
  chi : e.chisq = X
  atry : ∀ l, l < e.ma → wk.atry l = e.a l
  beta : ∀ l, l < nfree e.ia e.ma → wk.beta l = 0
  eqs : ∃ dss, NormalEqs e.ia e.ma dss e.alpha wk.beta ∧ Determined e.par dss

theorem mul_zero_cancel {n m : Nat} (A A' : Matrix (Fin n) (Fin n) K) (X : Matrix (Fin n) (Fin m) K) (h : A' * A = 1)
    (h0 : A * X = 0) : X = 0 := by
  rw [← Matrix.one_mul X, ← h, Matrix.mul_assoc, h0, Matrix.mul_zero]

theorem solveNormal_zero {mfit : Nat} {m : Nat → Nat → K} (hd : Matrix.det (fun (i j : Fin mfit) => m i j) ≠ 0)
    (be : Nat → K) (hb : ∀ i, i < mfit → be i = 0) (c) (da) :
    ∃ c' d', solveNormal mfit m be c da = .ok (c', d') ∧ ∀ i, i < mfit → d' i = 0 := by
  unfold solveNormal
  rcases C13.C13_gaussj_inverts_or_reports_singular (n := mfit) (m := 1)
    (fun i j => m i j) (fun i _ => be i) with ⟨h, _⟩ | ⟨_, A', X, h, h1, h2, h3⟩
  · exact absurd h hd
  · rw [h]
    refine ⟨_, _, rfl, fun i hi => ?_⟩
    have hb0 : (fun (i : Fin mfit) (_ : Fin 1) => be i) = (0 : Matrix (Fin mfit) (Fin 1) K) := by
      funext i j; exact hb i i.2
    have hX : X = 0 := by
      exact mul_zero_cancel _ A' X h2 (h3.trans hb0)
    show (if h : i < mfit then X ⟨i, h⟩ 0 else da i) = 0
    rw [dif_pos hi, hX]
    rfl

variable {th : Theory K W} {p0 : ParStore K} {P : W → Prop} {X wn : K}

theorem setP_eq_par (e : Eng K W) (a : Nat → K) (h : ∀ l, l < e.ma → a l = e.a l) : (e.setP a).par = e.par := by
  refine parStore_ext ?_ rfl rfl
  rw [← Eng.setP_self e]
  exact setP_congr _ _ rfl h

/-- Evaluation at the minimum. -/
theorem mrqcof_min (hm : AtMin th p0 P X wn) (e : Eng K W) (a al be) (hp : e.par = p0) (hw : P e.world)
    (ha : ∀ l, l < e.ma → a l = e.a l) :
    ∃ e1 al1 be1, mrqcof th e a al be = (e1, .ok (al1, be1)) ∧ e1.par = p0 ∧ P e1.world ∧
      wnormOf (th.pts e1.world) = wn ∧ e1.chisq = X ∧ e1.alpha = e.alpha ∧ e1.alambda = e.alambda ∧ Frame e e1 ∧
      NormalEqs e.ia e.ma (th.pts e1.world) al1 be1 ∧ Determined p0 (th.pts e1.world) ∧
      (∀ l, l < nfree e.ia e.ma → be1 l = 0) ∧ th.eval p0 e.world = (e1.world, none) := by
  obtain ⟨w', h1, h2, h3, h4, h5, h6⟩ := hm e.world hw
  have hpar := (setP_eq_par e a ha).trans hp
  have hc : mrqcof th e a al be = ({ e.setP a with world := w', chisq := (mrqAcc (e.setP a).ia (e.setP a).ma (th.pts w') al be).2.2.1, cum := (mrqAcc (e.setP a).ia (e.setP a).ma (th.pts w') al be).2.2.2 }, .ok ((mrqAcc (e.setP a).ia (e.setP a).ma (th.pts w') al be).1, (mrqAcc (e.setP a).ia (e.setP a).ma (th.pts w') al be).2.1)) := by
    unfold mrqcof
    dsimp only
    rw [hpar]
    have : (e.setP a).world = e.world := rfl
    rw [this, h1]
  have hn := mrqcof_norm th _ _ _ _ _ _ _ hc
  have hf := mrqcof_frame th e a al be
  rw [hc] at hf
  refine ⟨_, _, _, hc, hpar, h2, h4, ?_, rfl, rfl, hf, hn.2.2.1, h5, ?_, h1⟩
  · exact (chisq_eq (e.setP a).ia (e.setP a).ma (th.pts w') al be).trans h3
  · intro l hl
    obtain ⟨i, i1, i2, rfl⟩ := nfree_surj e.ia hl
    rw [hn.2.2.1.2 i i1 i2]
    refine h6 i ?_ ?_
    · rw [← hp]; exact i1
    · rw [← hp]; exact i2

theorem mrqInit_min (hm : AtMin th p0 P X wn) (old) (e : Eng K W) (hp : e.par = p0) (hw : P e.world) :
    ∃ wk e1, mrqInit th old e = (wk, e1, none) ∧ MinInv th p0 P X wn wk e1 ∧ e1.alambda = 1 / 1000 ∧ Frame e e1 := by
  obtain ⟨e1, al1, be1, hc, g1, g2, g3, g4, g5, g6, g7, g8, g9, g10, -⟩ :=
    mrqcof_min hm { e with alambda := 1 / 1000 } ({ e with alambda := 1 / 1000 } : Eng K W).a e.alpha (fun _ => 0) hp hw
      (fun _ _ => rfl)
  have hia : e1.ia = e.ia := g7.ia
  have hma : e1.ma = e.ma := g7.ma
  refine ⟨⟨e.ma, nfree e.ia e.ma, e1.chisq, e1.a, be1, fun _ => 0⟩,
    { e1 with alpha := al1, rw2 := e1.chisq / wnormOf (th.pts e1.world) }, ?_, ?_, ?_, ?_⟩
  · unfold mrqInit
    dsimp only
    rw [hc]
    rfl
  · refine ⟨g1, g2, g3, hma.symm, ?_, g4, g4, fun _ _ => rfl, ?_, _, ?_, g1 ▸ g9⟩
    · show nfree e.ia e.ma = nfree e1.ia e1.ma
      rw [hia, hma]
    · show ∀ l, l < nfree e1.ia e1.ma → be1 l = 0
      rw [hia, hma]
      exact g10
    · show NormalEqs e1.ia e1.ma _ al1 be1
      rw [hia, hma]
      exact g8
  · exact g6
  · exact ⟨g7.iter, g7.stag, g7.och, g7.ip, g7.id, g7.len⟩

theorem mrqTry_min (hm : AtMin th p0 P X wn) (wk : Work K) (e : Eng K W) (h : MinInv th p0 P X wn wk e)
    (hl : 0 < e.alambda) :
    ∃ wk' e', mrqTry th wk e = (some wk', e', .more) ∧ MinInv th p0 P X wn wk' e' ∧ e'.alambda = e.alambda * 10 ∧
      Frame e e' := by
  obtain ⟨dss, d1, d2⟩ := h.eqs
  obtain ⟨cov, da, hs, hz⟩ := solveNormal_zero (augmented_det_pts e wk.mfit h.mfit dss wk.beta d1 d2 hl.le) wk.beta
    (by rw [h.mfit]; exact h.beta) e.covar wk.da
  have hat : ∀ l, l < e.ma →
      (fun l => if l < e.ma ∧ e.ia l = true then e.a l + da (nfree e.ia l) else wk.atry l) l = e.a l := by
    intro l hl
    dsimp only
    split
    · rename_i hc
      rw [hz _ (by rw [h.mfit]; exact nfree_lt e.ia hc.1 hc.2), add_zero]
    · exact h.atry l hl
  obtain ⟨e1, al1, be1, hc, g1, g2, g3, g4, g5, g6, g7, g8, g9, g10, -⟩ :=
    mrqcof_min hm { e with covar := cov } _ cov da h.par h.world hat
  have hia : e1.ia = e.ia := g7.ia
  have hma : e1.ma = e.ma := g7.ma
  have ha1 : e1.a = e.a := by unfold Eng.a; rw [g1, h.par]
  have hpar : (Eng.setP { e1 with covar := al1 } e.a).par = p0 := by
    refine (setP_eq_par { e1 with covar := al1 } e.a fun l _ => ?_).trans g1
    show e.a l = e1.a l
    rw [ha1]
  have hfr : Frame e (Eng.setP { e1 with covar := al1 } e.a) := by
    have hf1 : Frame e { e1 with covar := al1 } := ⟨g7.iter, g7.stag, g7.och, g7.ip, g7.id, g7.len⟩
    exact hf1.trans (Frame.setP _ _)
  have hiaS := hfr.ia
  have hmaS := hfr.ma
  refine ⟨{ wk with
      atry := fun l => if l < e.ma ∧ e.ia l = true then e.a l + da (nfree e.ia l) else wk.atry l, da := be1 },
    { (Eng.setP { e1 with covar := al1 } e.a) with alambda := e1.alambda * 10, chisq := wk.ochisq }, ?_, ?_, ?_, ?_⟩
  · unfold mrqTry
    rw [hs]
    dsimp only
    rw [if_neg hl.ne', hc]
    dsimp only
    rw [if_neg (by rw [g4, h.och]; exact lt_irrefl _)]
  · refine ⟨hpar, g2, g3, h.ma.trans hmaS.symm, ?_, h.och, h.och, ?_, ?_, dss, ?_, ?_⟩
    · show wk.mfit = nfree (Eng.ia (Eng.setP { e1 with covar := al1 } e.a)) (Eng.ma (Eng.setP { e1 with covar := al1 } e.a))
      rw [hiaS, hmaS]; exact h.mfit
    · intro l hl
      have hl' : l < e.ma := by rw [← hmaS]; exact hl
      refine (hat l hl').trans ?_
      show e.a l = (Eng.setP { e1 with covar := al1 } e.a).a l
      exact (Eng.setP_a { e1 with covar := al1 } e.a l (by show l < e1.ma; rw [hma]; exact hl')).symm
    · show ∀ l, l < nfree (Eng.ia (Eng.setP { e1 with covar := al1 } e.a)) (Eng.ma (Eng.setP { e1 with covar := al1 } e.a)) → wk.beta l = 0
      rw [hiaS, hmaS]; exact h.beta
    · show NormalEqs (Eng.ia (Eng.setP { e1 with covar := al1 } e.a)) (Eng.ma (Eng.setP { e1 with covar := al1 } e.a)) dss e1.alpha wk.beta
      rw [hiaS, hmaS, g5]; exact d1
    · show Determined (Eng.setP { e1 with covar := al1 } e.a).par dss
      rw [hpar, ← h.par]; exact d2
  · show e1.alambda * 10 = _
    rw [g6]
  · exact ⟨hfr.iter, hfr.stag, hfr.och, hfr.ip, hfr.id, hfr.len⟩

/-- Between two calls of `refine_step`, after `i` calls. -/
structure MinRun (th : Theory K W) (p0 : ParStore K) (P : W → Prop) (X wn : K) (i st : Nat) (s : Statics K)
    (e : Eng K W) : Prop where
  run : s.fitRunning = true
  it : e.iter = i
  stag : e.stagnating = st
  lam : 0 < e.alambda
  work : ∃ wk, s.work = some wk ∧ MinInv th p0 P X wn wk e

theorem MinInv.congr {wk : Work K} {e e' : Eng K W} (h : MinInv th p0 P X wn wk e) (h1 : e'.par = e.par)
    (h2 : e'.world = e.world) (h3 : e'.chisq = e.chisq) (h4 : e'.alpha = e.alpha) : MinInv th p0 P X wn wk e' := by
  obtain ⟨a1, a2, a3, a4, a5, a6, a7, a8, a9, a10⟩ := h
  have i1 : e'.ia = e.ia := by unfold Eng.ia; rw [h1]
  have i2 : e'.ma = e.ma := by unfold Eng.ma; rw [h1]
  have i3 : e'.a = e.a := by unfold Eng.a; rw [h1]
  exact ⟨h1 ▸ a1, h2 ▸ a2, h2 ▸ a3, i2 ▸ a4, by rw [i1, i2]; exact a5, a6, h3 ▸ a7, by rw [i2, i3]; exact a8,
    by rw [i1, i2]; exact a9, by rw [i1, i2, h4, h1]; exact a10⟩

theorem refineStep_min_first (hm : AtMin th p0 P X wn) (toler : K) (s : Statics K) (e : Eng K W)
    (hfresh : ¬ (s.fitRunning = true ∧ e.iter ≠ 0)) (hp : e.par = p0) (w : W)
    (hset : th.setup p0 e.world = (w, none)) (hw : P w) :
    (refineStep th toler s e).2.2 = .more ∧
    MinRun th p0 P X wn 1 0 (refineStep th toler s e).1 (refineStep th toler s e).2.1 := by
  unfold refineStep
  rw [if_neg hfresh]
  dsimp only
  rw [hp, hset]
  dsimp only
  unfold refineBody
  rw [if_pos (Or.inl (by simp))]
  unfold mrqmin
  rw [if_pos (by simp)]
  obtain ⟨wk, e1, h1, h2, h3, h4⟩ := mrqInit_min hm s.work
    ({ e with iter := 0, alambda := -1, stagnating := 0, chisq := th.dmax, world := w, ochisq := th.dmax } : Eng K W)
    hp hw
  obtain ⟨wk', e', g1, g2, g3, g4⟩ := mrqTry_min hm wk e1 h2 (by rw [h3]; positivity)
  have hit : e'.iter = 0 := g4.iter.trans h4.iter
  have h1' := h1
  rw [hp] at h1'
  rw [h1']
  dsimp only
  rw [g1]
  dsimp only
  rw [if_neg (by rw [hit]; simp)]
  refine ⟨rfl, rfl, by show e'.iter + 1 = 1; rw [hit], rfl, ?_, wk', rfl, g2.congr rfl rfl rfl rfl⟩
  show 0 < e'.alambda
  rw [g3, h3]
  positivity

theorem refineStep_min_mid (hm : AtMin th p0 P X wn) (hX : 0 ≤ X) (toler : K) (ht : 0 ≤ toler) (i st : Nat) (hi : 0 < i)
    (hc : i < 3 ∨ st < 3 ∧ i < 100) (s : Statics K) (e : Eng K W) (h : MinRun th p0 P X wn i st s e) :
    (refineStep th toler s e).2.2 = .more ∧
    MinRun th p0 P X wn (i + 1) (st + 1) (refineStep th toler s e).1 (refineStep th toler s e).2.1 := by
  obtain ⟨h1, h2, h3, h4, wk, h5, h6⟩ := h
  unfold refineStep
  rw [if_pos ⟨h1, by rw [h2]; omega⟩]
  unfold refineBody
  rw [if_pos (by rw [h2, h3]; exact hc)]
  unfold mrqmin
  rw [if_neg (not_lt.2 h4.le), h5]
  dsimp only
  rw [if_pos ⟨h6.ma, h6.mfit⟩]
  obtain ⟨wk', e', g1, g2, g3, g4⟩ := mrqTry_min hm wk { e with ochisq := e.chisq } (h6.congr rfl rfl rfl rfl) h4
  rw [g1]
  dsimp only
  have hit : e'.iter = i := g4.iter.trans h2
  have hoc : e'.ochisq = X := g4.och.trans h6.chi
  have hst : e'.stagnating = st := g4.stag.trans h3
  rw [if_pos ⟨by rw [hit]; omega, by rw [hoc, g2.chi, sub_self]; exact mul_nonneg ht hX⟩]
  refine ⟨rfl, rfl, by show e'.iter + 1 = i + 1; rw [hit], by show e'.stagnating + 1 = st + 1; rw [hst], ?_, wk', rfl,
    g2.congr rfl rfl rfl rfl⟩
  show 0 < e'.alambda
  rw [g3]
  show 0 < e.alambda * 10
  positivity

theorem refineStep_min_last (hm : AtMin th p0 P X wn) (toler : K) (i st : Nat) (hi : 0 < i)
    (hc : ¬ (i < 3 ∨ st < 3 ∧ i < 100)) (s : Statics K) (e : Eng K W) (h : MinRun th p0 P X wn i st s e) :
    (refineStep th toler s e).2.2 = .done ∧ (refineStep th toler s e).2.1.par = p0 ∧
    (refineStep th toler s e).2.1.chisq = X ∧ (refineStep th toler s e).2.1.rw2 = X / wn ∧
    ∃ w0, P w0 ∧ th.eval p0 w0 = ((refineStep th toler s e).2.1.world, none) := by
  obtain ⟨h1, h2, h3, h4, wk, h5, h6⟩ := h
  unfold refineStep
  rw [if_pos ⟨h1, by rw [h2]; omega⟩]
  unfold refineBody
  rw [if_neg (by rw [h2, h3]; exact hc)]
  unfold mrqmin
  rw [if_neg (lt_irrefl _), h5]
  dsimp only
  rw [if_pos ⟨h6.ma, h6.mfit⟩]
  obtain ⟨dss, d1, d2⟩ := h6.eqs
  obtain ⟨cov, da, hs, -⟩ := solveNormal_zero
    (augmented_det_pts { e with alambda := 0 } wk.mfit h6.mfit dss wk.beta d1 d2 le_rfl) wk.beta
    (by rw [h6.mfit]; exact h6.beta) e.covar wk.da
  have hmore : (mrqTry th wk { e with alambda := 0 }).2.2 = .more := by
    unfold mrqTry
    rw [hs]
    dsimp only
    rw [if_pos rfl, h6.mfit]
    obtain ⟨c1, hc1, -⟩ := covsrt_spec e.ia e.ma cov
    obtain ⟨c2, hc2, -⟩ := covsrt_spec e.ia e.ma e.alpha
    show (match covsrt cov e.ma e.ia (nfree e.ia e.ma), covsrt e.alpha e.ma e.ia (nfree e.ia e.ma) with
      | .ok c, .ok al => (none, ({ e with alambda := 0, covar := c, alpha := al } : Eng K W), Outcome.more)
      | _, _ => ((none : Option (Work K)), { e with alambda := 0 }, Outcome.corrupt)).2.2 = .more
    rw [hc1, hc2]
  have hfin := mrqTry_final th wk { e with alambda := 0 } h6.mfit rfl hmore
  dsimp only at hfin
  generalize mrqTry th wk { e with alambda := 0 } = r at hmore hfin ⊢
  obtain ⟨wk', e', o⟩ := r
  dsimp only at hmore hfin ⊢
  subst hmore
  obtain ⟨f1, f2, f3, f4, -⟩ := hfin
  dsimp only
  obtain ⟨w', k1, k2, k3, k4, -⟩ := hm e'.world (by rw [f4]; exact h6.world)
  rw [f1, h6.par, k1]
  refine ⟨rfl, ?_, ?_, ?_, e'.world, by rw [f4]; exact h6.world, k1⟩
  · rfl
  · show e'.chisq = X
    rw [f3, h6.chi]
  · show e'.chisq / wnormOf (th.pts e'.world) = X / wn
    rw [f3, h6.chi, f4, h6.wn]

theorem refineLoop_succ_more (th : Theory K W) (toler : K) (n : Nat) (s : Statics K) (e : Eng K W)
    (h : (refineStep th toler s e).2.2 = .more) :
    refineLoop th toler (n + 1) (s, e) =
      ((refineLoop th toler n ((refineStep th toler s e).1, (refineStep th toler s e).2.1)).1,
       (refineLoop th toler n ((refineStep th toler s e).1, (refineStep th toler s e).2.1)).2.1,
       (refineLoop th toler n ((refineStep th toler s e).1, (refineStep th toler s e).2.1)).2.2 + 1) := by
  rw [refineLoop]
  dsimp only
  generalize refineStep th toler s e = r at h ⊢
  obtain ⟨s1, e1, o⟩ := r
  dsimp only at h
  subst h
  rfl

theorem refineLoop_succ_done (th : Theory K W) (toler : K) (n : Nat) (s : Statics K) (e : Eng K W)
    (h : (refineStep th toler s e).2.2 = .done) :
    refineLoop th toler (n + 1) (s, e) =
      (((refineStep th toler s e).1, (refineStep th toler s e).2.1), .done, 1) := by
  rw [refineLoop]
  dsimp only
  generalize refineStep th toler s e = r at h ⊢
  obtain ⟨s1, e1, o⟩ := r
  dsimp only at h
  subst h
  rfl

/-- A refinement that starts at a point with zero gradient takes five calls and stays there. -/
theorem refineLoop_min (hm : AtMin th p0 P X wn) (hX : 0 ≤ X) (toler : K) (ht : 0 ≤ toler) (s : Statics K) (e : Eng K W)
    (hfresh : ¬ (s.fitRunning = true ∧ e.iter ≠ 0)) (hp : e.par = p0) (w : W)
    (hset : th.setup p0 e.world = (w, none)) (hw : P w) (fuel : Nat) (hf : 5 ≤ fuel) :
    (refineLoop th toler fuel (s, e)).2 = (.done, 5) ∧ (refineLoop th toler fuel (s, e)).1.2.par = p0 ∧
    (refineLoop th toler fuel (s, e)).1.2.chisq = X ∧ (refineLoop th toler fuel (s, e)).1.2.rw2 = X / wn ∧
    ∃ w0, P w0 ∧ th.eval p0 w0 = ((refineLoop th toler fuel (s, e)).1.2.world, none) := by
  obtain ⟨n, rfl⟩ : ∃ n, fuel = n + 1 + 1 + 1 + 1 + 1 := ⟨fuel - 5, by omega⟩
  obtain ⟨a1, b1⟩ := refineStep_min_first hm toler s e hfresh hp w hset hw
  rw [refineLoop_succ_more th toler _ s e a1]
  generalize refineStep th toler s e = r1 at b1
  obtain ⟨a2, b2⟩ := refineStep_min_mid hm hX toler ht 1 0 (by omega) (by omega) _ _ b1
  rw [refineLoop_succ_more th toler _ _ _ a2]
  generalize refineStep th toler r1.1 r1.2.1 = r2 at b2
  obtain ⟨a3, b3⟩ := refineStep_min_mid hm hX toler ht 2 1 (by omega) (by omega) _ _ b2
  rw [refineLoop_succ_more th toler _ _ _ a3]
  generalize refineStep th toler r2.1 r2.2.1 = r3 at b3
  obtain ⟨a4, b4⟩ := refineStep_min_mid hm hX toler ht 3 2 (by omega) (by omega) _ _ b3
  rw [refineLoop_succ_more th toler _ _ _ a4]
  generalize refineStep th toler r3.1 r3.2.1 = r4 at b4
  obtain ⟨a5, b5⟩ := refineStep_min_last hm toler 4 3 (by omega) (by omega) _ _ b4
  rw [refineLoop_succ_done th toler _ _ _ a5]
  exact ⟨rfl, b5⟩

end Pdffit
