import Verif.Lemmas.RefineChi

/-!
Normal equations and cumulative chi-square along a refinement.
-/

namespace Pdffit
variable {K W : Type} [Field K] [LinearOrder K] [IsStrictOrderedRing K]

/-- `dss` are the fitted points of a successful evaluation at the parameters `par`. -/
def EvalPts (th : Theory K W) (par : ParStore K) (dss : List (List (Pt K))) : Prop :=
  ∃ w0 w', th.eval par w0 = (w', none) ∧ th.pts w' = dss

/-- `alpha`, `beta` hold the normal equations of the points `dss`. -/
def NormalEqs (ia : Nat → Bool) (ma : Nat) (dss : List (List (Pt K)))
    (alpha : Nat → Nat → K) (beta : Nat → K) : Prop :=
  (∀ l m, l < ma → m < ma → ia l = true → ia m = true →
    alpha (nfree ia l) (nfree ia m) = (dss.flatten.map fun pt => pt.w * pt.d l * pt.d m).sum) ∧
  (∀ l, l < ma → ia l = true →
    beta (nfree ia l) = (dss.flatten.map fun pt => pt.w * (pt.obs - pt.mod) * pt.d l).sum)

/-- The engine's curvature matrix and gradient belong to its parameters. -/
structure NormOK (th : Theory K W) (wk : Work K) (e : Eng K W) : Prop where
  ma : wk.ma = e.ma
  mfit : wk.mfit = nfree e.ia e.ma
  eqs : ∃ dss, EvalPts th e.par dss ∧ NormalEqs e.ia e.ma dss e.alpha wk.beta

theorem mrqcof_norm (th : Theory K W) (e : Eng K W) (a al be) (e1 : Eng K W) (al1 be1)
    (h : mrqcof th e a al be = (e1, .ok (al1, be1))) :
    e1.par = (e.setP a).par ∧ (∃ w0, th.eval e1.par w0 = (e1.world, none)) ∧
    NormalEqs e.ia e.ma (th.pts e1.world) al1 be1 ∧
    e1.cum = (th.pts e1.world).map (cumChisq 0) ∧
    e1.chisq = (e1.cum.map lastOr0).sum ∧ e1.alpha = e.alpha ∧ e1.alambda = e.alambda := by
  have hia : (e.setP a).ia = e.ia := (Frame.setP e a).ia
  have hma : (e.setP a).ma = e.ma := (Frame.setP e a).ma
  unfold mrqcof at h
  dsimp only at h
  split at h
  · cases h
  · rename_i w heq
    rw [hia, hma] at h
    cases h
    refine ⟨rfl, ⟨_, heq⟩, ⟨?_, ?_⟩, rfl, ?_, rfl, rfl⟩
    · intro l m hl hm fl fm
      exact mrqAcc_alpha e.ia e.ma _ al be l m hl hm fl fm
    · intro l hl fl
      exact mrqAcc_beta e.ia e.ma _ al be l hl fl
    · simp only [mrqAcc, foldl_add_map, zero_add]

theorem parStore_ext {s t : ParStore K} (h1 : s.p = t.p) (h2 : s.ip = t.ip) (h3 : s.id = t.id) :
    s = t := by
  cases s; cases t; simp_all

theorem mrqInit_norm (th : Theory K W) (old) (e : Eng K W)
    (h : (mrqInit th old e).2.2 = none) :
    NormOK th (mrqInit th old e).1 (mrqInit th old e).2.1 ∧
    (mrqInit th old e).2.1.par = e.par ∧ (mrqInit th old e).2.1.alambda = 1 / 1000 := by
  revert h
  have hal := mrqInit_alambda th old e
  revert hal
  unfold mrqInit
  dsimp only
  have hf := mrqcof_frame th { e with alambda := 1/1000 } (Eng.a { e with alambda := 1/1000 })
    (Eng.alpha { e with alambda := 1/1000 }) (fun _ => 0)
  split
  · intro _ h; cases h
  · rename_i e2 al be heq
    intro hal _
    have hn := mrqcof_norm th _ _ _ _ _ _ _ heq
    rw [heq] at hf
    dsimp only at hf
    obtain ⟨h1, h2, h3, h4, h5⟩ := hn
    have hia : e2.ia = e.ia := hf.ia
    have hma : e2.ma = e.ma := hf.ma
    refine ⟨⟨hma.symm, ?_, _, ⟨h2.choose, _, h2.choose_spec, rfl⟩, ?_⟩, ?_, hal⟩
    · show nfree e.ia e.ma = nfree e2.ia e2.ma
      rw [hia, hma]
    · show NormalEqs e2.ia e2.ma _ al be
      rw [hia, hma]; exact h3
    · exact parStore_ext ((congrArg ParStore.p h1).trans (Eng.setP_self _)) hf.ip hf.id

/-- One trial step keeps the normal equations in step with the parameters; the cumulative
chi-square is that of the trial point. -/
theorem mrqTry_norm (th : Theory K W) (wk : Work K) (e : Eng K W) (h : NormOK th wk e)
    (h0 : e.alambda ≠ 0) (hm : (mrqTry th wk e).2.2 = .more) :
    ∃ wk', (mrqTry th wk e).1 = some wk' ∧ NormOK th wk' (mrqTry th wk e).2.1 ∧
    wk'.ochisq = (mrqTry th wk e).2.1.chisq ∧
    ((((mrqTry th wk e).2.1.cum.map lastOr0).sum < wk.ochisq ∧
        (mrqTry th wk e).2.1.chisq = ((mrqTry th wk e).2.1.cum.map lastOr0).sum) ∨
      (wk.ochisq ≤ ((mrqTry th wk e).2.1.cum.map lastOr0).sum ∧
        (mrqTry th wk e).2.1.chisq = wk.ochisq)) ∧
    (∃ par w0, th.eval par w0 = ((mrqTry th wk e).2.1.world, none)) ∧
    (mrqTry th wk e).2.1.cum = (th.pts (mrqTry th wk e).2.1.world).map (cumChisq 0) := by
  revert hm
  unfold mrqTry
  split
  · simp
  · simp
  · rename_i cov da heq
    rw [if_neg h0]
    dsimp only
    have hf := mrqcof_frame th { e with covar := cov }
      (fun l => if l < e.ma ∧ e.ia l = true then e.a l + da (nfree e.ia l) else wk.atry l) cov da
    split
    · simp
    · rename_i e1 cov1 da1 heq1
      have hn := mrqcof_norm th _ _ _ _ _ _ _ heq1
      rw [heq1] at hf
      dsimp only at hf
      obtain ⟨h1, h2, h3, h4, h5, h6, h7⟩ := hn
      have hfr : Frame e { e1 with covar := cov1 } :=
        ⟨hf.iter, hf.stag, hf.och, hf.ip, hf.id, hf.len⟩
      have hia : e1.ia = e.ia := hf.ia
      have hma : e1.ma = e.ma := hf.ma
      split
      · rename_i hlt
        intro _
        have hpp : ((Eng.setP { e1 with covar := cov1 } (fun l => if l < e.ma ∧ e.ia l = true then e.a l + da (nfree e.ia l) else wk.atry l)).par) = e1.par := by
          refine parStore_ext ?_ rfl rfl
          refine Eq.trans ?_ (congrArg ParStore.p h1).symm
          exact setP_congr _ _ hfr.ma (fun _ _ => rfl)
        have hfs := hfr.trans (Frame.setP { e1 with covar := cov1 } (fun l => if l < e.ma ∧ e.ia l = true then e.a l + da (nfree e.ia l) else wk.atry l))
        have hiaS := hfs.ia
        have hmaS := hfs.ma
        refine ⟨_, rfl, ⟨?_, ?_, th.pts e1.world, ?_, ?_⟩, rfl, ?_, ⟨e1.par, h2⟩, h4⟩
        · exact h.ma.trans hmaS.symm
        · show wk.mfit = nfree (Eng.ia (Eng.setP { e1 with covar := cov1 } _)) (Eng.ma (Eng.setP { e1 with covar := cov1 } _))
          rw [hiaS, hmaS]; exact h.mfit
        · dsimp only; rw [hpp]; exact ⟨h2.choose, _, h2.choose_spec, rfl⟩
        · show NormalEqs (Eng.ia (Eng.setP { e1 with covar := cov1 } _)) (Eng.ma (Eng.setP { e1 with covar := cov1 } _)) _ cov1 da1
          rw [hiaS, hmaS]; exact h3
        · left
          show (e1.cum.map lastOr0).sum < wk.ochisq ∧ e1.chisq = (e1.cum.map lastOr0).sum
          exact ⟨h5 ▸ hlt, h5⟩
      · rename_i hlt
        intro _
        have hpp : (Eng.setP { e1 with covar := cov1 } e.a).par = e.par := by
          refine parStore_ext ?_ hf.ip hf.id
          rw [← Eng.setP_self e]
          exact setP_congr _ _ hfr.ma (fun _ _ => rfl)
        have hfs := hfr.trans (Frame.setP { e1 with covar := cov1 } e.a)
        have hiaS := hfs.ia
        have hmaS := hfs.ma
        obtain ⟨dss, hd1, hd2⟩ := h.eqs
        refine ⟨_, rfl, ⟨?_, ?_, dss, ?_, ?_⟩, rfl, ?_, ⟨e1.par, h2⟩, h4⟩
        · exact h.ma.trans hmaS.symm
        · show wk.mfit = nfree (Eng.ia (Eng.setP { e1 with covar := cov1 } _)) (Eng.ma (Eng.setP { e1 with covar := cov1 } _))
          rw [hiaS, hmaS]; exact h.mfit
        · dsimp only; rw [hpp]; exact hd1
        · show NormalEqs (Eng.ia (Eng.setP { e1 with covar := cov1 } _)) (Eng.ma (Eng.setP { e1 with covar := cov1 } _)) _ e1.alpha wk.beta
          rw [hiaS, hmaS, h6]; exact hd2
        · right
          show wk.ochisq ≤ (e1.cum.map lastOr0).sum ∧ wk.ochisq = wk.ochisq
          exact ⟨h5 ▸ not_lt.1 hlt, rfl⟩

/-- The last call of `mrqmin` (damping 0): `covar` is the inverse of the curvature block, spread
over the free parameters. -/
theorem mrqTry_final (th : Theory K W) (wk : Work K) (e : Eng K W)
    (hmf : wk.mfit = nfree e.ia e.ma) (h0 : e.alambda = 0)
    (hm : (mrqTry th wk e).2.2 = .more) :
    let r := (mrqTry th wk e).2.1
    r.par = e.par ∧ r.cum = e.cum ∧ r.chisq = e.chisq ∧ r.world = e.world ∧
    ∃ inv : Matrix (Fin (nfree e.ia e.ma)) (Fin (nfree e.ia e.ma)) K,
      (Matrix.of fun (i j : Fin (nfree e.ia e.ma)) => e.alpha i j) * inv = 1 ∧
      inv * (Matrix.of fun (i j : Fin (nfree e.ia e.ma)) => e.alpha i j) = 1 ∧
      ∀ i j, i < e.ma → j < e.ma →
        ((e.ia i = true ∧ e.ia j = true) →
          ∃ hi hj, r.covar i j = inv ⟨nfree e.ia i, hi⟩ ⟨nfree e.ia j, hj⟩) ∧
        (¬ (e.ia i = true ∧ e.ia j = true) → r.covar i j = 0) := by
  have haug : (fun i j => augmented e i j) = e.alpha := by
    funext i j
    simp only [augmented, h0]
    split
    · rename_i h; subst h; ring
    · rfl
  revert hm
  unfold mrqTry
  rw [hmf]
  unfold solveNormal
  have hA : (fun (i j : Fin (nfree e.ia e.ma)) => augmented e i j) =
      (fun (i j : Fin (nfree e.ia e.ma)) => e.alpha i j) := by
    funext i j; exact congrFun (congrFun haug i) j
  rw [hA]
  rcases C13.C13_gaussj_inverts_or_reports_singular (n := nfree e.ia e.ma) (m := 1)
    (fun i j => e.alpha i j) (fun i _ => wk.beta i) with ⟨_, hg⟩ | ⟨_, inv, X, hg, h1, h2, _⟩
  · rw [hg]; simp
  · rw [hg]
    dsimp only
    rw [if_pos h0]
    obtain ⟨c1, hc1, hs1⟩ := covsrt_spec e.ia e.ma
      (fun i j => if h : i < nfree e.ia e.ma ∧ j < nfree e.ia e.ma then inv ⟨i, h.1⟩ ⟨j, h.2⟩ else e.covar i j)
    obtain ⟨c2, hc2, _⟩ := covsrt_spec e.ia e.ma e.alpha
    rw [hc1, hc2]
    intro _
    refine ⟨rfl, rfl, rfl, rfl, inv, h1, h2, fun i j hi hj => ⟨fun hf => ?_, fun hf => ?_⟩⟩
    · have hi' := nfree_lt e.ia hi hf.1
      have hj' := nfree_lt e.ia hj hf.2
      refine ⟨hi', hj', ?_⟩
      show c1 i j = _
      rw [hs1 i j hi hj, if_pos hf, dif_pos ⟨hi', hj'⟩]
    · show c1 i j = _
      rw [hs1 i j hi hj, if_neg hf]

/-- `cum` is the cumulative chi-square of some evaluated points. -/
def CumOK (th : Theory K W) (e : Eng K W) : Prop :=
  ∃ dss, (∃ par w0 w', th.eval par w0 = (w', none) ∧ th.pts w' = dss) ∧
    e.cum = dss.map (cumChisq 0)

/-- State between two calls of a refinement in which no call has raised. -/
structure RunInv (th : Theory K W) (s : Statics K) (e : Eng K W) : Prop where
  run : s.fitRunning = true
  it : e.iter ≠ 0
  lam : 0 < e.alambda
  work : ∃ wk, s.work = some wk ∧ NormOK th wk e ∧ wk.ochisq = e.chisq
  cum : (∃ par w0, th.eval par w0 = (e.world, none)) ∧ e.cum = (th.pts e.world).map (cumChisq 0)

theorem RunInv.cumOK {th : Theory K W} {s : Statics K} {e : Eng K W} (h : RunInv th s e) :
    CumOK th e := by
  obtain ⟨⟨par, w0, h1⟩, h2⟩ := h.cum
  exact ⟨_, ⟨par, w0, _, h1, rfl⟩, h2⟩

theorem NormOK.congr {th : Theory K W} {wk : Work K} {e e' : Eng K W} (h : NormOK th wk e)
    (hp : e'.par = e.par) (ha : e'.alpha = e.alpha) : NormOK th wk e' := by
  have hia : e'.ia = e.ia := by unfold Eng.ia; rw [hp]
  have hma : e'.ma = e.ma := by unfold Eng.ma; rw [hp]
  refine ⟨by rw [hma]; exact h.ma, by rw [hia, hma]; exact h.mfit, ?_⟩
  rw [hia, hma, hp, ha]
  exact h.eqs

theorem refineBody_run (th : Theory K W) (toler : K) (work) (e : Eng K W)
    (hstart : (e.alambda < 0 ∧ e.iter = 0) ∨
      (0 < e.alambda ∧ e.iter ≠ 0 ∧
        ∃ wk, work = some wk ∧ NormOK th wk e ∧ wk.ochisq = e.chisq)) :
    let r := refineBody th toler work e
    (r.2.2 = .more → RunInv th r.1 r.2.1 ∧
      (e.iter ≠ 0 → r.2.1.chisq < e.chisq → r.2.1.chisq = (r.2.1.cum.map lastOr0).sum) ∧
      (e.iter ≠ 0 → e.chisq ≤ (r.2.1.cum.map lastOr0).sum → r.2.1.chisq = e.chisq)) ∧
    (r.2.2 = .done → r.2.1.par = e.par ∧ r.2.1.cum = e.cum ∧ r.2.1.chisq = e.chisq ∧
      r.2.1.rw2 = e.chisq / wnormOf (th.pts e.world) ∧
      (∃ w0, th.eval r.2.1.par w0 = (r.2.1.world, none)) ∧
      ∃ inv : Matrix (Fin (nfree e.ia e.ma)) (Fin (nfree e.ia e.ma)) K,
      (Matrix.of fun (i j : Fin (nfree e.ia e.ma)) => e.alpha i j) * inv = 1 ∧
      inv * (Matrix.of fun (i j : Fin (nfree e.ia e.ma)) => e.alpha i j) = 1 ∧
      ∀ i j, i < e.ma → j < e.ma →
        ((e.ia i = true ∧ e.ia j = true) →
          ∃ hi hj, r.2.1.covar i j = inv ⟨nfree e.ia i, hi⟩ ⟨nfree e.ia j, hj⟩) ∧
        (¬ (e.ia i = true ∧ e.ia j = true) → r.2.1.covar i j = 0)) := by
  have key : ∀ e1 : Eng K W, e1 = { e with ochisq := e.chisq } →
      (mrqmin th work e1).2.2 = .more →
      ((∃ par w0, th.eval par w0 = ((mrqmin th work e1).2.1.world, none)) ∧
        (mrqmin th work e1).2.1.cum = (th.pts (mrqmin th work e1).2.1.world).map (cumChisq 0)) ∧
      0 < (mrqmin th work e1).2.1.alambda ∧
      (∃ wk, (mrqmin th work e1).1 = some wk ∧ NormOK th wk (mrqmin th work e1).2.1 ∧
        wk.ochisq = (mrqmin th work e1).2.1.chisq) ∧
      (e.iter ≠ 0 → (((mrqmin th work e1).2.1.cum.map lastOr0).sum < e.chisq ∧
        (mrqmin th work e1).2.1.chisq = ((mrqmin th work e1).2.1.cum.map lastOr0).sum) ∨
      (e.chisq ≤ ((mrqmin th work e1).2.1.cum.map lastOr0).sum ∧
        (mrqmin th work e1).2.1.chisq = e.chisq)) := by
    rintro e1 rfl
    rcases hstart with ⟨h1, h2⟩ | ⟨h1, h2, wk, h5, h6, h7⟩
    · have hI := mrqInit_norm th work { e with ochisq := e.chisq }
      unfold mrqmin
      rw [if_pos (show (Eng.alambda { e with ochisq := e.chisq }) < 0 from h1)]
      split
      · simp
      · rename_i wk e2 heq
        rw [heq] at hI
        dsimp only at hI
        obtain ⟨c1, c2, c3⟩ := hI rfl
        have hlam : 0 < e2.alambda := by rw [c3]; positivity
        intro hm
        obtain ⟨wk', d1, d2, d3, d4, d5⟩ := mrqTry_norm th wk e2 c1 (ne_of_gt hlam) hm
        exact ⟨d5, mrqTry_alambda_ne th wk e2 hlam, ⟨wk', d1, d2, d3⟩, fun h => absurd h2 h⟩
    · subst h5
      have c1 : NormOK th wk { e with ochisq := e.chisq } := h6.congr rfl rfl
      unfold mrqmin
      rw [if_neg (show ¬ (Eng.alambda { e with ochisq := e.chisq }) < 0 from not_lt.2 (le_of_lt h1))]
      dsimp only
      rw [if_pos ⟨c1.ma, c1.mfit⟩]
      intro hm
      obtain ⟨wk', d1, d2, d3, d4, d5⟩ := mrqTry_norm th wk _ c1 (ne_of_gt h1) hm
      rw [h7] at d4
      exact ⟨d5, mrqTry_alambda_ne th wk _ h1, ⟨wk', d1, d2, d3⟩, fun _ => d4⟩
  unfold refineBody
  split
  · have k := key _ rfl
    have hdn := mrqmin_ne_done th work { e with ochisq := e.chisq }
    split
    · rename_i wk e1 heq
      rw [heq] at k
      obtain ⟨k1, k2, ⟨wk', k3, k4, k5⟩, k6⟩ := k rfl
      refine ⟨fun _ => ⟨⟨rfl, by simp, k2, ⟨wk', k3, k4.congr rfl rfl, k5⟩, k1⟩, fun hi hlt => ?_,
        fun hi hle => ?_⟩, by simp⟩
      · rcases k6 hi with ⟨a, b⟩ | ⟨a, b⟩
        · exact b
        · exact absurd b (ne_of_lt hlt)
      · rcases k6 hi with ⟨a, b⟩ | ⟨a, b⟩
        · exact absurd hle (not_le.2 a)
        · exact b
    · rename_i wk e1 o hne heq
      rw [heq] at hdn
      exact ⟨fun h => absurd h hne, fun h => absurd h hdn⟩
  · rename_i hc
    rcases hstart with ⟨h1, h2⟩ | ⟨h1, h2, wk, h5, h6, h7⟩
    · exact absurd (Or.inl (by omega)) hc
    · subst h5
      have c1 : NormOK th wk { e with alambda := 0 } := h6.congr rfl rfl
      have ht := mrqTry_final th wk { e with alambda := 0 } c1.mfit rfl
      have hm : mrqmin th (some wk) { e with alambda := 0 } = mrqTry th wk { e with alambda := 0 } := by
        unfold mrqmin
        rw [if_neg (show ¬ (Eng.alambda { e with alambda := 0 }) < 0 from lt_irrefl 0)]
        dsimp only
        rw [if_pos ⟨c1.ma, c1.mfit⟩]
      have hdn := mrqmin_ne_done th (some wk) { e with alambda := 0 }
      rw [hm] at hdn ⊢
      split
      · rename_i wk1 e1 heq
        rw [heq] at ht
        dsimp only at ht
        obtain ⟨t1, t2, t3, t4, t5⟩ := ht rfl
        dsimp only
        split
        · simp
        · rename_i w hx
          refine ⟨by simp, fun _ => ⟨t1, t2, t3, ?_, ⟨_, hx⟩, t5⟩⟩
          dsimp only; rw [t3, t4]
      · rename_i wk1 e1 o hne heq
        rw [heq] at hdn
        exact ⟨fun h => absurd h hne, fun h => absurd h hdn⟩

theorem refineStep_run (th : Theory K W) (toler : K) (s : Statics K) (e : Eng K W)
    (h : ¬ (s.fitRunning = true ∧ e.iter ≠ 0) ∨ RunInv th s e) :
    let r := refineStep th toler s e
    (r.2.2 = .more → RunInv th r.1 r.2.1) ∧ (r.2.2 = .done → RunInv th s e) := by
  rcases h with hr | hm
  · have hcnt := refineStep_counters th toler s e
    dsimp only at hcnt ⊢
    rw [if_neg hr, if_neg hr] at hcnt
    refine ⟨?_, fun hd => absurd (hcnt.2 hd).1 (by omega)⟩
    unfold refineStep
    rw [if_neg hr]
    dsimp only
    split
    · simp
    · rename_i w heq
      have := refineBody_run th toler s.work
        { e with iter := 0, alambda := -1, stagnating := 0, chisq := th.dmax, world := w }
        (Or.inl ⟨by simp, rfl⟩)
      intro hmo
      exact (this.1 hmo).1
  · unfold refineStep
    rw [if_pos ⟨hm.run, hm.it⟩]
    have := refineBody_run th toler s.work e (Or.inr ⟨hm.lam, hm.it, hm.work⟩)
    exact ⟨fun hmo => (this.1 hmo).1, fun _ => hm⟩

theorem refineStep_running (th : Theory K W) (toler : K) (s : Statics K) (e : Eng K W)
    (h : RunInv th s e) : refineStep th toler s e = refineBody th toler s.work e := by
  unfold refineStep
  rw [if_pos ⟨h.run, h.it⟩]

/-- A normally finished `refine()`: its last call starts from a consistent state. -/
theorem refineLoop_done (th : Theory K W) (toler : K) (fuel : Nat) :
    ∀ (s : Statics K) (e : Eng K W),
    (¬ (s.fitRunning = true ∧ e.iter ≠ 0) ∨ RunInv th s e) →
    (refineLoop th toler fuel (s, e)).2.1 = .done →
    ∃ s1 e1, RunInv th s1 e1 ∧ (refineStep th toler s1 e1).2.2 = .done ∧
      (refineLoop th toler fuel (s, e)).1 =
        ((refineStep th toler s1 e1).1, (refineStep th toler s1 e1).2.1) := by
  induction fuel with
  | zero => intro s e _ h; simp [refineLoop] at h
  | succ n ih =>
    intro s e hs hd
    have hst := refineStep_run th toler s e hs
    dsimp only at hst
    rw [refineLoop] at hd ⊢
    dsimp only at hd ⊢
    generalize hr : refineStep th toler s e = r at hd hst ⊢
    obtain ⟨s1, e1, o⟩ := r
    cases o with
    | more => exact ih s1 e1 (Or.inr (hst.1 rfl)) hd
    | done => exact ⟨s, e, hst.2 rfl, by rw [hr], by rw [hr]⟩
    | exc x => simp at hd
    | corrupt => simp at hd

omit [LinearOrder K] [IsStrictOrderedRing K] in
/-- sum over the free parameters = sum over the compact indices. -/
theorem sum_free (ia : Nat → Bool) (n : Nat) (g : Fin (nfree ia n) → K) (f : Nat → K)
    (h : ∀ j, j < n → ia j = true → ∀ hr, f j = g ⟨nfree ia j, hr⟩) :
    ∑ j ∈ (Finset.range n).filter (fun j => ia j = true), f j = ∑ t, g t := by
  refine Finset.sum_bij
    (fun j hj => (⟨nfree ia j, by
      rw [Finset.mem_filter, Finset.mem_range] at hj
      exact nfree_lt ia hj.1 hj.2⟩ : Fin (nfree ia n))) ?_ ?_ ?_ ?_
  · intro j hj; exact Finset.mem_univ _
  · intro a ha b hb hab
    rw [Finset.mem_filter] at ha hb
    exact nfree_inj ia ha.2 hb.2 (congrArg Fin.val hab)
  · intro t _
    obtain ⟨l, h1, h2, h3⟩ := nfree_surj ia t.2
    exact ⟨l, by rw [Finset.mem_filter, Finset.mem_range]; exact ⟨h1, h2⟩, Fin.ext h3⟩
  · intro j hj
    rw [Finset.mem_filter, Finset.mem_range] at hj
    exact h j hj.1 hj.2 _

end Pdffit
