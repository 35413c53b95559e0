import Verif.Lemmas.RefineLinRun

/-! The trial steps of a refinement, for an arbitrary model. -/

namespace Pdffit
set_option linter.unusedSectionVars false
variable {K W : Type} [Field K] [LinearOrder K] [IsStrictOrderedRing K]

namespace Down
open Lin

/-- Between two calls: the normal equations belong to the parameters. -/
structure Keep (th : Theory K W) (p0 : ParStore K) (J : W → Prop) (wk : Work K) (e : Eng K W) : Prop where
  adm : Adm p0 e.par
  world : J e.world
  ma : wk.ma = e.ma
  mfit : wk.mfit = nfree e.ia e.ma
  och : wk.ochisq = e.chisq
  atry : ∀ l, l < e.ma → e.ia l = false → wk.atry l = e.a l
  eqs : ∃ w0 w', J w0 ∧ th.eval e.par w0 = (w', none) ∧ e.chisq = chisqOf (th.pts w') ∧ NormalEqs e.ia e.ma (th.pts w') e.alpha wk.beta

/-- One trial at the parameters `par` with chi-square `c` and damping `lam`: the step solves the damped normal equations, and
the trial point is taken if and only if its chi-square is lower. -/
def Tried (th : Theory K W) (p0 : ParStore K) (J : W → Prop) (lam : K) (par par' : ParStore K) (c c' lam' : K) : Prop :=
  ∃ (w0 w' : W) (y : ℕ → K) (q : ParStore K) (v0 v' : W), J w0 ∧ th.eval par w0 = (w', none) ∧ c = chisqOf (th.pts w') ∧
    (∀ i ∈ Fr p0, row (Fr p0) (th.pts w').flatten i y + lam * diag (th.pts w').flatten i * y i =
      grad (Fr p0) (th.pts w').flatten i fun _ => 0) ∧
    ((∀ pt ∈ (th.pts w').flatten, 0 ≤ pt.w) → ∀ i ∈ Fr p0, 0 < diag (th.pts w').flatten i) ∧
    Adm p0 q ∧ (∀ i ∈ Fr p0, q.p.getD i 0 = par.p.getD i 0 + y i) ∧ J v0 ∧ th.eval q v0 = (v', none) ∧
    (chisqOf (th.pts v') < c ∧ par' = q ∧ c' = chisqOf (th.pts v') ∧ lam' = lam / 10 ∨
      c ≤ chisqOf (th.pts v') ∧ par' = par ∧ c' = c ∧ lam' = lam * 10)

variable {th : Theory K W} {p0 : ParStore K} {J : W → Prop}

theorem Keep.congr {wk : Work K} {e e' : Eng K W} (h : Keep th p0 J wk e) (h1 : e'.par = e.par)
    (h2 : e'.world = e.world) (h3 : e'.chisq = e.chisq) (h4 : e'.alpha = e.alpha) : Keep th p0 J wk e' := by
  obtain ⟨a1, a2, a4, a5, a6, a8, a9⟩ := h
  have i1 : e'.ia = e.ia := by unfold Eng.ia; rw [h1]
  have i2 : e'.ma = e.ma := by unfold Eng.ma; rw [h1]
  have i3 : e'.a = e.a := by unfold Eng.a; rw [h1]
  exact ⟨h1 ▸ a1, h2 ▸ a2, i2 ▸ a4, by rw [i1, i2]; exact a5, by rw [h3]; exact a6,
    by rw [i2, i1, i3]; exact a8, by rw [i1, i2, h4, h1, h3]; exact a9⟩

theorem mrqcof_down {e e1 : Eng K W} {a al be al1 be1} (h : mrqcof th e a al be = (e1, .ok (al1, be1))) :
    e1.par = (e.setP a).par ∧ th.eval e1.par e.world = (e1.world, none) ∧ NormalEqs e.ia e.ma (th.pts e1.world) al1 be1 ∧
      e1.chisq = chisqOf (th.pts e1.world) ∧ e1.alpha = e.alpha ∧ e1.alambda = e.alambda ∧ Frame e e1 := by
  have hn := mrqcof_norm th _ _ _ _ _ _ _ h
  have hf := mrqcof_frame th e a al be
  rw [h] at hf
  refine ⟨hn.1, ?_, hn.2.2.1, ?_, hn.2.2.2.2.2.1, hn.2.2.2.2.2.2, hf⟩
  · unfold mrqcof at h
    dsimp only at h
    split at h
    · cases h
    · rename_i w heq
      cases h
      exact heq
  · unfold mrqcof at h
    dsimp only at h
    split at h
    · cases h
    · rename_i w heq
      cases h
      exact chisq_eq (e.setP a).ia (e.setP a).ma (th.pts w) al be

theorem mrqInit_down (hJ : ∀ par w w', SameKeys p0 par → J w → th.eval par w = (w', none) → J w') (old) (e : Eng K W)
    (hp : Adm p0 e.par) (hw : J e.world) (hn : (mrqInit th old e).2.2 = none) :
    Keep th p0 J (mrqInit th old e).1 (mrqInit th old e).2.1 ∧ (mrqInit th old e).2.1.alambda = 1 / 1000 ∧
      Frame e (mrqInit th old e).2.1 ∧ (mrqInit th old e).2.1.par = e.par := by
  unfold mrqInit at hn ⊢
  dsimp only at hn ⊢
  cases hc : mrqcof th { e with alambda := 1 / 1000 } (Eng.a { e with alambda := 1 / 1000 })
      (Eng.alpha { e with alambda := 1 / 1000 }) (fun _ => 0) with
  | mk e1 r =>
    rw [hc] at hn
    cases r with
    | error x => cases hn
    | ok r =>
      obtain ⟨al1, be1⟩ := r
      dsimp only
      obtain ⟨g1, g2, g3, g4, g5, g6, g7⟩ := mrqcof_down hc
      have hpar : e1.par = e.par := g1.trans (setP_eq_par ({ e with alambda := 1 / 1000 } : Eng K W) _ fun _ _ => rfl)
      have hia : e1.ia = e.ia := g7.ia
      have hma : e1.ma = e.ma := g7.ma
      have hJ1 : J e1.world := hJ _ _ _ (hpar ▸ hp.1) hw g2
      refine ⟨⟨hpar ▸ hp, hJ1, hma.symm, ?_, rfl, fun _ _ _ => rfl, e.world, e1.world, hw, g2, g4, ?_⟩, g6,
        ⟨g7.iter, g7.stag, g7.och, g7.ip, g7.id, g7.len⟩, hpar⟩
      · show nfree e.ia e.ma = nfree e1.ia e1.ma
        rw [hia, hma]
      · show NormalEqs e1.ia e1.ma _ al1 be1
        rw [hia, hma]
        exact g3

theorem solveNormal_inv {mfit : Nat} {m : Nat → Nat → K} {be : Nat → K} {c c' : Nat → Nat → K} {da d' : Nat → K}
    (h : solveNormal mfit m be c da = .ok (c', d')) :
    (∀ i : Fin mfit, ∑ j : Fin mfit, m i j * d' j = be i) ∧ ∀ i : Fin mfit, ∃ j : Fin mfit, m i j ≠ 0 := by
  unfold solveNormal at h
  rcases C13.C13_gaussj_inverts_or_reports_singular (n := mfit) (m := 1)
    (fun i j => m i j) (fun i _ => be i) with ⟨_, hg⟩ | ⟨_, A', X, hg, h1, h2, h3⟩
  · rw [hg] at h; cases h
  · rw [hg] at h
    cases h
    refine ⟨fun i => ?_, fun i => ?_⟩
    · have h4 := congrFun (congrFun h3 i) 0
      refine Eq.trans (Finset.sum_congr rfl fun j _ => ?_) h4
      dsimp only
      rw [dif_pos j.2]
    · by_contra hn
      push Not at hn
      have h4 : ∑ j : Fin mfit, m i j * A' j i = (1 : Matrix (Fin mfit) (Fin mfit) K) i i := congrFun (congrFun h1 i) i
      rw [Matrix.one_apply_eq, Finset.sum_eq_zero fun j _ => by rw [hn j, zero_mul]] at h4
      exact zero_ne_one h4

theorem damped {wk : Work K} {e : Eng K W} (hadm : Adm p0 e.par) (hmf : wk.mfit = nfree e.ia e.ma) {dss : List (List (Pt K))}
    (hq : NormalEqs e.ia e.ma dss e.alpha wk.beta) {da : ℕ → K}
    (hs : ∀ i : Fin wk.mfit, ∑ j : Fin wk.mfit, augmented e i j * da j = wk.beta i) :
    ∀ i ∈ Fr p0, row (Fr p0) dss.flatten i (fun j => da (nfree e.ia j)) + e.alambda * diag dss.flatten i * da (nfree e.ia i) =
      grad (Fr p0) dss.flatten i fun _ => 0 := by
  intro i hi
  have hF := Fr_eng hadm
  obtain ⟨hi1, hi2⟩ := (mem_Fr_eng hadm i).1 hi
  have hri := nfree_lt e.ia hi1 hi2
  have h1 := hs ⟨nfree e.ia i, by rw [hmf]; exact hri⟩
  dsimp only at h1
  have hbeta := hq.2 i hi1 hi2
  have hbeta' : wk.beta (nfree e.ia i) = grad (Fr p0) dss.flatten i fun _ => 0 := by
    rw [hbeta]
    unfold grad lin
    simp
  rw [hbeta'] at h1
  have hal : ∀ j ∈ Fr p0, e.alpha (nfree e.ia i) (nfree e.ia j) = (dss.flatten.map fun pt => pt.w * pt.d i * pt.d j).sum := by
    intro j hj
    obtain ⟨hj1, hj2⟩ := (mem_Fr_eng hadm j).1 hj
    exact hq.1 i j hi1 hj1 hi2 hj2
  have h2 : ∑ j ∈ Fr p0, augmented e (nfree e.ia i) (nfree e.ia j) * da (nfree e.ia j) =
      grad (Fr p0) dss.flatten i fun _ => 0 := by
    rw [← h1, hF]
    have := sum_free e.ia e.ma (fun t => augmented e (nfree e.ia i) t * da t)
      (fun j => augmented e (nfree e.ia i) (nfree e.ia j) * da (nfree e.ia j)) (fun j _ _ _ => rfl)
    rw [this]
    rw [hmf]
  rw [← h2, row_pts]
  have hone : ∀ j ∈ Fr p0, augmented e (nfree e.ia i) (nfree e.ia j) * da (nfree e.ia j) =
      (dss.flatten.map fun pt => pt.w * pt.d i * pt.d j).sum * da (nfree e.ia j) +
      if j = i then e.alambda * diag dss.flatten i * da (nfree e.ia i) else 0 := by
    intro j hj
    obtain ⟨hj1, hj2⟩ := (mem_Fr_eng hadm j).1 hj
    unfold augmented
    by_cases hij : j = i
    · subst hij
      rw [if_pos rfl, if_pos rfl, hal j hj]
      unfold diag
      ring
    · rw [if_neg hij, if_neg fun hn => hij (nfree_inj e.ia hj2 hi2 hn.symm), hal j hj, add_zero]
  rw [Finset.sum_congr rfl hone, Finset.sum_add_distrib, Finset.sum_ite_eq' (Fr p0) i, if_pos hi]

/-- A parameter whose derivative vanishes at all points makes the matrix singular. -/
theorem diag_pos {wk : Work K} {e : Eng K W} (hadm : Adm p0 e.par) (hmf : wk.mfit = nfree e.ia e.ma) {dss : List (List (Pt K))}
    (hq : NormalEqs e.ia e.ma dss e.alpha wk.beta) (hr : ∀ i : Fin wk.mfit, ∃ j : Fin wk.mfit, augmented e i j ≠ 0)
    (hw : ∀ pt ∈ dss.flatten, 0 ≤ pt.w) : ∀ i ∈ Fr p0, 0 < diag dss.flatten i := by
  intro i hi
  obtain ⟨hi1, hi2⟩ := (mem_Fr_eng hadm i).1 hi
  refine lt_of_le_of_ne (diag_nonneg hw i) fun h0 => ?_
  have hz : ∀ pt ∈ dss.flatten, pt.w * pt.d i = 0 := by
    intro pt hpt
    have := sum_eq_zero_all (dss.flatten.map fun pt => pt.w * pt.d i * pt.d i) (fun x hx => by
      obtain ⟨q, hq, rfl⟩ := List.mem_map.1 hx
      rw [mul_assoc]
      exact mul_nonneg (hw q hq) (mul_self_nonneg _)) (le_of_eq (show (dss.flatten.map fun pt => pt.w * pt.d i * pt.d i).sum = 0 from h0.symm)) _ (List.mem_map_of_mem hpt)
    rcases mul_eq_zero.1 this with h | h
    · exact h
    · rw [h, mul_zero]
  obtain ⟨j, hj⟩ := hr ⟨nfree e.ia i, by rw [hmf]; exact nfree_lt e.ia hi1 hi2⟩
  obtain ⟨m, m1, m2, m3⟩ := nfree_surj e.ia (show (j : ℕ) < nfree e.ia e.ma by rw [← hmf]; exact j.2)
  have hal : e.alpha (nfree e.ia i) j = 0 := by
    rw [← m3, hq.1 i m hi1 m1 hi2 m2]
    refine List.sum_eq_zero fun x hx => ?_
    obtain ⟨pt, hpt, rfl⟩ := List.mem_map.1 hx
    rw [hz pt hpt, zero_mul]
  apply hj
  unfold augmented
  dsimp only
  split
  · rename_i he
    rw [← he] at hal
    rw [hal, zero_mul]
  · exact hal

theorem mrqTry_down (hJ : ∀ par w w', SameKeys p0 par → J w → th.eval par w = (w', none) → J w') {wk : Work K} {e : Eng K W}
    (h : Keep th p0 J wk e) (hlam : 0 < e.alambda) (hm : (mrqTry th wk e).2.2 = .more) :
    ∃ wk', (mrqTry th wk e).1 = some wk' ∧ Keep th p0 J wk' (mrqTry th wk e).2.1 ∧ Frame e (mrqTry th wk e).2.1 ∧
      0 < (mrqTry th wk e).2.1.alambda ∧
      Tried th p0 J e.alambda e.par (mrqTry th wk e).2.1.par e.chisq (mrqTry th wk e).2.1.chisq (mrqTry th wk e).2.1.alambda := by
  have hpos := mrqTry_alambda_ne th wk e hlam
  revert hm hpos
  unfold mrqTry
  cases hs : solveNormal wk.mfit (augmented e) wk.beta e.covar wk.da with
  | err x => intro h; cases h
  | ub => intro h; cases h
  | ok r =>
    obtain ⟨cov, da⟩ := r
    dsimp only
    rw [if_neg hlam.ne']
    obtain ⟨hz, hr⟩ := solveNormal_inv hs
    set atry : ℕ → K := fun l => if l < e.ma ∧ e.ia l = true then e.a l + da (nfree e.ia l) else wk.atry l with hat
    have hfix : ∀ l, l < e.ma → e.ia l = false → atry l = e.a l := by
      intro l h1 h2
      rw [hat]
      dsimp only
      rw [if_neg (by rw [h2]; simp)]
      exact h.atry l h1 h2
    have hadm : Adm p0 (Eng.setP { e with covar := cov } atry).par := adm_setP (e := { e with covar := cov }) h.adm atry hfix
    cases hco : mrqcof th { e with covar := cov } atry cov da with
    | mk e1 r =>
      cases r with
      | error x => intro h; cases h
      | ok r =>
        obtain ⟨al1, be1⟩ := r
        dsimp only
        obtain ⟨g1, g2, g3, g4, g5, g6, g7⟩ := mrqcof_down hco
        have hia : e1.ia = e.ia := g7.ia
        have hma : e1.ma = e.ma := g7.ma
        have hadm1 : Adm p0 e1.par := g1 ▸ hadm
        have hJ1 : J e1.world := hJ _ _ _ hadm1.1 h.world g2
        have hq : ∀ i ∈ Fr p0, e1.par.p.getD i 0 = e.par.p.getD i 0 + da (nfree e.ia i) := by
          intro i hi
          have hi' := (mem_Fr_eng h.adm i).1 hi
          have h1 : (Eng.setP { e with covar := cov } atry).a i = atry i := Eng.setP_a _ _ i hi'.1
          have h2 : e1.par.p.getD i 0 = atry i := by
            rw [g1]; exact h1
          rw [h2, hat]
          dsimp only
          rw [if_pos hi']
          rfl
        have hfr : Frame e { e1 with covar := al1 } := ⟨g7.iter, g7.stag, g7.och, g7.ip, g7.id, g7.len⟩
        obtain ⟨w0, w', k1, k2, k3, k4⟩ := h.eqs
        have hst := damped h.adm h.mfit k4 hz
        have hdi := diag_pos h.adm h.mfit k4 hr
        by_cases hlt : e1.chisq < wk.ochisq
        · rw [if_pos hlt]
          intro _ hpos
          have hpar : (Eng.setP { e1 with covar := al1 } atry).par = e1.par := by
            refine parStore_ext ?_ rfl rfl
            refine Eq.trans ?_ (congrArg ParStore.p g1).symm
            exact setP_congr _ _ hfr.ma (fun _ _ => rfl)
          have hfs := hfr.trans (Frame.setP { e1 with covar := al1 } atry)
          have hiaS := hfs.ia
          have hmaS := hfs.ma
          refine ⟨_, rfl, ⟨by dsimp only; rw [hpar]; exact hadm1, hJ1, h.ma.trans hmaS.symm, ?_, rfl, ?_, e.world, e1.world, h.world,
            by dsimp only; rw [hpar]; exact g2, g4, ?_⟩, ⟨hfs.iter, hfs.stag, hfs.och, hfs.ip, hfs.id, hfs.len⟩, hpos,
            w0, w', fun j => da (nfree e.ia j), e1.par, e.world, e1.world, k1, k2, k3, hst, hdi, hadm1, hq, h.world, g2, .inl ⟨?_, hpar, g4, ?_⟩⟩
          · show wk.mfit = nfree (Eng.ia (Eng.setP { e1 with covar := al1 } atry)) (Eng.ma (Eng.setP { e1 with covar := al1 } atry))
            rw [hiaS, hmaS]; exact h.mfit
          · intro l hl _
            exact (Eng.setP_a { e1 with covar := al1 } atry l (by show l < e1.ma; rw [hma, ← hmaS]; exact hl)).symm
          · show NormalEqs (Eng.ia (Eng.setP { e1 with covar := al1 } atry)) (Eng.ma (Eng.setP { e1 with covar := al1 } atry)) _ al1 be1
            rw [hiaS, hmaS]; exact g3
          · rw [← g4, ← h.och]; exact hlt
          · show e1.alambda / 10 = e.alambda / 10
            rw [g6]
        · rw [if_neg hlt]
          intro _ hpos
          have hpar : (Eng.setP { e1 with covar := al1 } e.a).par = e.par := by
            refine parStore_ext ?_ g7.ip g7.id
            rw [← Eng.setP_self e]
            exact setP_congr _ _ hfr.ma (fun _ _ => rfl)
          have hfs := hfr.trans (Frame.setP { e1 with covar := al1 } e.a)
          have hiaS := hfs.ia
          have hmaS := hfs.ma
          have haS : (Eng.setP { e1 with covar := al1 } e.a).a = e.a := by
            funext l
            show (Eng.setP { e1 with covar := al1 } e.a).par.p.getD l 0 = e.par.p.getD l 0
            rw [hpar]
          refine ⟨_, rfl, ⟨by dsimp only; rw [hpar]; exact h.adm, hJ1, h.ma.trans hmaS.symm, ?_, rfl, ?_, w0, w', k1,
            by dsimp only; rw [hpar]; exact k2, ?_, ?_⟩, ⟨hfs.iter, hfs.stag, hfs.och, hfs.ip, hfs.id, hfs.len⟩, hpos,
            w0, w', fun j => da (nfree e.ia j), e1.par, e.world, e1.world, k1, k2, k3, hst, hdi, hadm1, hq, h.world, g2, .inr ⟨?_, hpar, ?_, ?_⟩⟩
          · show wk.mfit = nfree (Eng.ia (Eng.setP { e1 with covar := al1 } e.a)) (Eng.ma (Eng.setP { e1 with covar := al1 } e.a))
            rw [hiaS, hmaS]; exact h.mfit
          · show ∀ l, l < Eng.ma (Eng.setP { e1 with covar := al1 } e.a) → Eng.ia (Eng.setP { e1 with covar := al1 } e.a) l = false →
              atry l = Eng.a (Eng.setP { e1 with covar := al1 } e.a) l
            rw [hiaS, hmaS, haS]
            exact hfix
          · show wk.ochisq = _
            rw [h.och, k3]
          · show NormalEqs (Eng.ia (Eng.setP { e1 with covar := al1 } e.a)) (Eng.ma (Eng.setP { e1 with covar := al1 } e.a)) _ e1.alpha wk.beta
            rw [hiaS, hmaS, g5]; exact k4
          · rw [← g4, ← h.och]; exact not_lt.1 hlt
          · exact h.och
          · show e1.alambda * 10 = e.alambda * 10
            rw [g6]

/-- Between two calls of `refine_step`. -/
structure Run (th : Theory K W) (p0 : ParStore K) (J : W → Prop) (s : Statics K) (e : Eng K W) : Prop where
  run : s.fitRunning = true
  it : e.iter ≠ 0
  lam : 0 < e.alambda
  work : ∃ wk, s.work = some wk ∧ Keep th p0 J wk e

/-- The first call. -/
theorem step_first (hJ : ∀ par w w', SameKeys p0 par → J w → th.eval par w = (w', none) → J w') (toler : K) (s : Statics K) (e : Eng K W)
    (hfresh : ¬ (s.fitRunning = true ∧ e.iter ≠ 0)) (hp : Adm p0 e.par) (w : W)
    (hset : th.setup e.par e.world = (w, none)) (hw : J w) (hm : (refineStep th toler s e).2.2 = .more) :
    Run th p0 J (refineStep th toler s e).1 (refineStep th toler s e).2.1 ∧ ∃ c,
      Tried th p0 J (1 / 1000) e.par (refineStep th toler s e).2.1.par c (refineStep th toler s e).2.1.chisq
        (refineStep th toler s e).2.1.alambda := by
  revert hm
  unfold refineStep
  rw [if_neg hfresh]
  dsimp only
  rw [hset]
  dsimp only
  unfold refineBody
  rw [if_pos (Or.inl (by simp))]
  unfold mrqmin
  rw [if_pos (by simp)]
  have hI := mrqInit_down hJ s.work
    ({ e with iter := 0, alambda := -1, stagnating := 0, chisq := th.dmax, world := w, ochisq := th.dmax } : Eng K W) hp hw
  cases hi : mrqInit th s.work
    ({ e with iter := 0, alambda := -1, stagnating := 0, chisq := th.dmax, world := w, ochisq := th.dmax } : Eng K W) with
  | mk wk r =>
    obtain ⟨e1, o⟩ := r
    rw [hi] at hI
    cases o with
    | some x => intro h; cases h
    | none =>
      obtain ⟨h1, h2, h3, h4⟩ := hI rfl
      dsimp only at h1 h2 h3 h4 ⊢
      cases ht : mrqTry th wk e1 with
      | mk wk2 r2 =>
        obtain ⟨e2, o2⟩ := r2
        cases o2 with
        | more =>
          intro _
          have hT := mrqTry_down hJ h1 (by rw [h2]; positivity) (by rw [ht])
          rw [ht] at hT
          obtain ⟨wk', q1, q2, q3, q4, q5⟩ := hT
          dsimp only at q1 q2 q3 q4 q5 ⊢
          rw [h2, h4] at q5
          exact ⟨⟨rfl, by simp, q4, wk', q1, q2.congr rfl rfl rfl rfl⟩, e1.chisq, q5⟩
        | done => intro h; cases h
        | exc x => intro h; cases h
        | corrupt => intro h; cases h

/-- A later call. -/
theorem step_next (hJ : ∀ par w w', SameKeys p0 par → J w → th.eval par w = (w', none) → J w') (toler : K) {s : Statics K} {e : Eng K W}
    (h : Run th p0 J s e) (hm : (refineStep th toler s e).2.2 = .more) :
    Run th p0 J (refineStep th toler s e).1 (refineStep th toler s e).2.1 ∧
      Tried th p0 J e.alambda e.par (refineStep th toler s e).2.1.par e.chisq (refineStep th toler s e).2.1.chisq
        (refineStep th toler s e).2.1.alambda := by
  obtain ⟨h1, h2, h3, wk, h4, h5⟩ := h
  revert hm
  unfold refineStep
  rw [if_pos ⟨h1, h2⟩]
  unfold refineBody
  by_cases hc : e.iter < 3 ∨ (e.stagnating < 3 ∧ e.iter < 100)
  · rw [if_pos hc]
    unfold mrqmin
    rw [if_neg (not_lt.2 h3.le), h4]
    dsimp only
    rw [if_pos ⟨h5.ma, h5.mfit⟩]
    have k : Keep th p0 J wk { e with ochisq := e.chisq } := h5.congr rfl rfl rfl rfl
    cases ht : mrqTry th wk { e with ochisq := e.chisq } with
    | mk wk2 r2 =>
      obtain ⟨e2, o2⟩ := r2
      cases o2 with
      | more =>
        intro _
        have hT := mrqTry_down hJ k h3 (by rw [ht])
        rw [ht] at hT
        obtain ⟨wk', q1, q2, q3, q4, q5⟩ := hT
        dsimp only at q1 q2 q3 q4 q5 ⊢
        exact ⟨⟨rfl, by simp, q4, wk', q1, q2.congr rfl rfl rfl rfl⟩, q5⟩
      | done => intro h; cases h
      | exc x => intro h; cases h
      | corrupt => intro h; cases h
  · rw [if_neg hc]
    cases hx : mrqmin th s.work { e with alambda := 0 } with
    | mk wk2 r2 =>
      obtain ⟨e2, o2⟩ := r2
      cases o2 with
      | more =>
        dsimp only
        split <;> (intro h; cases h)
      | done => intro h; cases h
      | exc x => intro h; cases h
      | corrupt => intro h; cases h

/-- A step that solves the damped normal equations points downhill. -/
theorem descent {s : Finset ℕ} {L : List (Pt K)} (hw : ∀ pt ∈ L, 0 ≤ pt.w) (hd : ∀ i ∈ s, 0 < diag L i) {lam : K} (hl : 0 < lam) {y : ℕ → K}
    (h : ∀ i ∈ s, row s L i y + lam * diag L i * y i = grad s L i fun _ => 0) :
    lam * ∑ i ∈ s, diag L i * y i ^ 2 ≤ ∑ i ∈ s, (grad s L i fun _ => 0) * y i ∧
    ((∃ i ∈ s, y i ≠ 0) → 0 < ∑ i ∈ s, (grad s L i fun _ => 0) * y i) := by
  have h1 : ∑ i ∈ s, (grad s L i fun _ => 0) * y i = bil s L y y + lam * ∑ i ∈ s, diag L i * y i ^ 2 := by
    rw [bil_row, Finset.mul_sum, ← Finset.sum_add_distrib]
    refine Finset.sum_congr rfl fun i hi => ?_
    rw [← h i hi]
    ring
  have h2 := bil_nonneg s hw y
  refine ⟨by linarith, ?_⟩
  rintro ⟨i, hi, hne⟩
  have h3 : 0 < ∑ i ∈ s, diag L i * y i ^ 2 := by
    refine Finset.sum_pos' (fun j hj => mul_nonneg (hd j hj).le (sq_nonneg _)) ⟨i, hi, ?_⟩
    have := hd i hi
    have : 0 < y i ^ 2 := lt_of_le_of_ne (sq_nonneg _) (Ne.symm (pow_ne_zero 2 hne))
    positivity
  have := mul_pos hl h3
  linarith

end Down
end Pdffit
