import Verif.Model.Progress
import Verif.Lemmas.RefineChi

/-! Lemmas about the messages of a refinement: one call of `refine_step`. -/

namespace Pdffit.Progress
variable {K W : Type} [Field K] [LinearOrder K] [IsStrictOrderedRing K]

/-- Between two calls of a refinement in which no call has raised. -/
structure Run (th : Theory K W) (s : Statics K) (e : Eng K W) : Prop where
  run : s.fitRunning = true
  it : e.iter ≠ 0
  lam : 0 < e.alambda
  work : ∃ wk, s.work = some wk ∧ wk.ochisq = e.chisq
  rw : e.rw2 = e.chisq / wnormOf (th.pts e.world)

omit [IsStrictOrderedRing K] in
theorem try_more (th : Theory K W) (wk : Work K) (e : Eng K W) (hl : e.alambda ≠ 0) (hw : wk.ochisq = e.chisq) (h : (mrqTry th wk e).2.2 = .more) :
    (mrqTry th wk e).2.1.chisq ≤ e.chisq ∧ ∃ wk', (mrqTry th wk e).1 = some wk' ∧ wk'.ochisq = (mrqTry th wk e).2.1.chisq := by
  unfold mrqTry at h ⊢
  split
  · rename_i heq; rw [heq] at h; cases h
  · rename_i heq; rw [heq] at h; cases h
  · rename_i heq
    rw [heq] at h
    dsimp only at h ⊢
    rw [if_neg hl] at h ⊢
    split
    · rename_i heq; rw [heq] at h; cases h
    · split
      · rename_i hc
        exact ⟨hc.le.trans hw.le, _, rfl, rfl⟩
      · exact ⟨hw.le, _, rfl, rfl⟩

omit [IsStrictOrderedRing K] in
theorem try_final (th : Theory K W) (wk : Work K) (e : Eng K W) (hl : e.alambda = 0) (h : (mrqTry th wk e).2.2 = .more) :
    (mrqTry th wk e).2.1.par = e.par ∧ (mrqTry th wk e).2.1.chisq = e.chisq ∧ (mrqTry th wk e).2.1.world = e.world := by
  unfold mrqTry at h ⊢
  split
  · rename_i heq; rw [heq] at h; cases h
  · rename_i heq; rw [heq] at h; cases h
  · rename_i heq
    rw [heq] at h
    dsimp only at h ⊢
    rw [if_pos hl] at h ⊢
    split
    · exact ⟨rfl, rfl, rfl⟩
    · exact ⟨rfl, rfl, rfl⟩

omit [IsStrictOrderedRing K] in
theorem init_ok (th : Theory K W) (old : Option (Work K)) (e : Eng K W) (h : (mrqInit th old e).2.2 = none) :
    (mrqInit th old e).1.ochisq = (mrqInit th old e).2.1.chisq ∧ (mrqInit th old e).2.1.par = e.par ∧
      (mrqInit th old e).2.1.rw2 = (mrqInit th old e).2.1.chisq / wnormOf (th.pts (mrqInit th old e).2.1.world) := by
  have hm : ∀ al be, (mrqcof th { e with alambda := 1 / 1000 } (Eng.a { e with alambda := 1 / 1000 }) al be).1.par = e.par := by
    intro al be
    rw [mrqcof_par]
    have : ∀ s t : ParStore K, s.p = t.p → s.ip = t.ip → s.id = t.id → s = t := by
      intro s t h1 h2 h3; cases s; cases t; simp_all
    exact this _ _ (Eng.setP_self _) rfl rfl
  unfold mrqInit at h ⊢
  dsimp only at h ⊢
  have hm := hm (Eng.alpha { e with alambda := 1 / 1000 }) fun _ => 0
  split at h
  · cases h
  · rename_i e2 al be heq
    rw [heq] at hm
    exact ⟨rfl, hm, rfl⟩

theorem init_lam (th : Theory K W) (old : Option (Work K)) (e : Eng K W) : (0 : K) < (mrqInit th old e).2.1.alambda := by
  rw [mrqInit_alambda]; positivity

omit [IsStrictOrderedRing K] in
theorem body_trial (th : Theory K W) (toler : K) (work : Option (Work K)) (e : Eng K W) (hc : e.iter < 3 ∨ (e.stagnating < 3 ∧ e.iter < 100))
    (h : (refineBody th toler work e).2.2 = .more) :
    (mrqmin th work { e with ochisq := e.chisq }).2.2 = .more ∧ refineBody th toler work e = (⟨true, (mrqmin th work { e with ochisq := e.chisq }).1⟩,
      { (mrqmin th work { e with ochisq := e.chisq }).2.1 with
        stagnating := (if (mrqmin th work { e with ochisq := e.chisq }).2.1.iter ≠ 0 ∧ (mrqmin th work { e with ochisq := e.chisq }).2.1.ochisq -
          (mrqmin th work { e with ochisq := e.chisq }).2.1.chisq ≤ toler * (mrqmin th work { e with ochisq := e.chisq }).2.1.ochisq
          then (mrqmin th work { e with ochisq := e.chisq }).2.1.stagnating + 1 else 0)
        iter := (mrqmin th work { e with ochisq := e.chisq }).2.1.iter + 1
        rw2 := (mrqmin th work { e with ochisq := e.chisq }).2.1.chisq / wnormOf (th.pts (mrqmin th work { e with ochisq := e.chisq }).2.1.world) }, .more) := by
  unfold refineBody at h ⊢
  rw [if_pos hc] at h ⊢
  rcases hm : mrqmin th work { e with ochisq := e.chisq } with ⟨a, b, o⟩
  rw [hm] at h
  cases o with
  | more => exact ⟨rfl, rfl⟩
  | _ => cases h

omit [IsStrictOrderedRing K] in
theorem body_final (th : Theory K W) (toler : K) (work : Option (Work K)) (e : Eng K W) (hc : ¬ (e.iter < 3 ∨ (e.stagnating < 3 ∧ e.iter < 100)))
    (h : (refineBody th toler work e).2.2 = .done) : (mrqmin th work { e with alambda := 0 }).2.2 = .more := by
  unfold refineBody at h
  rw [if_neg hc] at h
  have := mrqmin_ne_done th work { e with alambda := 0 }
  rcases hm : mrqmin th work { e with alambda := 0 } with ⟨a, b, o⟩
  rw [hm] at h this
  cases o with
  | more => rfl
  | done => exact absurd rfl this
  | _ => cases h

omit [IsStrictOrderedRing K] in
theorem body_more (th : Theory K W) (toler : K) (work : Option (Work K)) (e : Eng K W)
    (h : (refineBody th toler work e).2.2 = .more) : e.iter < 3 ∨ (e.stagnating < 3 ∧ e.iter < 100) := by
  by_contra hc
  unfold refineBody at h
  rw [if_neg hc] at h
  rcases hm : mrqmin th work { e with alambda := 0 } with ⟨a, b, o⟩
  rw [hm] at h
  cases o with
  | more =>
    dsimp only at h
    split at h <;> cases h
  | _ => cases h

omit [IsStrictOrderedRing K] in
theorem body_msgs (th : Theory K W) (toler : K) (work : Option (Work K)) (e : Eng K W) (hc : e.iter < 3 ∨ (e.stagnating < 3 ∧ e.iter < 100))
    (h : (refineBody th toler work e).2.2 = .more) : bodyMsgs th toler work e = initMsgs th work { e with ochisq := e.chisq } ++
      [.iter (refineBody th toler work e).2.1.iter (figs th (refineBody th toler work e).2.1) (decide ((refineBody th toler work e).2.1.stagnating ≠ 0))] := by
  unfold bodyMsgs
  rw [if_pos hc]
  rcases hm : refineBody th toler work e with ⟨a, b, o⟩
  rw [hm] at h
  dsimp only at h
  subst h
  rfl

/-- A later call that returns 0: its message and what it does to the figures. -/
theorem step_more (th : Theory K W) (sets : W → List (ℕ × List ℕ)) (toler : K) {s : Statics K} {e : Eng K W} (R : Run th s e)
    (h : (refineStep th toler s e).2.2 = .more) :
    let r := refineStep th toler s e
    (e.iter < 3 ∨ (e.stagnating < 3 ∧ e.iter < 100)) ∧ Run th r.1 r.2.1 ∧ r.2.1.chisq ≤ e.chisq ∧ r.2.1.iter = e.iter + 1 ∧
      r.2.1.stagnating = (if e.chisq - r.2.1.chisq ≤ toler * e.chisq then e.stagnating + 1 else 0) ∧
      stepMsgs th sets toler s e = [.iter (e.iter + 1) (figs th r.2.1) (decide (r.2.1.stagnating ≠ 0))] := by
  obtain ⟨wk, hw1, hw2⟩ := R.work
  have hr : s.fitRunning = true ∧ e.iter ≠ 0 := ⟨R.run, R.it⟩
  have hb : refineStep th toler s e = refineBody th toler s.work e := by unfold refineStep; rw [if_pos hr]
  have hs : stepMsgs th sets toler s e = bodyMsgs th toler s.work e := by unfold stepMsgs; rw [if_pos hr]
  rw [hb] at h ⊢
  dsimp only
  have hc := body_more th toler s.work e h
  have hi : initMsgs th s.work { e with ochisq := e.chisq } = [] := by
    unfold initMsgs
    rw [if_neg (by exact not_lt.2 R.lam.le)]
  rw [hs, body_msgs th toler s.work e hc h, hi, List.nil_append]
  obtain ⟨hm, hbody⟩ := body_trial th toler s.work e hc h
  have hf := mrqmin_frame th s.work { e with ochisq := e.chisq }
  have hq : mrqmin th s.work { e with ochisq := e.chisq } =
      if wk.ma = e.ma ∧ wk.mfit = nfree e.ia e.ma then mrqTry th wk { e with ochisq := e.chisq } else (some wk, { e with ochisq := e.chisq }, .corrupt) := by
    unfold mrqmin
    rw [if_neg (by exact not_lt.2 R.lam.le), hw1]
    rfl
  have key : (mrqmin th s.work { e with ochisq := e.chisq }).2.1.chisq ≤ e.chisq ∧
      (∃ wk', (mrqmin th s.work { e with ochisq := e.chisq }).1 = some wk' ∧ wk'.ochisq = (mrqmin th s.work { e with ochisq := e.chisq }).2.1.chisq) ∧
      0 < (mrqmin th s.work { e with ochisq := e.chisq }).2.1.alambda := by
    rw [hq] at hm ⊢
    split_ifs at hm ⊢ with hx
    obtain ⟨a, b⟩ := try_more th wk { e with ochisq := e.chisq } R.lam.ne' hw2 hm
    exact ⟨a, b, mrqTry_alambda_ne th wk _ R.lam⟩
  clear hq
  generalize mrqmin th s.work { e with ochisq := e.chisq } = m at *
  obtain ⟨k1, ⟨w2, k2, k3⟩, k4⟩ := key
  have hi : m.2.1.iter = e.iter := hf.iter
  have hst : m.2.1.stagnating = e.stagnating := hf.stag
  have ho : m.2.1.ochisq = e.chisq := hf.och
  rw [hbody]
  refine ⟨hc, ⟨rfl, by simp, k4, ⟨w2, k2, k3⟩, rfl⟩, k1, by show m.2.1.iter + 1 = _; rw [hi], ?_, by rw [← hi]⟩
  dsimp only
  rw [hi, ho, hst]
  simp [R.it]

/-- The call that returns 1. -/
theorem step_done (th : Theory K W) (sets : W → List (ℕ × List ℕ)) (toler : K) {s : Statics K} {e : Eng K W} (R : Run th s e)
    (h : (refineStep th toler s e).2.2 = .done) :
    stepMsgs th sets toler s e = [.finalHead, .final (figs th e)] ∧ 3 ≤ e.iter ∧ (3 ≤ e.stagnating ∨ 100 ≤ e.iter) ∧
      (refineStep th toler s e).2.1.par = e.par ∧ (refineStep th toler s e).2.1.chisq = e.chisq ∧ (refineStep th toler s e).2.1.rw2 = e.rw2 := by
  obtain ⟨wk, hw1, hw2⟩ := R.work
  have hr : s.fitRunning = true ∧ e.iter ≠ 0 := ⟨R.run, R.it⟩
  have hb : refineStep th toler s e = refineBody th toler s.work e := by unfold refineStep; rw [if_pos hr]
  have hs : stepMsgs th sets toler s e = bodyMsgs th toler s.work e := by unfold stepMsgs; rw [if_pos hr]
  rw [hb] at h ⊢
  have hcnt := (refineBody_counters th toler s.work e).2 h
  suffices hh : stepMsgs th sets toler s e = [.finalHead, .final (figs th e)] ∧ (refineBody th toler s.work e).2.1.par = e.par ∧
      (refineBody th toler s.work e).2.1.chisq = e.chisq ∧ (refineBody th toler s.work e).2.1.rw2 = e.rw2 from ⟨hh.1, hcnt.1, hcnt.2.1, hh.2⟩
  have hc : ¬ (e.iter < 3 ∨ (e.stagnating < 3 ∧ e.iter < 100)) := by omega
  have hm := body_final th toler s.work e hc h
  rw [hs]
  unfold bodyMsgs
  unfold refineBody at h ⊢
  rw [if_neg hc] at h ⊢
  rw [if_neg hc]
  have hq : mrqmin th s.work { e with alambda := 0 } =
      if wk.ma = e.ma ∧ wk.mfit = nfree e.ia e.ma then mrqTry th wk { e with alambda := 0 } else (some wk, { e with alambda := 0 }, .corrupt) := by
    unfold mrqmin
    rw [if_neg (by exact lt_irrefl (0 : K)), hw1]
    rfl
  have key : (mrqmin th s.work { e with alambda := 0 }).2.1.par = e.par ∧
      (mrqmin th s.work { e with alambda := 0 }).2.1.chisq = e.chisq ∧ (mrqmin th s.work { e with alambda := 0 }).2.1.world = e.world := by
    rw [hq] at hm ⊢
    split_ifs at hm ⊢ with hx
    exact try_final th wk { e with alambda := 0 } rfl hm
  clear hq
  rcases hx : mrqmin th s.work { e with alambda := 0 } with ⟨a, e1, o⟩
  rw [hx] at hm key h
  obtain ⟨k1, k2, k3⟩ := key
  dsimp only at hm k1 k2 k3
  subst hm
  have : figs th { e1 with rw2 := e1.chisq / wnormOf (th.pts e1.world) } = figs th e := by
    have hn : Eng.nred th { e1 with rw2 := e1.chisq / wnormOf (th.pts e1.world) } = e.nred th := by
      unfold Eng.nred Eng.ndof Eng.ia Eng.ma
      dsimp only
      rw [k1, k3]
    unfold figs
    rw [hn, R.rw]
    dsimp only
    rw [k1, k2, k3]
  dsimp only at h ⊢
  rw [this]
  refine ⟨rfl, ?_⟩
  split at h
  · cases h
  · exact ⟨k1, k2, by dsimp only; rw [k2, k3, R.rw]⟩

/-- The first call. -/
theorem step_first (th : Theory K W) (sets : W → List (ℕ × List ℕ)) (toler : K) {s : Statics K} {e : Eng K W} (hf : ¬ (s.fitRunning = true ∧ e.iter ≠ 0))
    (h : (refineStep th toler s e).2.2 = .more) :
    let r := refineStep th toler s e
    ∃ f0 : Figs K, f0.pars = shown e.par ∧ Run th r.1 r.2.1 ∧ r.2.1.chisq ≤ f0.chisq ∧ r.2.1.iter = 1 ∧ r.2.1.stagnating = 0 ∧
      stepMsgs th sets toler s e = [.start (sets e.world), .iter 0 f0 false, .iter 1 (figs th r.2.1) false] := by
  unfold refineStep at h ⊢
  unfold stepMsgs
  rw [if_neg hf] at h ⊢
  rw [if_neg hf]
  dsimp only at h ⊢
  rcases hset : th.setup e.par e.world with ⟨w, x⟩
  rw [hset] at h
  cases x with
  | some x => cases h
  | none =>
  dsimp only at h ⊢
  generalize he0 : ({ e with world := w, iter := 0, stagnating := 0, alambda := -1, chisq := th.dmax } : Eng K W) = e0 at h ⊢
  have hit0 : e0.iter = 0 := by rw [← he0]
  have hpar : e0.par = e.par := by rw [← he0]
  have hc : e0.iter < 3 ∨ (e0.stagnating < 3 ∧ e0.iter < 100) := .inl (by omega)
  have hlam : ({ e0 with ochisq := e0.chisq } : Eng K W).alambda < 0 := by rw [← he0]; show (-1 : K) < 0; norm_num
  obtain ⟨hm, hbody⟩ := body_trial th toler s.work e0 hc h
  rw [body_msgs th toler s.work e0 hc h]
  have hmin : mrqmin th s.work { e0 with ochisq := e0.chisq } = match mrqInit th s.work { e0 with ochisq := e0.chisq } with
    | (wk, e1, some x) => (some wk, e1, .exc x)
    | (wk, e1, none) => mrqTry th wk e1 := by
    conv_lhs => unfold mrqmin
    rw [if_pos hlam]
    rfl
  have hmsg : initMsgs th s.work { e0 with ochisq := e0.chisq } = match mrqInit th s.work { e0 with ochisq := e0.chisq } with
    | (_, e1, none) => [.iter e1.iter (figs th e1) false]
    | _ => [] := by
    unfold initMsgs
    rw [if_pos hlam]
    rfl
  have i0 := init_ok th s.work { e0 with ochisq := e0.chisq }
  have i4 := init_lam th s.work { e0 with ochisq := e0.chisq }
  have i5 := mrqInit_frame th s.work { e0 with ochisq := e0.chisq }
  rcases hw : mrqInit th s.work { e0 with ochisq := e0.chisq } with ⟨wk, e1, o⟩
  rw [hw] at hmin hmsg i0 i4 i5
  cases o with
  | some x => rw [hmin] at hm; cases hm
  | none =>
  dsimp only at hmin hmsg
  obtain ⟨i1, i2, i3⟩ := i0 rfl
  dsimp only at i1 i2 i3 i4
  obtain ⟨t1, wk2, t2, t3⟩ := try_more th wk e1 i4.ne' i1 (by rw [← hmin]; exact hm)
  have t4 := mrqTry_alambda_ne th wk e1 i4
  have t5 := mrqTry_frame th wk e1
  rw [← hmin] at t1 t2 t3 t4 t5
  generalize mrqmin th s.work { e0 with ochisq := e0.chisq } = m at *
  have hit : e1.iter = 0 := i5.iter.trans hit0
  have hib : m.2.1.iter = 0 := t5.iter.trans hit
  refine ⟨figs th e1, congrArg shown (i2.trans hpar), ?_, ?_, ?_, ?_, ?_⟩
  · rw [hbody]
    exact ⟨rfl, by simp, t4, ⟨wk2, t2, t3⟩, rfl⟩
  · rw [hbody]; exact t1
  · rw [hbody]; show m.2.1.iter + 1 = 1; rw [hib]
  · rw [hbody]; dsimp only; rw [if_neg (by rw [hib]; simp)]
  · have e2 : (refineBody th toler s.work e0).2.1.iter = 1 := by rw [hbody]; show m.2.1.iter + 1 = 1; rw [hib]
    have e3 : (refineBody th toler s.work e0).2.1.stagnating = 0 := by rw [hbody]; dsimp only; rw [if_neg (by rw [hib]; simp)]
    rw [hmsg, hit, e2, e3]
    rfl

end Pdffit.Progress
