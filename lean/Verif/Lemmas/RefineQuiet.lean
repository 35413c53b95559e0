import Verif.Lemmas.RefineSeq

/-!
# Runs in which no call raises

`Theory.quiet` is a theory whose set-up does nothing and whose failing evaluations leave the world as it was. As long as no call
raises, a refinement is the same for both (`Theory.Agree`).
-/

namespace Pdffit
variable {K W : Type} [Field K] [LinearOrder K]

def Theory.quiet (th : Theory K W) : Theory K W :=
  { th with
    setup := fun _ w => (w, none)
    eval := fun par w => match (th.eval par w).2 with
      | none => th.eval par w
      | some x => (w, some x) }

omit [Field K] [LinearOrder K] in
theorem quiet_eval_none {th : Theory K W} {par : ParStore K} {w w' : W} :
    th.quiet.eval par w = (w', none) ↔ th.eval par w = (w', none) := by
  unfold Theory.quiet
  dsimp only
  split
  · rfl
  · rename_i x hx
    constructor
    · intro h; cases h
    · intro h; rw [h] at hx; cases hx

/-- Every evaluation that succeeds with `th` succeeds with `th2` and leaves the same. -/
structure Theory.Agree (th th2 : Theory K W) : Prop where
  eval : ∀ par w w', th.eval par w = (w', none) → th2.eval par w = (w', none)
  pts : th2.pts = th.pts
  dmax : th2.dmax = th.dmax

omit [Field K] [LinearOrder K] in
theorem quiet_agree (th : Theory K W) : th.Agree th.quiet := ⟨fun _ _ _ h => quiet_eval_none.2 h, rfl, rfl⟩

omit [LinearOrder K] in
theorem agree_mrqcof {th th2 : Theory K W} (hag : th.Agree th2) {e e1 : Eng K W} {a : ℕ → K} {al : ℕ → ℕ → K} {be : ℕ → K} {x : (ℕ → ℕ → K) × (ℕ → K)}
    (h : mrqcof th e a al be = (e1, .ok x)) : mrqcof th2 e a al be = (e1, .ok x) := by
  unfold mrqcof at h ⊢
  dsimp only at h ⊢
  split at h
  · cases h
  · rename_i w hw
    rw [hag.eval _ _ _ hw, hag.pts]
    exact h

theorem agree_mrqTry {th th2 : Theory K W} (hag : th.Agree th2) {wk : Work K} {e : Eng K W} (h : (mrqTry th wk e).2.2 = .more) :
    mrqTry th2 wk e = mrqTry th wk e := by
  unfold mrqTry at h ⊢
  cases hs : solveNormal wk.mfit (augmented e) wk.beta e.covar wk.da with
  | err x => rfl
  | ub => rfl
  | ok r =>
    obtain ⟨cov, da⟩ := r
    rw [hs] at h
    dsimp only at h ⊢
    by_cases h0 : e.alambda = 0
    · rw [if_pos h0, if_pos h0]
    · rw [if_neg h0] at h
      rw [if_neg h0, if_neg h0]
      cases hm : mrqcof th { e with covar := cov }
          (fun l => if l < e.ma ∧ e.ia l = true then e.a l + da (nfree e.ia l) else wk.atry l) cov da with
      | mk e1 r =>
        rw [hm] at h
        cases r with
        | error x => cases h
        | ok x => rw [agree_mrqcof hag hm]

omit [LinearOrder K] in
theorem agree_mrqInit {th th2 : Theory K W} (hag : th.Agree th2) {old : Option (Work K)} {e : Eng K W} (h : (mrqInit th old e).2.2 = none) :
    mrqInit th2 old e = mrqInit th old e := by
  unfold mrqInit at h ⊢
  dsimp only at h ⊢
  cases hm : mrqcof th { e with alambda := 1 / 1000 } (Eng.a { e with alambda := 1 / 1000 })
      (Eng.alpha { e with alambda := 1 / 1000 }) (fun _ => 0) with
  | mk e1 r =>
    rw [hm] at h
    cases r with
    | error x => cases h
    | ok x => rw [agree_mrqcof hag hm, hag.pts]

theorem agree_mrqmin {th th2 : Theory K W} (hag : th.Agree th2) {old : Option (Work K)} {e : Eng K W} (h : (mrqmin th old e).2.2 = .more) :
    mrqmin th2 old e = mrqmin th old e := by
  unfold mrqmin at h ⊢
  split
  · rename_i hl
    rw [if_pos hl] at h
    split at h
    · cases h
    · rename_i wk e1 hi
      rw [agree_mrqInit hag (by rw [hi]), hi]
      exact agree_mrqTry hag h
  · rename_i hl
    rw [if_neg hl] at h
    cases old with
    | none => rfl
    | some wk =>
      dsimp only at h ⊢
      split
      · rename_i hw
        rw [if_pos hw] at h
        exact agree_mrqTry hag h
      · rfl

theorem agree_body {th th2 : Theory K W} (hag : th.Agree th2) {toler : K} {work : Option (Work K)} {e : Eng K W}
    (h : (refineBody th toler work e).2.2 = .more ∨ (refineBody th toler work e).2.2 = .done) :
    refineBody th2 toler work e = refineBody th toler work e := by
  unfold refineBody at h ⊢
  by_cases hc : e.iter < 3 ∨ (e.stagnating < 3 ∧ e.iter < 100)
  · rw [if_pos hc] at h
    rw [if_pos hc, if_pos hc]
    cases hm : mrqmin th work { e with ochisq := e.chisq } with
    | mk wk r =>
      obtain ⟨e1, o⟩ := r
      have hd := mrqmin_ne_done th work { e with ochisq := e.chisq }
      rw [hm] at h hd
      cases o with
      | more => rw [agree_mrqmin hag (by rw [hm]), hm, hag.pts]
      | done => exact absurd rfl hd
      | exc x => rcases h with h | h <;> cases h
      | corrupt => rcases h with h | h <;> cases h
  · rw [if_neg hc] at h
    rw [if_neg hc, if_neg hc]
    cases hm : mrqmin th work { e with alambda := 0 } with
    | mk wk r =>
      obtain ⟨e1, o⟩ := r
      have hd := mrqmin_ne_done th work { e with alambda := 0 }
      rw [hm] at h hd
      cases o with
      | more =>
        rw [agree_mrqmin hag (by rw [hm]), hm]
        dsimp only at h ⊢
        cases hv : th.eval e1.par e1.world with
        | mk w x =>
          rw [hv] at h
          cases x with
          | none => rw [hag.eval _ _ _ hv, hag.pts]
          | some x => rcases h with h | h <;> cases h
      | done => exact absurd rfl hd
      | exc x => rcases h with h | h <;> cases h
      | corrupt => rcases h with h | h <;> cases h

/-- A call in the course of a refinement. -/
theorem agree_running {th th2 : Theory K W} (hag : th.Agree th2) {toler : K} {s : Statics K} {e : Eng K W} (hr : s.fitRunning = true ∧ e.iter ≠ 0)
    (h : (refineStep th toler s e).2.2 = .more ∨ (refineStep th toler s e).2.2 = .done) :
    refineStep th2 toler s e = refineStep th toler s e := by
  unfold refineStep at h ⊢
  rw [if_pos hr] at h
  rw [if_pos hr, if_pos hr]
  exact agree_body hag h

/-- The first call. -/
theorem agree_fresh {th th2 : Theory K W} (hag : th.Agree th2) {toler : K} {s : Statics K} {e : Eng K W} (hr : ¬ (s.fitRunning = true ∧ e.iter ≠ 0)) {w w0 : W}
    (hw : th.setup e.par e.world = (w, none)) (hw2 : th2.setup e.par w0 = (w, none))
    (h : (refineStep th toler s e).2.2 = .more ∨ (refineStep th toler s e).2.2 = .done) :
    refineStep th2 toler s { e with world := w0 } = refineStep th toler s e := by
  unfold refineStep at h ⊢
  rw [if_neg hr] at h
  rw [if_neg hr, if_neg (show ¬ (s.fitRunning = true ∧ (Eng.iter { e with world := w0 }) ≠ 0) from hr)]
  dsimp only at h ⊢
  rw [hw] at h ⊢
  rw [hw2]
  dsimp only at h ⊢
  rw [hag.dmax]
  exact agree_body hag h

theorem running_after {th : Theory K W} {toler : K} {s : Statics K} {e : Eng K W} (h : (refineStep th toler s e).2.2 = .more) :
    (refineStep th toler s e).1.fitRunning = true ∧ (refineStep th toler s e).2.1.iter ≠ 0 := by
  have body : ∀ work (e : Eng K W), (refineBody th toler work e).2.2 = .more →
      (refineBody th toler work e).1.fitRunning = true ∧ (refineBody th toler work e).2.1.iter ≠ 0 := by
    intro work e h
    unfold refineBody at h ⊢
    split at h
    · split at h
      · simp_all
      · rename_i o hne hm
        exact absurd h hne
    · split at h
      · dsimp only at h
        split at h
        · cases h
        · cases h
      · rename_i o hne hm
        exact absurd h hne
  unfold refineStep at h ⊢
  split at h
  · rename_i hr
    rw [if_pos hr]
    exact body _ _ h
  · rename_i hr
    rw [if_neg hr]
    dsimp only at h ⊢
    split at h
    · cases h
    · rename_i w hw
      exact body _ _ h

theorem agree_loop_running {th th2 : Theory K W} (hag : th.Agree th2) {toler : K} : ∀ (n : ℕ) (s : Statics K) (e : Eng K W), (s.fitRunning = true ∧ e.iter ≠ 0) →
    (refineLoop th toler n (s, e)).2.1 = .done → refineLoop th2 toler n (s, e) = refineLoop th toler n (s, e) := by
  intro n
  induction n with
  | zero => intro s e _ h; cases h
  | succ n ih =>
    intro s e hr h
    unfold refineLoop at h ⊢
    dsimp only at h ⊢
    cases ho : (refineStep th toler s e).2.2 with
    | more =>
      rw [ho] at h
      rw [agree_running hag hr (Or.inl ho), ho]
      dsimp only at h ⊢
      rw [ih _ _ (running_after ho) h]
    | done => rw [agree_running hag hr (Or.inr ho), ho]
    | exc x => rw [ho] at h; cases h
    | corrupt => rw [ho] at h; cases h

/-- `refine()` when it returns. -/
theorem agree_loop {th th2 : Theory K W} (hag : th.Agree th2) {toler : K} {n : ℕ} {s : Statics K} {e : Eng K W} (hr : ¬ (s.fitRunning = true ∧ e.iter ≠ 0)) {w w0 : W}
    (hw : th.setup e.par e.world = (w, none)) (hw2 : th2.setup e.par w0 = (w, none)) (h : (refineLoop th toler n (s, e)).2.1 = .done) :
    refineLoop th2 toler n (s, { e with world := w0 }) = refineLoop th toler n (s, e) := by
  cases n with
  | zero => cases h
  | succ n =>
    unfold refineLoop at h ⊢
    dsimp only at h ⊢
    cases ho : (refineStep th toler s e).2.2 with
    | more =>
      rw [ho] at h
      rw [agree_fresh hag hr hw hw2 (Or.inl ho), ho]
      dsimp only at h ⊢
      rw [agree_loop_running hag n _ _ (running_after ho) h]
    | done => rw [agree_fresh hag hr hw hw2 (Or.inr ho), ho]
    | exc x => rw [ho] at h; cases h
    | corrupt => rw [ho] at h; cases h

/-- A theory that does not tell which exception was raised. -/
def Theory.hush (th : Theory K W) : Theory K W :=
  { th with
    setup := fun _ w => (w, none)
    eval := fun par w => match (th.eval par w).2 with
      | none => th.eval par w
      | some _ => (w, some .other) }

omit [Field K] [LinearOrder K] in
theorem hush_eval_none {th : Theory K W} {par : ParStore K} {w w' : W} :
    th.hush.eval par w = (w', none) ↔ th.eval par w = (w', none) := by
  unfold Theory.hush
  dsimp only
  split
  · rfl
  · rename_i x hx
    constructor
    · intro h; cases h
    · intro h; rw [h] at hx; cases hx

omit [Field K] [LinearOrder K] in
theorem hush_eval_some {th : Theory K W} {par : ParStore K} {w : W} (h : ∀ w', th.eval par w ≠ (w', none)) :
    th.hush.eval par w = (w, some .other) := by
  unfold Theory.hush
  dsimp only
  split
  · rename_i hx
    exact absurd (show th.eval par w = (_, none) from Prod.ext rfl hx) (h _)
  · rfl

/-- `refine()` when it returns; the same with the roles exchanged. -/
theorem hush_loop {th : Theory K W} {toler : K} {n : ℕ} {s : Statics K} {e : Eng K W} (hr : ¬ (s.fitRunning = true ∧ e.iter ≠ 0)) {w : W}
    (hw : th.setup e.par e.world = (w, none)) (h : (refineLoop th toler n (s, e)).2.1 = .done ∨
      (refineLoop th.hush toler n (s, { e with world := w })).2.1 = .done) :
    refineLoop th.hush toler n (s, { e with world := w }) = refineLoop th toler n (s, e) := by
  rcases h with h | h
  · exact agree_loop ⟨fun _ _ _ h => hush_eval_none.2 h, rfl, rfl⟩ hr hw rfl h
  · exact (agree_loop (th := th.hush) (th2 := th) (e := { e with world := w }) (w0 := e.world)
      ⟨fun _ _ _ h => hush_eval_none.1 h, rfl, rfl⟩ hr rfl hw h).symm

theorem quiet_running {th : Theory K W} {toler : K} {s : Statics K} {e : Eng K W} (hr : s.fitRunning = true ∧ e.iter ≠ 0)
    (h : (refineStep th toler s e).2.2 = .more ∨ (refineStep th toler s e).2.2 = .done) :
    refineStep th.quiet toler s e = refineStep th toler s e := agree_running (quiet_agree th) hr h

theorem quiet_fresh {th : Theory K W} {toler : K} {s : Statics K} {e : Eng K W} (hr : ¬ (s.fitRunning = true ∧ e.iter ≠ 0)) {w : W}
    (hw : th.setup e.par e.world = (w, none))
    (h : (refineStep th toler s e).2.2 = .more ∨ (refineStep th toler s e).2.2 = .done) :
    refineStep th.quiet toler s { e with world := w } = refineStep th toler s e := agree_fresh (quiet_agree th) hr hw rfl h

/-- `refine()` when it returns. -/
theorem quiet_loop {th : Theory K W} {toler : K} {n : ℕ} {s : Statics K} {e : Eng K W} (hr : ¬ (s.fitRunning = true ∧ e.iter ≠ 0)) {w : W}
    (hw : th.setup e.par e.world = (w, none)) (h : (refineLoop th toler n (s, e)).2.1 = .done) :
    refineLoop th.quiet toler n (s, { e with world := w }) = refineLoop th toler n (s, e) := agree_loop (quiet_agree th) hr hw rfl h

/-- Several calls. -/
theorem quiet_stepN {th : Theory K W} {toler : K} (n : ℕ) {s : Statics K} {e : Eng K W} (hr : ¬ (s.fitRunning = true ∧ e.iter ≠ 0)) {w : W}
    (hw : th.setup e.par e.world = (w, none)) (h : ∀ o ∈ outN th toler (n + 1) (s, e), o = .more) :
    stepN th.quiet toler (n + 1) (s, { e with world := w }) = stepN th toler (n + 1) (s, e) ∧
    outN th.quiet toler (n + 1) (s, { e with world := w }) = outN th toler (n + 1) (s, e) := by
  have run : ∀ (n : ℕ) (s : Statics K) (e : Eng K W), (s.fitRunning = true ∧ e.iter ≠ 0) →
      (∀ o ∈ outN th toler n (s, e), o = .more) → stepN th.quiet toler n (s, e) = stepN th toler n (s, e) ∧
        outN th.quiet toler n (s, e) = outN th toler n (s, e) := by
    intro n
    induction n with
    | zero => intro s e _ _; exact ⟨rfl, rfl⟩
    | succ n ih =>
      intro s e hr h
      have ho : (refineStep th toler s e).2.2 = .more := h _ (by simp [outN])
      obtain ⟨g1, g2⟩ := ih _ _ (running_after ho) (fun o hm => h o (by simp only [outN, List.mem_cons]; exact Or.inr hm))
      simp only [stepN, outN]
      rw [quiet_running hr (Or.inl ho), g1, g2]
      exact ⟨rfl, rfl⟩
  have ho : (refineStep th toler s e).2.2 = .more := h _ (by simp [outN])
  obtain ⟨g1, g2⟩ := run n _ _ (running_after ho) (fun o hm => h o (by simp only [outN, List.mem_cons]; exact Or.inr hm))
  simp only [stepN, outN]
  rw [quiet_fresh hr hw (Or.inl ho), g1, g2]
  exact ⟨rfl, rfl⟩

theorem mrqcof_err {th : Theory K W} {e : Eng K W} {al : ℕ → ℕ → K} {be : ℕ → K} {w' : W} {x : Exc}
    (h : th.eval e.par e.world = (w', some x)) : (mrqcof th e e.a al be).2 = .error x := by
  have hp : (e.setP e.a).par = e.par := by
    have h1 := Eng.setP_self e
    have h2 : (e.setP e.a).par = { e.par with p := (e.setP e.a).par.p } := rfl
    rw [h2, h1]
  unfold mrqcof
  dsimp only
  rw [hp, show th.eval e.par (e.setP e.a).world = _ from h]

/-- The first call evaluates the starting point. -/
theorem first_evaluates [IsStrictOrderedRing K] {th : Theory K W} {toler : K} {s : Statics K} {e : Eng K W}
    (hr : ¬ (s.fitRunning = true ∧ e.iter ≠ 0)) {w : W} (hw : th.setup e.par e.world = (w, none))
    (h : (refineStep th toler s e).2.2 = .more ∨ (refineStep th toler s e).2.2 = .done) : ∃ w', th.eval e.par w = (w', none) := by
  cases hv : th.eval e.par w with
  | mk w' x =>
    cases x with
    | none => exact ⟨w', rfl⟩
    | some x =>
      exfalso
      have init : ∀ (old : Option (Work K)) (e' : Eng K W), e'.par = e.par → e'.world = w → (mrqInit th old e').2.2 = some x := by
        intro old e' h1 h2
        unfold mrqInit
        dsimp only
        have := mrqcof_err (th := th) (e := { e' with alambda := 1 / 1000 }) (al := e'.alpha) (be := fun _ => 0) (w' := w') (x := x)
          (by rw [← hv, ← h1, ← h2])
        cases hm : mrqcof th { e' with alambda := 1 / 1000 } (Eng.a { e' with alambda := 1 / 1000 })
            (Eng.alpha { e' with alambda := 1 / 1000 }) (fun _ => 0) with
        | mk e1 r =>
          rw [hm] at this
          dsimp only at this
          rw [this]
      have min : ∀ (old : Option (Work K)) (e' : Eng K W), e'.par = e.par → e'.world = w → e'.alambda < 0 →
          (mrqmin th old e').2.2 = .exc x := by
        intro old e' h1 h2 h3
        unfold mrqmin
        rw [if_pos h3]
        have := init old e' h1 h2
        cases hm : mrqInit th old e' with
        | mk wk r =>
          obtain ⟨e1, y⟩ := r
          rw [hm] at this
          dsimp only at this
          subst this
          rfl
      have body : ∀ (old : Option (Work K)) (e' : Eng K W), e'.par = e.par → e'.world = w → e'.alambda < 0 → e'.iter = 0 →
          (refineBody th toler old e').2.2 = .exc x := by
        intro old e' h1 h2 h3 h4
        unfold refineBody
        rw [if_pos (Or.inl (by omega))]
        have := min old { e' with ochisq := e'.chisq } h1 h2 h3
        cases hm : mrqmin th old { e' with ochisq := e'.chisq } with
        | mk wk r =>
          obtain ⟨e1, y⟩ := r
          rw [hm] at this
          dsimp only at this
          subst this
          rfl
      have : (refineStep th toler s e).2.2 = .exc x := by
        unfold refineStep
        rw [if_neg hr]
        dsimp only
        rw [hw]
        exact body _ _ rfl rfl (by simp) rfl
      rw [this] at h
      rcases h with h | h <;> cases h

end Pdffit
