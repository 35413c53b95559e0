import Verif.Lemmas.RefineNorm

/-! Properties of the world that every successful evaluation keeps hold when `refine()` finishes. -/

namespace Pdffit
variable {K W : Type} [Field K] [LinearOrder K]

section
variable {th : Theory K W} {Q : ParStore K → Prop} {P : W → Prop}

/-- State of an engine with good parameters and a good world. -/
def Good (Q : ParStore K → Prop) (P : W → Prop) (e : Eng K W) : Prop := Q e.par ∧ P e.world

variable (hQ : ∀ (e : Eng K W) (a : Nat → K), Q e.par → Q (e.setP a).par)
  (hev : ∀ par w w', Q par → P w → th.eval par w = (w', none) → P w')
include hQ hev

theorem mrqcof_good (e : Eng K W) (a al be) (h : Good Q P e) (x) (hx : (mrqcof th e a al be).2 = .ok x) :
    Good Q P (mrqcof th e a al be).1 := by
  have h1 := hQ e a h.1
  have h2 := fun w' => hev (e.setP a).par (e.setP a).world w' h1 h.2
  unfold mrqcof at hx ⊢
  dsimp only at hx ⊢
  generalize th.eval (e.setP a).par (e.setP a).world = r at hx h2 ⊢
  obtain ⟨w, o⟩ := r
  cases o with
  | none => exact ⟨h1, h2 w rfl⟩
  | some y => simp at hx

theorem mrqInit_good (old) (e : Eng K W) (h : Good Q P e) (hx : (mrqInit th old e).2.2 = none) :
    Good Q P (mrqInit th old e).2.1 := by
  have h1 := mrqcof_good hQ hev { e with alambda := 1 / 1000 } ({ e with alambda := 1 / 1000 } : Eng K W).a e.alpha
    (fun _ => 0) h
  unfold mrqInit at hx ⊢
  dsimp only at hx ⊢
  generalize mrqcof th { e with alambda := 1 / 1000 } _ e.alpha _ = r at hx h1 ⊢
  obtain ⟨e2, o⟩ := r
  cases o with
  | error x => simp at hx
  | ok p => exact h1 _ rfl

theorem mrqTry_good (wk : Work K) (e : Eng K W) (h : Good Q P e) (hx : (mrqTry th wk e).2.2 = .more) :
    Good Q P (mrqTry th wk e).2.1 := by
  unfold mrqTry at hx ⊢
  split
  · exact h
  · exact h
  · rename_i cov da hs
    rw [hs] at hx
    dsimp only at hx
    split
    · split <;> exact h
    · rename_i ha
      rw [if_neg ha] at hx
      have h1 := mrqcof_good hQ hev { e with covar := cov }
        (fun l => if l < e.ma ∧ e.ia l = true then e.a l + da (nfree e.ia l) else wk.atry l) cov da h
      dsimp only at hx ⊢
      generalize mrqcof th { e with covar := cov } _ cov da = r at hx h1 ⊢
      obtain ⟨e1, o⟩ := r
      cases o with
      | error x => simp at hx
      | ok p =>
        have h2 := h1 _ rfl
        dsimp only at h2 ⊢
        split
        · exact ⟨hQ _ _ h2.1, h2.2⟩
        · exact ⟨hQ _ _ h2.1, h2.2⟩

theorem mrqmin_good (old) (e : Eng K W) (h : Good Q P e) (hx : (mrqmin th old e).2.2 = .more) :
    Good Q P (mrqmin th old e).2.1 := by
  unfold mrqmin at hx ⊢
  split
  · rename_i ha
    rw [if_pos ha] at hx
    have h1 := mrqInit_good hQ hev old e h
    generalize mrqInit th old e = r at h1 hx ⊢
    obtain ⟨wk, e1, o⟩ := r
    cases o with
    | some x => simp at hx
    | none => exact mrqTry_good hQ hev wk e1 (h1 rfl) hx
  · rename_i ha
    rw [if_neg ha] at hx
    split
    · exact h
    · split
      · rename_i hc
        simp only [hc, and_self, if_true] at hx
        exact mrqTry_good hQ hev _ e h hx
      · exact h

/-- The last thing a finishing call does is an evaluation at the final parameters. -/
theorem refineBody_good (toler : K) (work) (e : Eng K W) (h : Good Q P e) :
    let r := refineBody th toler work e
    (r.2.2 = .more ∨ r.2.2 = .done → Good Q P r.2.1) ∧
    (r.2.2 = .done → ∃ w, P w ∧ th.eval r.2.1.par w = (r.2.1.world, none)) := by
  unfold refineBody
  split
  · have h1 := mrqmin_good hQ hev work { e with ochisq := e.chisq } h
    have h2 := mrqmin_ne_done th work { e with ochisq := e.chisq }
    generalize mrqmin th work { e with ochisq := e.chisq } = r at h1 h2 ⊢
    obtain ⟨wk, e1, o⟩ := r
    cases o with
    | more => exact ⟨fun _ => h1 rfl, by simp⟩
    | done => exact absurd rfl h2
    | exc x => exact ⟨by simp, by simp⟩
    | corrupt => exact ⟨by simp, by simp⟩
  · have h1 := mrqmin_good hQ hev work { e with alambda := 0 } h
    have h2 := mrqmin_ne_done th work { e with alambda := 0 }
    generalize mrqmin th work { e with alambda := 0 } = r at h1 h2 ⊢
    obtain ⟨wk, e1, o⟩ := r
    cases o with
    | more =>
      have h1 := h1 rfl
      dsimp only at h1 ⊢
      have h3 := fun w' => hev e1.par e1.world w' h1.1 h1.2
      generalize hr : th.eval e1.par e1.world = r at h3 ⊢
      obtain ⟨w, x⟩ := r
      cases x with
      | some x => exact ⟨by simp, by simp⟩
      | none => exact ⟨fun _ => ⟨h1.1, h3 w rfl⟩, fun _ => ⟨e1.world, h1.2, hr⟩⟩
    | done => exact absurd rfl h2
    | exc x => exact ⟨by simp, by simp⟩
    | corrupt => exact ⟨by simp, by simp⟩

/-- One call from a state in which either the set-up is done next or the world is good already. -/
theorem refineStep_good {P0 : W → Prop}
    (hset : ∀ par w w', Q par → P0 w → th.setup par w = (w', none) → P w')
    (toler : K) (s : Statics K) (e : Eng K W) (hq : Q e.par)
    (h : (s.fitRunning = true ∧ e.iter ≠ 0 → P e.world) ∧ P0 e.world) :
    let r := refineStep th toler s e
    (r.2.2 = .more ∨ r.2.2 = .done → Good Q P r.2.1) ∧
    (r.2.2 = .done → ∃ w, P w ∧ th.eval r.2.1.par w = (r.2.1.world, none)) := by
  unfold refineStep
  split
  · rename_i hr
    exact refineBody_good hQ hev toler s.work e ⟨hq, h.1 hr⟩
  · dsimp only
    have h1 := fun w' => hset e.par e.world w' hq h.2
    generalize th.setup e.par e.world = r at h1 ⊢
    obtain ⟨w, x⟩ := r
    cases x with
    | some x => exact ⟨by simp, by simp⟩
    | none =>
      exact refineBody_good hQ hev toler s.work
        { e with iter := 0, alambda := -1, stagnating := 0, chisq := th.dmax, world := w } ⟨hq, h1 w rfl⟩

/-- When `refine()` finishes, the world is the result of an evaluation of a good world at the final parameters. -/
theorem refineLoop_good {P0 : W → Prop} (hP : ∀ w, P w → P0 w)
    (hset : ∀ par w w', Q par → P0 w → th.setup par w = (w', none) → P w')
    (toler : K) (fuel : Nat) : ∀ (s : Statics K) (e : Eng K W), Q e.par →
    ((s.fitRunning = true ∧ e.iter ≠ 0 → P e.world) ∧ P0 e.world) →
    (refineLoop th toler fuel (s, e)).2.1 = .done →
    let r := (refineLoop th toler fuel (s, e)).1.2
    Q r.par ∧ P r.world ∧ ∃ w, P w ∧ th.eval r.par w = (r.world, none) := by
  induction fuel with
  | zero => intro s e _ _ h; simp [refineLoop] at h
  | succ n ih =>
    intro s e hq hs hd
    have h1 := refineStep_good hQ hev hset toler s e hq hs
    rw [refineLoop] at hd ⊢
    dsimp only at hd ⊢ h1
    generalize refineStep th toler s e = r at hd h1 ⊢
    obtain ⟨s1, e1, o⟩ := r
    cases o with
    | more =>
      have h2 := h1.1 (Or.inl rfl)
      exact ih s1 e1 h2.1 ⟨fun _ => h2.2, hP _ h2.2⟩ hd
    | done =>
      have h2 := h1.1 (Or.inr rfl)
      exact ⟨h2.1, h2.2, h1.2 rfl⟩
    | exc x => simp at hd
    | corrupt => simp at hd

end
end Pdffit
