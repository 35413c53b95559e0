import Verif.Lemmas.RefineSim
import Verif.Model.Multi
import Verif.Props.C16

/-!
# C17: a refinement that failed can be started again

Holds when the exception came from the first `refine_step` of the fit (in `fit_setup`, in the
evaluation of the starting point or in the first trial); violated for exceptions in later steps.
-/

namespace Pdffit.C17
set_option linter.unusedSectionVars false
variable {K W : Type} [Field K] [LinearOrder K] [IsStrictOrderedRing K]

/-- The next `refine()` behaves like one on a newly constructed object: same outcome, number of
steps, parameters and world; if it finishes, same chi-square, cumulative chi-square, Rw and
covariances. -/
def RestartsFresh (th : Theory K W) (toler : K) (s : Statics K) (e : Eng K W) : Prop :=
  ∀ fuel, let r := refineLoop th toler fuel (s, e)
    let r' := refineLoop th toler fuel ({}, freshEng e.par e.world)
    r.2 = r'.2 ∧ r.1.2.par = r'.1.2.par ∧ r.1.2.world = r'.1.2.world ∧
    (r.2.1 = .done → r.1.2.chisq = r'.1.2.chisq ∧ r.1.2.cum = r'.1.2.cum ∧
      r.1.2.rw2 = r'.1.2.rw2 ∧
      ∀ i j, i < e.ma → j < e.ma → r.1.2.covar i j = r'.1.2.covar i j)

theorem fresh_of_not_started (th : Theory K W) (toler : K) (s : Statics K) (e : Eng K W)
    (h : ¬ Started s e) : RestartsFresh th toler s e := by
  intro fuel
  obtain ⟨h1, h2, h3⟩ := sim_loop th toler fuel s {} e (freshEng e.par e.world)
    ⟨rfl, rfl, Or.inl ⟨h, fun h' => h'.2 rfl⟩⟩
  exact ⟨h1, h2.par, h2.world, fun hd =>
    ⟨(h3 hd).1.chisq, (h3 hd).1.cum, (h3 hd).1.rw2, (h3 hd).2⟩⟩

theorem body_exc_iter (th : Theory K W) (toler : K) (o : Option (Work K)) (e : Eng K W) (x : Exc)
    (h : (refineBody th toler o e).2.2 = .exc x) :
    (refineBody th toler o e).2.1.iter = e.iter := by
  revert h
  unfold refineBody
  split
  · have hf := mrqmin_frame th o { e with ochisq := e.chisq }
    split
    · intro h; cases h
    · rename_i heq; rw [heq] at hf; intro _; exact hf.iter
  · have hf := mrqmin_frame th o { e with alambda := 0 }
    split
    · rename_i heq; rw [heq] at hf
      dsimp only
      split
      · intro _; exact hf.iter
      · intro h; cases h
    · rename_i heq; rw [heq] at hf; intro _; exact hf.iter

/-- Full claim of C17: the conclusion after *every* exception.  Proved part: the exception came from
the call that started the refinement; the user may then change anything (`edit`).  Missing: later
calls, for which the claim is false (below). -/
theorem C17_restart_after_first_step_failure_partial (th : Theory K W) (toler : K)
    (s : Statics K) (e : Eng K W) (x : Exc) (hs : ¬ Started s e)
    (hx : (refineStep th toler s e).2.2 = .exc x) (f : ParStore K × W → ParStore K × W) :
    RestartsFresh th toler (refineStep th toler s e).1 ((refineStep th toler s e).2.1.edit f) := by
  apply fresh_of_not_started
  intro h
  refine h.2 ?_
  show (refineStep th toler s e).2.1.iter = 0
  revert hx
  unfold refineStep
  unfold Started at hs
  rw [if_neg hs]
  dsimp only
  split
  · intro _; rfl
  · intro hx; exact body_exc_iter th toler _ _ x hx

/-- The same after a refinement that finished, whatever the user did in between. -/
theorem C17_restart_after_finish (th : Theory K W) (toler : K) (fuel : Nat)
    (s : Statics K) (e : Eng K W) (hd : (refineLoop th toler fuel (s, e)).2.1 = .done)
    (f : ParStore K × W → ParStore K × W) :
    RestartsFresh th toler (refineLoop th toler fuel (s, e)).1.1
      ((refineLoop th toler fuel (s, e)).1.2.edit f) := by
  apply fresh_of_not_started
  intro h
  have := C16.loop_done_stops th toler fuel s e hd
  rw [h.1] at this
  cases this

/-! ### Witness of the violation -/

/-- State after one normal step and one raising step, started at `x = 3`; then the user sets the
fixed parameter 2 to 7. -/
def afterFailure : Statics ℚ × Eng ℚ (List ℚ) :=
  let r := stepN C16.gapTheory (1/100000000) 2 ({}, demoEng 3)
  (r.1, r.2.edit fun pw => ({ pw.1 with p := [pw.1.p.headD 0, 7] }, pw.2))

/-- The next call continues the broken fit (its counter goes on to 2, no fresh start, which would
give 1) and puts the fixed parameter back to its old value 5. -/
theorem C17_continues_broken_fit :
    outN C16.gapTheory (1/100000000) 2 ({}, demoEng 3) = [.more, .exc .calculation] ∧
    afterFailure.2.par.getpar 2 = .ok 7 ∧
    let r := refineStep C16.gapTheory (1/100000000) afterFailure.1 afterFailure.2
    r.2.2 = .more ∧ r.2.1.iter = 2 ∧ r.2.1.par.getpar 2 = .ok 5 := by
  decide +kernel

/-- So the claim fails there: a fresh start raises at once, because the current value cannot be
evaluated. -/
theorem C17_not_fresh_after_later_failure :
    ¬ RestartsFresh C16.gapTheory (1/100000000) afterFailure.1 afterFailure.2 := by
  intro h
  have h1 := (h 1).1
  revert h1
  decide +kernel

/-- The hypotheses of the partial theorem occur: evaluation fails at the start value. -/
example : (refineStep C16.gapTheory (1/100000000) {} (demoEng (3/5))).2.2 = .exc .calculation ∧
    ¬ Started ({} : Statics ℚ) (demoEng (3/5)) ∧
    let r := refineStep C16.gapTheory (1/100000000) {} (demoEng (3/5))
    (refineLoop C16.gapTheory (1/100000000) 101
      (r.1, r.2.1.edit fun pw => ({ pw.1 with p := [0, 7] }, pw.2))).2.1 = .done := by
  refine ⟨by decide +kernel, fun h => h.2 rfl, by decide +kernel⟩

end Pdffit.C17
