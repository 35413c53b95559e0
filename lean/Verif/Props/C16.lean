import Verif.Lemmas.RefineSim
import Verif.Model.Multi
import Verif.Props.RefineDemo

/-!
# C16: refinements in different objects do not disturb each other

Violated: the statics are shared.  Three witnesses below.  What does hold: programs that only use
whole `refine()` calls, all of which finish normally.
-/

namespace Pdffit.C16
set_option linter.unusedSectionVars false
variable {K W : Type} [Field K] [LinearOrder K] [IsStrictOrderedRing K]

/-- What a user can read from an object. -/
structure SameResults (e e' : Eng K W) : Prop where
  par : e.par = e'.par
  world : e.world = e'.world
  chisq : e.chisq = e'.chisq
  cum : e.cum = e'.cum
  rw2 : e.rw2 = e'.rw2

/-- A program without single steps. -/
def WholeRefines (l : List (Op K W)) : Prop := ∀ o ∈ l, ∀ i, o ≠ .step i

/-- No refinement in the program stopped with an exception. -/
def AllFinish : List (Op K W) → List Outcome → Prop
  | .refine _ :: l, o :: r => o = .done ∧ AllFinish l r
  | _ :: l, _ :: r => AllFinish l r
  | _, _ => True

theorem loop_done_stops (th : Theory K W) (toler : K) (n : Nat) (s : Statics K) (e : Eng K W)
    (h : (refineLoop th toler n (s, e)).2.1 = .done) :
    (refineLoop th toler n (s, e)).1.1.fitRunning = false := by
  induction n generalizing s e with
  | zero => simp [refineLoop] at h
  | succ n ih =>
    revert h
    have hc := (refineStep_counters th toler s e).2
    rw [refineLoop]
    dsimp only at hc ⊢
    cases hx : (refineStep th toler s e).2.2 with
    | more => exact ih _ _
    | done => intro _; exact (hc hx).2.2
    | exc x => simp
    | corrupt => simp

/-- Invariant relating the process to the solo run of object `i`. -/
theorem solo_sim (th : Theory K W) (toler : K) (i : Nat) (l : List (Op K W)) :
    ∀ (x y : Sys K W), WholeRefines l → x.s.fitRunning = false → y.s.fitRunning = false →
    SameResults (x.eng i) (y.eng i) →
    AllFinish l (x.run th toler l).2 →
    AllFinish (onlyObj i l) (y.run th toler (onlyObj i l)).2 ∧
    SameResults ((x.run th toler l).1.eng i) ((y.run th toler (onlyObj i l)).1.eng i) := by
  induction l with
  | nil => intro x y _ _ _ h _; exact ⟨trivial, h⟩
  | cons o l ih =>
    intro x y hw hx hy hs hf
    have hw' : WholeRefines l := fun o ho => hw o (List.mem_cons_of_mem _ ho)
    cases o with
    | step j => exact absurd rfl (hw _ (by simp) j)
    | edit j f =>
      have hf' : AllFinish l (Sys.run th toler l (x.exec th toler (.edit j f)).1).2 := hf
      by_cases hj : j = i
      · subst hj
        have he : onlyObj j (Op.edit j f :: l) = Op.edit j f :: onlyObj j l := by
          simp [onlyObj, Op.obj]
        rw [he]
        refine ih (x.exec th toler (.edit j f)).1 (y.exec th toler (.edit j f)).1 hw' hx hy ?_ hf'
        simp only [Sys.exec, if_true]
        refine ⟨?_, ?_, hs.chisq, hs.cum, hs.rw2⟩
        · simp only [Eng.edit, hs.par, hs.world]
        · simp only [Eng.edit, hs.par, hs.world]
      · have he : onlyObj i (Op.edit j f :: l) = onlyObj i l := by
          simp [onlyObj, Op.obj, hj]
        rw [he]
        refine ih (x.exec th toler (.edit j f)).1 y hw' hx hy ?_ hf'
        simp only [Sys.exec, if_neg (Ne.symm hj)]
        exact hs
    | refine j =>
      have hf0 : (refineLoop th toler 101 (x.s, x.eng j)).2.1 = .done := hf.1
      have hf' : AllFinish l (Sys.run th toler l (x.exec th toler (.refine j)).1).2 := hf.2
      have hx' := loop_done_stops th toler 101 x.s (x.eng j) hf0
      by_cases hj : j = i
      · subst hj
        have he : onlyObj j (Op.refine j :: l) = Op.refine j :: onlyObj j l := by
          simp [onlyObj, Op.obj]
        rw [he]
        have hrel : Rel x.s (x.eng j) y.s (y.eng j) :=
          ⟨hs.par, hs.world, Or.inl ⟨by simp [Started, hx], by simp [Started, hy]⟩⟩
        obtain ⟨h1, h2, h3⟩ := sim_loop th toler 101 _ _ _ _ hrel
        have hyd : (refineLoop th toler 101 (y.s, y.eng j)).2.1 = .done := by
          rw [← h1]; exact hf0
        have hy' := loop_done_stops th toler 101 y.s (y.eng j) hyd
        have hE := (h3 hf0).1
        have := ih (x.exec th toler (.refine j)).1 (y.exec th toler (.refine j)).1 hw' hx' hy'
          (by simp only [Sys.exec, if_true]
              exact ⟨hE.par, hE.world, hE.chisq, hE.cum, hE.rw2⟩) hf'
        exact ⟨⟨hyd, this.1⟩, this.2⟩
      · have he : onlyObj i (Op.refine j :: l) = onlyObj i l := by
          simp [onlyObj, Op.obj, hj]
        rw [he]
        refine ih (x.exec th toler (.refine j)).1 y hw' hx' hy ?_ hf'
        simp only [Sys.exec, if_neg (Ne.symm hj)]
        exact hs

/-- Full claim of C16 would be: for every program, each object ends as in its own solo run.
Proved part: programs of whole `refine()` calls (interleaved with any other calls on any objects)
in which every refinement finishes.  Missing: single `refine_step` calls and refinements that
raise, for which the claim is false (below). -/
theorem C16_whole_refinements_independent_partial (th : Theory K W) (toler : K)
    (l : List (Op K W)) (x : Sys K W) (hw : WholeRefines l) (hx : x.s.fitRunning = false)
    (hf : AllFinish l (x.run th toler l).2) (i : Nat) :
    SameResults ((x.run th toler l).1.eng i)
      ((Sys.run th toler (onlyObj i l) ⟨{}, x.eng⟩).1.eng i) :=
  (solo_sim th toler i l x ⟨{}, x.eng⟩ hw hx rfl ⟨rfl, rfl, rfl, rfl, rfl⟩ hf).2

/-! ### Witnesses -/

/-- Two objects of the demo model, started at 3 and 1. -/
def twoObjects : Sys ℚ (List ℚ) := ⟨{}, fun i => if i = 0 then demoEng 3 else demoEng 1⟩

/-- Interleaved single steps: the second step of object 0 uses the gradient of object 1 and gives
another value than in the solo run. -/
theorem C16_interleaved_steps_interfere :
    (((twoObjects.run demoTheory (1/100000000) [.step 0, .step 1, .step 0]).1.eng 0).par.getpar 1)
      ≠ (((twoObjects.run demoTheory (1/100000000) [.step 0, .step 0]).1.eng 0).par.getpar 1) := by
  decide +kernel

/-- The demo model whose evaluation fails for `1/2 < x < 4/5`. -/
def gapTheory : Theory ℚ (List ℚ) :=
  { demoTheory with
    eval := fun par w =>
      if 1/2 < par.p.headD 0 ∧ par.p.headD 0 < 4/5 then (w, some .calculation)
      else (par.p, none) }

/-- Objects started at 3 (raises in its second step) and at 0. -/
def twoObjects' : Sys ℚ (List ℚ) := ⟨{}, fun i => if i = 0 then demoEng 3 else demoEng 0⟩

/-- An exception in object 0 spoils the next whole `refine()` of object 1: that one continues where
its previous, finished refinement ended (no set-up, work arrays of object 0), while alone it starts
afresh. Here object 1 is refined, object 0 raises, parameter 1 of object 1 is set to 1/4 and
object 1 is refined again: the call returns at once and leaves 1/4, alone it would have refined it. -/
theorem C16_exception_spoils_other_object :
    let reset : Op ℚ (List ℚ) := .edit 1 fun pw => ({ pw.1 with p := [1/4, 5] }, pw.2)
    let r := twoObjects'.run gapTheory (1/100000000) [.refine 1, .step 0, .step 0, reset, .refine 1]
    let solo := twoObjects'.run gapTheory (1/100000000) [.refine 1, reset, .refine 1]
    r.2 = [.done, .more, .exc .calculation, .more, .done] ∧
    solo.2 = [.done, .more, .done] ∧
    (r.1.eng 1).par.getpar 1 = .ok (1/4) ∧ (solo.1.eng 1).par.getpar 1 ≠ .ok (1/4) := by
  decide +kernel

/-- Whole refinements, interleaved with edits. -/
example : (twoObjects.run demoTheory (1/100000000)
    [.refine 0, .edit 1 fun pw => ({ pw.1 with p := [2, 5] }, pw.2), .refine 1, .refine 0]).2
      = [.done, .more, .done, .done] := by
  decide +kernel

end Pdffit.C16
