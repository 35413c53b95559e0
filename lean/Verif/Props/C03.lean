import Verif.Props.RefineDemo

/-!
# C03  refine() always terminates after a bounded number of steps
-/

namespace Pdffit.C03
variable {K W : Type} [Field K] [LinearOrder K]

/-- **C03** From every state of the object and of the statics, for every model and tolerance:
the loop `while not finished: refine_step()` ends (finished or raised, not `more`) after at
most 101 calls; more fuel does not change the result. -/
theorem C03_refine_terminates (th : Theory K W) (toler : K) (s : Statics K) (e : Eng K W) :
    ∃ r, (∀ fuel, 101 ≤ fuel → refineLoop th toler fuel (s, e) = r) ∧
      r.2.1 ≠ .more ∧ r.2.2 ≤ 101 := by
  by_cases h : (if s.fitRunning = true ∧ e.iter ≠ 0 then e.iter else 0) ≤ 100
  · refine ⟨refineLoop th toler 101 (s, e), refineLoop_stable th toler s e h, ?_⟩
    obtain ⟨h1, h2, -⟩ := refineLoop_spec th toler 101 s e _ _ rfl rfl (by omega) h
    exact ⟨h1, by omega⟩
  · -- an iteration counter above 100: the first call is the last one
    have hc := refineStep_counters th toler s e
    dsimp only at hc
    generalize hr : refineStep th toler s e = r at hc
    obtain ⟨s1, e1, o⟩ := r
    dsimp only at hc
    have hne : o ≠ .more := fun ho => h (by have := (hc.1 ho).1; omega)
    refine ⟨((s1, e1), o, 1), fun fuel hf => ?_, hne, by simp⟩
    obtain ⟨m, rfl⟩ : ∃ m, fuel = m + 1 := ⟨fuel - 1, by omega⟩
    rw [refineLoop]
    dsimp only
    rw [hr]
    cases o <;> simp_all

/-- **C03** A refinement that starts afresh and finishes normally takes at least 5 calls. -/
theorem C03_normal_finish_takes_five_steps (th : Theory K W) (toler : K) (s : Statics K)
    (e : Eng K W) (hfresh : ¬ (s.fitRunning = true ∧ e.iter ≠ 0))
    (fuel : Nat) (hf : 101 ≤ fuel) (hd : (refineLoop th toler fuel (s, e)).2.1 = .done) :
    5 ≤ (refineLoop th toler fuel (s, e)).2.2 := by
  have h : (if s.fitRunning = true ∧ e.iter ≠ 0 then e.iter else 0) = 0 := if_neg hfresh
  obtain ⟨-, -, -, h4⟩ := refineLoop_spec th toler fuel s e _ _ rfl rfl (by omega) (by omega)
  have := h4 (by rw [if_neg hfresh, if_neg hfresh]) hd
  omega

/-- Non-trivial case: a refinement that needs exactly 5 calls. -/
example : (refineLoop demoTheory (1/100000000) 101 ({}, demoEng 0)).2 = (.done, 5) := by
  decide +kernel

end Pdffit.C03
