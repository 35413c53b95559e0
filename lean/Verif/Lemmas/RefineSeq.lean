import Verif.Lemmas.RefineNorm

namespace Pdffit
variable {K W : Type} [Field K] [LinearOrder K] [IsStrictOrderedRing K]

/-- after `n ≥ 1` normal non-final calls of a fresh refinement the state is consistent. -/
theorem stepN_run (th : Theory K W) (toler : K) (n : Nat) :
    ∀ (s : Statics K) (e : Eng K W), (¬ (s.fitRunning = true ∧ e.iter ≠ 0) ∨ RunInv th s e) →
    (∀ o ∈ outN th toler (n + 1) (s, e), o = .more) →
    RunInv th (stepN th toler (n + 1) (s, e)).1 (stepN th toler (n + 1) (s, e)).2 := by
  induction n with
  | zero =>
    intro s e h ho
    have := refineStep_run th toler s e h
    exact this.1 (ho _ (by simp [outN]))
  | succ n ih =>
    intro s e h ho
    have := refineStep_run th toler s e h
    have hm := this.1 (ho _ (by simp [outN]))
    rw [stepN]
    exact ih _ _ (Or.inr hm) (fun o h' => ho o (by rw [outN]; exact List.mem_cons_of_mem _ h'))

theorem stepN_mid {th : Theory K W} {p0 : ParStore K} {I : W → Prop} {chi : List K → Option K}
    {wn : K} (hd : th.Det p0 I chi wn) (toler : K) (n : Nat) :
    ∀ (s : Statics K) (e : Eng K W), SameKeys p0 e.par → I e.world →
    ∀ c0, (¬ (s.fitRunning = true ∧ e.iter ≠ 0) ∧ chi e.par.p = some c0) ∨
      (Mid th p0 I chi wn s e ∧ c0 = e.chisq) →
    (∀ o ∈ outN th toler (n + 1) (s, e), o = .more) →
    Mid th p0 I chi wn (stepN th toler (n + 1) (s, e)).1 (stepN th toler (n + 1) (s, e)).2 ∧
    (stepN th toler (n + 1) (s, e)).2.chisq ≤ c0 := by
  induction n with
  | zero =>
    intro s e hk hi c0 h ho
    have := refineStep_mid hd toler s e hk hi c0 h
    exact this.2.1 (ho _ (by simp [outN]))
  | succ n ih =>
    intro s e hk hi c0 h ho
    have := refineStep_mid hd toler s e hk hi c0 h
    obtain ⟨hm, hle⟩ := this.2.1 (ho _ (by simp [outN]))
    rw [stepN]
    obtain ⟨h1, h2⟩ := ih _ _ hm.ok.keys hm.ok.inv _ (Or.inr ⟨hm, rfl⟩)
      (fun o h' => ho o (by rw [outN]; exact List.mem_cons_of_mem _ h'))
    exact ⟨h1, le_trans h2 hle⟩

/-- splitting the last call off. -/
theorem stepN_succ (th : Theory K W) (toler : K) (n : Nat) :
    ∀ st : Statics K × Eng K W, stepN th toler (n + 1) st =
      ((refineStep th toler (stepN th toler n st).1 (stepN th toler n st).2).1,
       (refineStep th toler (stepN th toler n st).1 (stepN th toler n st).2).2.1) := by
  induction n with
  | zero => intro st; rfl
  | succ n ih => intro st; rw [stepN]; exact ih _

theorem outN_succ (th : Theory K W) (toler : K) (n : Nat) :
    ∀ st : Statics K × Eng K W, outN th toler (n + 1) st = outN th toler n st ++
      [(refineStep th toler (stepN th toler n st).1 (stepN th toler n st).2).2.2] := by
  induction n with
  | zero => intro st; rfl
  | succ n ih =>
    intro st
    rw [outN]
    rw [ih]
    rfl

end Pdffit
