import Verif.Lemmas.DetDemo

/-! # C40: the PDF is linear in the scale factors and additive over phases -/

namespace Pdffit.C40
open Det

/-- The data set and the phase with unit scales. -/
def unitD (D : Data) : Data := { D with dscale := 1 }
def unitP (ph : PPhase) : PPhase := { ph with pscale := 1 }

theorem unit_ok {D : Data} (h : D.Ok) : (unitD D).Ok := ⟨h.step, h.lo, h.hi⟩

theorem unit_bad (D : Data) (ph : PPhase) (s : Sel) : Bad (unitD D) (unitP ph) s ↔ Bad D ph s := Iff.rfl

theorem unit_curve (D : Data) (ph : PPhase) (s : Sel) : filt (unitD D) (curve (unitD D) (unitP ph) s) = filt D (curve D ph s) := rfl

/-- The curve is `dscale` times the sum over the selected phases of `pscale` times a curve: the one which the program
calculates for this phase alone with all scales equal to one. -/
theorem linear (D : Data) (h : D.Ok) (psel : List (Option (PPhase × Sel))) (f : ℤ → ℝ)
    (hf : determine D psel = .ok (some f)) :
    ∃ g : PPhase × Sel → ℤ → ℝ,
      (∀ x, some x ∈ psel → determine (unitD D) [some (unitP x.1, x.2)] = .ok (some (g x))) ∧
      ∀ i, D.ncmin ≤ i → i ≤ D.ncmax →
        f i = D.dscale * ((psel.filterMap id).map fun x => x.1.pscale * g x i).sum := by
  classical
  obtain ⟨h1, h2⟩ := determine_some h hf
  have key : ∀ x : PPhase × Sel, ∃ g : ℤ → ℝ, (some x ∈ psel → determine (unitD D) [some (unitP x.1, x.2)] = .ok (some g)) ∧
      (some x ∈ psel → ∀ i, D.ncmin ≤ i → i ≤ D.ncmax → g i = filt D (curve D x.1 x.2) i) := by
    intro x
    by_cases hx : some x ∈ psel
    · obtain ⟨g, e1, e2⟩ := determine_of (unit_ok h) (psel := [some (unitP x.1, x.2)]) (by
        intro y hy
        simp only [List.mem_singleton, Option.some.injEq] at hy
        subst hy
        exact h1 x hx)
      refine ⟨g, fun _ => e1, fun _ i hi hi' => ?_⟩
      rw [e2 i hi hi']
      simp only [List.filterMap_cons, id, List.filterMap_nil, List.map_cons, List.map_nil, List.sum_cons, List.sum_nil, add_zero]
      rw [unit_curve]
      simp [unitD, unitP]
    · exact ⟨0, fun h => absurd h hx, fun h => absurd h hx⟩
  choose g hg using key
  refine ⟨g, fun x hx => (hg x).1 hx, fun i hi hi' => ?_⟩
  rw [h2 i hi hi', ← List.sum_map_mul_left]
  congr 1
  apply List.map_congr_left
  intro x hx
  rw [List.mem_filterMap] at hx
  obtain ⟨y, hy, hy'⟩ := hx
  simp only [id] at hy'
  subst hy'
  rw [(hg x).2 hy i hi hi']
  ring

/-- Whether the curve consists of numbers does not depend on the scales: it does if it does for each phase alone. -/
theorem exists_iff (D : Data) (h : D.Ok) (psel : List (Option (PPhase × Sel))) :
    (∃ f, determine D psel = .ok (some f)) ↔
      ∀ x, some x ∈ psel → ∃ f, determine (unitD D) [some (unitP x.1, x.2)] = .ok (some f) := by
  constructor
  · rintro ⟨f, hf⟩ x hx
    obtain ⟨g, hg, -⟩ := linear D h psel f hf
    exact ⟨_, hg x hx⟩
  · intro hx
    obtain ⟨f, hf, -⟩ := determine_of h (psel := psel) fun x hm => by
      obtain ⟨f, hf⟩ := hx x hm
      exact (determine_some (unit_ok h) hf).1 (unitP x.1, x.2) (by simp)
    exact ⟨f, hf⟩

/-- An excluded phase contributes nothing. -/
theorem excluded (D : Data) (l₁ l₂ : List (Option (PPhase × Sel))) : determine D (l₁ ++ none :: l₂) = determine D (l₁ ++ l₂) := by
  have : total D (l₁ ++ none :: l₂) = total D (l₁ ++ l₂) := by
    induction l₁ with
    | nil => rfl
    | cons a l ih =>
      cases a with
      | none => exact ih
      | some x =>
        rw [List.cons_append, List.cons_append, total, total, ih]
  unfold determine
  rw [this]

/-- Proportional to `dscale`. -/
theorem dscale (D : Data) (h : D.Ok) (c : ℝ) (psel : List (Option (PPhase × Sel))) (f : ℤ → ℝ)
    (hf : determine D psel = .ok (some f)) : ∃ g, determine { D with dscale := c * D.dscale } psel = .ok (some g) ∧
      ∀ i, D.ncmin ≤ i → i ≤ D.ncmax → g i = c * f i := by
  obtain ⟨h1, h2⟩ := determine_some h hf
  obtain ⟨g, e1, e2⟩ := determine_of (D := { D with dscale := c * D.dscale }) ⟨h.step, h.lo, h.hi⟩ (psel := psel) h1
  refine ⟨g, e1, fun i hi hi' => ?_⟩
  rw [h2 i hi hi', e2 i hi hi', ← List.sum_map_mul_left]
  congr 1
  apply List.map_congr_left
  intro x _
  show c * D.dscale * x.1.pscale * filt D (curve D x.1 x.2) i = _
  ring

/-- Two phases, one of them twice, one excluded. -/
example : ∃ f g, determine (demoD 20) [some (demo, ⟨fun _ => false, fun _ => false⟩), none] = .ok (some f) ∧
    determine (unitD (demoD 20)) [some (unitP demo, ⟨fun _ => false, fun _ => false⟩)] = .ok (some g) ∧
    ∀ i, (demoD 20).ncmin ≤ i → i ≤ (demoD 20).ncmax → f i = 10 * g i := by
  obtain ⟨f, hf, -⟩ := determine_of (demoD_ok 20) (psel := [some (demo, ⟨fun _ => false, fun _ => false⟩), none]) (by
    intro x hx
    simp only [List.mem_cons, Option.some.injEq, reduceCtorEq, List.not_mem_nil, or_false] at hx
    subst hx
    exact demo_good _ _)
  obtain ⟨g, hg, he⟩ := linear _ (demoD_ok 20) _ f hf
  refine ⟨f, g (demo, _), hf, hg (demo, _) (by simp), fun i hi hi' => ?_⟩
  rw [he i hi hi']
  simp only [List.filterMap_cons, id, List.filterMap_nil, List.map_cons, List.map_nil, List.sum_cons, List.sum_nil, add_zero]
  show 5 * (2 * _) = _
  ring

end Pdffit.C40
