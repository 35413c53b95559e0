import Verif.Lemmas.DetSum

/-!
# C23: partial PDFs add up to the total PDF

The selections are those made by `selectNone` followed by `selectAtomType` for every type of the group; everything is
selected by `selectAll`. What was selected before does not matter.
-/

namespace Pdffit.C23
open Det

/-- The ignored atoms after `selectNone` and selecting the types of a group, starting from the ignored atoms `ig`. -/
def group {τ : Type} [DecidableEq τ] (n : ℕ) (typ : ℕ → τ) (G : List τ) (ig : ℕ → Bool) : ℕ → Bool :=
  G.foldl (fun ig t => selectType n typ t true ig) (selectNone n ig)

theorem group_eq {τ : Type} [DecidableEq τ] (n : ℕ) (typ : ℕ → τ) (G : List τ) (ig : ℕ → Bool) (i : ℕ) (hi : i < n) :
    group n typ G ig i = !decide (typ i ∈ G) := by
  have key : ∀ (G : List τ) (ig : ℕ → Bool), G.foldl (fun ig t => selectType n typ t true ig) ig i =
      (ig i && !decide (typ i ∈ G)) := by
    intro G
    induction G with
    | nil => intro ig; simp
    | cons t G ih =>
      intro ig
      rw [List.foldl_cons, ih]
      unfold selectType
      by_cases h : typ i = t
      · simp [hi, h]
      · simp [h]
  unfold group
  rw [key]
  simp [selectNone, hi]

section
variable {n : ℕ} {τ : Type} [DecidableEq τ] {typ : ℕ → τ} {A B : List τ}

/-- Every pair belongs to exactly one of the three selections. -/
theorem indicator (hAB : ∀ i, i < n → (typ i ∈ A ↔ typ i ∉ B)) (i1 i2 i3 j1 j2 j3 i0 j0 : ℕ → Bool) (i j : ℕ)
    (hi : i < n) (hj : j < n) (v : ℝ) :
    (if !skip ⟨selectAll i0, selectAll j0⟩ i j then v else 0) =
      (if !skip ⟨group n typ A i1, group n typ A j1⟩ i j then v else 0) +
      (if !skip ⟨group n typ A i2, group n typ B j2⟩ i j then v else 0) +
      (if !skip ⟨group n typ B i3, group n typ B j3⟩ i j then v else 0) := by
  unfold skip
  dsimp only
  simp only [group_eq n typ _ _ i hi, group_eq n typ _ _ j hj]
  have h1 := hAB i hi
  have h2 := hAB j hj
  by_cases a : typ i ∈ A <;> by_cases b : typ j ∈ A <;> simp [selectAll, a, b] <;> simp_all
end

theorem sum3 {α : Type} (l : List α) (f g h k : α → ℝ) (e : ∀ x ∈ l, f x = g x + h x + k x) :
    (l.map f).sum = (l.map g).sum + (l.map h).sum + (l.map k).sum := by
  induction l with
  | nil => simp
  | cons a l ih =>
    simp only [List.map_cons, List.sum_cons]
    rw [e a (by simp), ih fun x hx => e x (List.mem_cons_of_mem _ hx)]
    ring

/-- The curves of the selections (A,A), (A,B) and (B,B) add up to the curve with everything selected. -/
theorem partials {τ : Type} [DecidableEq τ] (D : Data) (h : D.Ok) (ph : PPhase) (typ : ℕ → τ) (A B : List τ)
    (hAB : ∀ i, i < ph.atom.length → (typ i ∈ A ↔ typ i ∉ B)) (i1 i2 i3 j1 j2 j3 i0 j0 : ℕ → Bool) (f : ℤ → ℝ)
    (hf : determine D [some (ph, ⟨selectAll i0, selectAll j0⟩)] = .ok (some f)) :
    ∃ fAA fAB fBB,
      determine D [some (ph, ⟨group ph.atom.length typ A i1, group ph.atom.length typ A j1⟩)] = .ok (some fAA) ∧
      determine D [some (ph, ⟨group ph.atom.length typ A i2, group ph.atom.length typ B j2⟩)] = .ok (some fAB) ∧
      determine D [some (ph, ⟨group ph.atom.length typ B i3, group ph.atom.length typ B j3⟩)] = .ok (some fBB) ∧
      ∀ i, D.ncmin ≤ i → i ≤ D.ncmax → f i = fAA i + fAB i + fBB i := by
  obtain ⟨hb, he⟩ := determine_some h hf
  have hb := hb _ (List.mem_singleton.2 rfl)
  have sub : ∀ s : Sel, ¬Bad D ph s := by
    intro s hs
    apply hb
    rcases hs with ⟨x, hx, hn⟩ | hs
    · refine Or.inl ⟨x, ?_, hn⟩
      rw [mem_visited] at hx ⊢
      exact ⟨hx.1, rfl, hx.2.2⟩
    · exact Or.inr hs
  have one : ∀ s : Sel, ∃ g, determine D [some (ph, s)] = .ok (some g) ∧ ∀ i, D.ncmin ≤ i → i ≤ D.ncmax →
      g i = D.dscale * ph.pscale * filt D (curve D ph s) i := by
    intro s
    obtain ⟨g, h1, h2⟩ := determine_of h (psel := [some (ph, s)]) (by
      intro x hx
      simp only [List.mem_singleton, Option.some.injEq] at hx
      subst hx
      exact sub s)
    exact ⟨g, h1, fun i hi hi' => by rw [h2 i hi hi']; simp⟩
  obtain ⟨f1, a1, b1⟩ := one ⟨group ph.atom.length typ A i1, group ph.atom.length typ A j1⟩
  obtain ⟨f2, a2, b2⟩ := one ⟨group ph.atom.length typ A i2, group ph.atom.length typ B j2⟩
  obtain ⟨f3, a3, b3⟩ := one ⟨group ph.atom.length typ B i3, group ph.atom.length typ B j3⟩
  refine ⟨f1, f2, f3, a1, a2, a3, fun i hi hi' => ?_⟩
  rw [he i hi hi', b1 i hi hi', b2 i hi hi', b3 i hi hi']
  simp only [List.filterMap_cons, id, List.filterMap_nil, List.map_cons, List.map_nil, List.sum_cons, List.sum_nil, add_zero]
  rw [← mul_add, ← mul_add, ← filt_add h, ← filt_add h]
  congr 2
  funext i
  unfold curve
  have e1 : pairSum D ph ⟨selectAll i0, selectAll j0⟩ i =
      pairSum D ph ⟨group ph.atom.length typ A i1, group ph.atom.length typ A j1⟩ i +
      pairSum D ph ⟨group ph.atom.length typ A i2, group ph.atom.length typ B j2⟩ i +
      pairSum D ph ⟨group ph.atom.length typ B i3, group ph.atom.length typ B j3⟩ i := by
    simp only [pairSum_eq]
    exact sum3 _ _ _ _ _ fun x hx => indicator hAB i1 i2 i3 j1 j2 j3 i0 j0 x.1 x.2
      (by have := mem_halfPairs.1 hx; omega) (by have := mem_halfPairs.1 hx; omega) _
  have e2 : ract ph ⟨selectAll i0, selectAll j0⟩ =
      ract ph ⟨group ph.atom.length typ A i1, group ph.atom.length typ A j1⟩ +
      ract ph ⟨group ph.atom.length typ A i2, group ph.atom.length typ B j2⟩ +
      ract ph ⟨group ph.atom.length typ B i3, group ph.atom.length typ B j3⟩ := by
    simp only [ract_eq]
    exact sum3 _ _ _ _ _ fun x hx => indicator hAB i1 i2 i3 j1 j2 j3 i0 j0 x.1 x.2
      (by have := mem_halfPairs.1 hx; omega) (by have := mem_halfPairs.1 hx; omega) _
  rw [e1, e2]
  ring

/-- The two atoms of the example as groups `[0]` and `[1]`. -/
example : ∃ f fAA fAB fBB,
    determine (demoD 20) [some (demo, ⟨selectAll fun _ => true, selectAll fun _ => true⟩)] = .ok (some f) ∧
    determine (demoD 20) [some (demo, ⟨group 2 (fun i => i) [0] fun _ => false, group 2 (fun i => i) [0] fun _ => false⟩)] = .ok (some fAA) ∧
    determine (demoD 20) [some (demo, ⟨group 2 (fun i => i) [0] fun _ => false, group 2 (fun i => i) [1] fun _ => false⟩)] = .ok (some fAB) ∧
    determine (demoD 20) [some (demo, ⟨group 2 (fun i => i) [1] fun _ => false, group 2 (fun i => i) [1] fun _ => false⟩)] = .ok (some fBB) ∧
    ∀ i, (demoD 20).ncmin ≤ i → i ≤ (demoD 20).ncmax → f i = fAA i + fAB i + fBB i := by
  obtain ⟨f, hf, -⟩ := determine_of (demoD_ok 20)
    (psel := [some (demo, ⟨selectAll fun _ => true, selectAll fun _ => true⟩)]) (by
      intro x hx
      simp only [List.mem_singleton, Option.some.injEq] at hx
      subst hx
      exact demo_good _ _)
  obtain ⟨a, b, c, h⟩ := partials (demoD 20) (demoD_ok 20) demo (fun i => i) [0] [1] (fun i hi => by
    have : i < 2 := hi
    simp only [List.mem_singleton]
    omega) (fun _ => false) (fun _ => false) (fun _ => false) (fun _ => false) (fun _ => false) (fun _ => false) _ _ f hf
  exact ⟨f, a, b, c, hf, h⟩

end Pdffit.C23
