import Verif.Lemmas.DetDemo
import Mathlib.Algebra.BigOperators.Finprod

/-! # The pair sums as sums over indices -/

namespace Pdffit.Det
open Geom Parser Bonds

theorem sum_filter_map {α : Type} (l : List α) (p : α → Bool) (f : α → ℝ) :
    ((l.filter p).map f).sum = (l.map fun x => if p x then f x else 0).sum := by
  induction l with
  | nil => rfl
  | cons a l ih =>
    by_cases h : p a
    · simp [h, ih]
    · simp [h, ih]

theorem sum_flatMap_map {α β : Type} (l : List α) (g : α → List β) (f : β → ℝ) :
    ((l.flatMap g).map f).sum = (l.map fun x => ((g x).map f).sum).sum := by
  induction l with
  | nil => rfl
  | cons a l ih => simp [ih]

theorem mem_halfPairs {n : ℕ} {x : ℕ × ℕ} : x ∈ halfPairs n ↔ x.1 ≤ x.2 ∧ x.2 < n := by
  obtain ⟨a, b⟩ := x
  simp only [halfPairs, List.mem_flatMap, List.mem_range, List.mem_map, List.mem_range'_1, Prod.mk.injEq]
  constructor
  · rintro ⟨i, hi, j, hj, rfl, rfl⟩; omega
  · intro h; exact ⟨a, by omega, b, by omega, rfl, rfl⟩

/-- What one pair of atoms adds at a grid point. -/
noncomputable def pairTerm (D : Data) (ph : PPhase) (i j : ℕ) (ig : ℤ) : ℝ :=
  ((Sphere.points (sphere D ph)).map fun T => height D ph i j (eventOf D ph ((i, j), T)) ig).sum

theorem pairSum_eq (D : Data) (ph : PPhase) (s : Sel) (ig : ℤ) : pairSum D ph s ig =
    ((halfPairs ph.atom.length).map fun x => if !skip s x.1 x.2 then pairTerm D ph x.1 x.2 ig else 0).sum := by
  unfold pairSum visited
  rw [sum_flatMap_map, sum_filter_map]
  congr 1
  apply List.map_congr_left
  intro x _
  simp only [List.map_map]
  rfl

theorem ract_eq (ph : PPhase) (s : Sel) : ract ph s =
    ((halfPairs ph.atom.length).map fun x => if !skip s x.1 x.2 then half x.1 x.2 * ph.weight x.1 * ph.weight x.2 else 0).sum := by
  unfold ract
  rw [sum_filter_map]

theorem mem_visited {D : Data} {ph : PPhase} {s : Sel} {x : (ℕ × ℕ) × (ℤ × ℤ × ℤ)} : x ∈ visited D ph s ↔
    x.1 ∈ halfPairs ph.atom.length ∧ skip s x.1.1 x.1.2 = false ∧ x.2 ∈ Sphere.points (sphere D ph) := by
  obtain ⟨p, T⟩ := x
  simp only [visited, List.mem_flatMap, List.mem_filter, List.mem_map, Prod.mk.injEq, Bool.not_eq_true']
  constructor
  · rintro ⟨q, ⟨h1, h2⟩, T', h3, rfl, rfl⟩; exact ⟨h1, h2, h3⟩
  · rintro ⟨h1, h2, h3⟩; exact ⟨p, ⟨h1, h2⟩, T, h3, rfl, rfl⟩

end Pdffit.Det
