import Verif.Lemmas.Gaussj
import Mathlib.LinearAlgebra.Matrix.Notation

/-!
# C13  The linear solver inverts or reports a singular matrix
-/

namespace Pdffit.C13
variable {K : Type} [Field K] [LinearOrder K] [IsStrictOrderedRing K]

/-- **C13** For every square matrix `A` and right-hand sides `B`, of any size: either `A` is
singular and the call raises `calculationError`, or `A` is regular and the call returns the
inverse matrix and the solutions of `A X = B`.  It never has undefined behaviour. -/
theorem C13_gaussj_inverts_or_reports_singular {n m : Nat}
    (A : Matrix (Fin n) (Fin n) K) (B : Matrix (Fin n) (Fin m) K) :
    (A.det = 0 ∧ gaussj A B = .err .calculation) ∨
    (A.det ≠ 0 ∧ ∃ A' X, gaussj A B = .ok (A', X) ∧
      A * A' = 1 ∧ A' * A = 1 ∧ A * X = B) := by
  have h0 : GJInv A B (GJ.mk A B (fun _ => 0) none []) 1 1 1 := by
    refine ⟨by simp, by simp, fun _ => Or.inl rfl, ?_, ?_, ?_, ?_, rfl⟩
    · intro c hc; simp at hc
    · intro c _ i; simp
    · intro c _ i; rw [Equiv.Perm.one_apply, Matrix.one_apply]
    · intro c hc; simp at hc
  have hcard : (Finset.univ.filter fun c : Fin n => (fun _ : Fin n => 0) c = 0).card = n := by simp
  rcases gjLoop_spec n h0 hcard with ⟨he, hd⟩ | ⟨s, E, F, σ, hs, hi, hall⟩
  · exact Or.inl ⟨hd, by simp only [gaussj, he]⟩
  · right
    have hEA : E * A = 1 := by
      ext i c
      rw [hi.unit c (hall c) i, Matrix.one_apply]
    have hAE : A * E = 1 := mul_eq_one_comm.1 hEA
    have hdet : A.det ≠ 0 := by
      intro h
      have : (E * A).det = 1 := by rw [hEA, Matrix.det_one]
      rw [Matrix.det_mul, h, mul_zero] at this
      exact zero_ne_one this
    have hu : gjUnscramble s.a s.idx = E := by
      ext i j
      obtain ⟨c, rfl⟩ := σ.surjective j
      rw [← hi.new c (hall c) i]
      conv_lhs => rw [hi.hσ]
      exact gjUnscramble_spec s.idx s.a i c
    refine ⟨hdet, E, s.b, ?_, hAE, hEA, ?_⟩
    · simp only [gaussj, hs, hu]
    · rw [hi.hb, ← Matrix.mul_assoc, hAE, Matrix.one_mul]

/-- **C13** The call raises exactly for singular matrices. -/
theorem C13_gaussj_raises_iff_singular {n m : Nat}
    (A : Matrix (Fin n) (Fin n) K) (B : Matrix (Fin n) (Fin m) K) :
    gaussj A B = .err .calculation ↔ A.det = 0 := by
  rcases C13_gaussj_inverts_or_reports_singular A B with ⟨h, e⟩ | ⟨h, A', X, e, _⟩
  · exact ⟨fun _ => h, fun _ => e⟩
  · rw [e]
    constructor
    · intro h; cases h
    · intro h'; exact absurd h' h

/-- Both cases occur: a regular matrix that needs a row interchange, and a singular one. -/
example : (!![0, 2; 3, 1] : Matrix (Fin 2) (Fin 2) ℚ).det ≠ 0 := by simp [Matrix.det_fin_two]
example : (!![1, 2; 2, 4] : Matrix (Fin 2) (Fin 2) ℚ).det = 0 := by
  norm_num [Matrix.det_fin_two]

end Pdffit.C13
