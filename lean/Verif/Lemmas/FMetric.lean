import Verif.Lemmas.FAngle

/-! The computed cosine of a bond angle in a cell that is not close to a singular one. -/

namespace Pdffit.FAngle
open Binary

/-- A metric with a measure `c` of how far it is from being singular: three times the ratio of `∑ g i i * x i ^ 2` and the squared length. -/
structure Metric (g : Fin 3 → Fin 3 → ℚ) (c : ℚ) : Prop where
  symm : ∀ i j, g i j = g j i
  diag : ∀ i, 0 < g i i
  off : ∀ i j, g i j ^ 2 ≤ g i i * g j j
  three : 3 ≤ c
  le : c ≤ 2 ^ 46
  away : ∀ x : Fin 3 → ℚ, 3 * ∑ i, g i i * x i ^ 2 ≤ c * dot g x x

/-- A cell with right angles: `c = 3`. -/
theorem orthogonal {g : Fin 3 → Fin 3 → ℚ} (hd : ∀ i, 0 < g i i) (ho : ∀ i j, i ≠ j → g i j = 0) : Metric g 3 where
  symm i j := by
    by_cases h : i = j
    · rw [h]
    · rw [ho i j h, ho j i (Ne.symm h)]
  diag := hd
  off i j := by
    by_cases h : i = j
    · rw [h, sq]
    · rw [ho i j h]
      have := mul_pos (hd i) (hd j)
      norm_num
      exact this.le
  three := le_rfl
  le := by norm_num
  away x := by
    unfold dot
    simp only [Fin.sum_univ_three]
    rw [ho 0 1 (by decide), ho 0 2 (by decide), ho 1 0 (by decide), ho 1 2 (by decide), ho 2 0 (by decide), ho 2 1 (by decide)]
    exact le_of_eq (by ring)

section
variable {g : Fin 3 → Fin 3 → ℚ} {c : ℚ} (M : Metric g c)
include M

theorem dot_pos {x : Fin 3 → ℚ} (hx : x ≠ 0) : 0 < dot g x x := by
  have h1 : 0 < ∑ i, g i i * x i ^ 2 := by
    obtain ⟨i, hi⟩ := Function.ne_iff.1 hx
    refine Finset.sum_pos' (fun i _ => mul_nonneg (M.diag i).le (sq_nonneg _)) ⟨i, Finset.mem_univ _, ?_⟩
    exact mul_pos (M.diag i) (sq_pos_of_ne_zero hi)
  have h2 := M.away x
  have h3 := M.three
  by_contra h
  have : c * dot g x x ≤ 0 := mul_nonpos_of_nonneg_of_nonpos (by linarith) (not_lt.1 h)
  linarith

theorem dot_nonneg (x : Fin 3 → ℚ) : 0 ≤ dot g x x := by
  by_cases hx : x = 0
  · rw [hx]; simp [dot]
  · exact (dot_pos M hx).le

theorem dot_comm (x y : Fin 3 → ℚ) : dot g x y = dot g y x := by
  unfold dot
  simp only [Fin.sum_univ_three]
  rw [M.symm 1 0, M.symm 2 0, M.symm 2 1]
  ring

theorem cauchy (x y : Fin 3 → ℚ) : dot g x y ^ 2 ≤ dot g x x * dot g y y := by
  by_cases hy : y = 0
  · rw [hy]; simp [dot]
  have hp := dot_pos M hy
  have h := dot_nonneg M (fun i => dot g y y * x i - dot g x y * y i)
  have e : dot g (fun i => dot g y y * x i - dot g x y * y i) (fun i => dot g y y * x i - dot g x y * y i) =
      dot g y y * (dot g x x * dot g y y - dot g x y ^ 2) := by
    have e2 : ∀ p q : ℚ, dot g (fun i => p * x i - q * y i) (fun i => p * x i - q * y i) =
        p ^ 2 * dot g x x - p * q * (dot g x y + dot g y x) + q ^ 2 * dot g y y := by
      intro p q
      unfold dot
      simp only [Fin.sum_univ_three]
      ring
    rw [e2, ← dot_comm M x y]
    ring
  rw [e] at h
  have := nonneg_of_mul_nonneg_right h hp
  linarith

theorem cosine_le (x y : Fin 3 → ℚ) : |cosine g x y| ≤ 1 := by
  unfold cosine
  rw [abs_div, abs_mul, abs_of_nonneg (Real.sqrt_nonneg _), abs_of_nonneg (Real.sqrt_nonneg _)]
  refine div_le_one_of_le₀ ?_ (by positivity)
  have hx : (0 : ℝ) ≤ dot g x x := by exact_mod_cast dot_nonneg M x
  rw [← Real.sqrt_mul hx]
  refine Real.abs_le_sqrt ?_
  exact_mod_cast cauchy M x y

/-- The sum of the magnitudes of the terms of a scalar product. -/
theorem mag_le (x y : Fin 3 → ℚ) : (mag g x y : ℝ) ≤ c * (√(dot g x x : ℝ) * √(dot g y y : ℝ)) := by
  have h1 : ∀ z : Fin 3 → ℚ, ∑ i, √(g i i : ℝ) * |(z i : ℝ)| ≤ √(c * dot g z z : ℝ) := by
    intro z
    refine Real.le_sqrt_of_sq_le ?_
    have h := Finset.sum_mul_sq_le_sq_mul_sq (Finset.univ : Finset (Fin 3)) (fun _ => (1 : ℝ)) (fun i => √(g i i : ℝ) * |(z i : ℝ)|)
    simp only [one_mul, one_pow, Finset.sum_const, Finset.card_univ, Fintype.card_fin, nsmul_eq_mul, mul_one, mul_pow, sq_abs] at h
    refine h.trans ?_
    have h2 : ∀ i, √(g i i : ℝ) ^ 2 = g i i := fun i => Real.sq_sqrt (by exact_mod_cast (M.diag i).le)
    simp only [h2]
    exact_mod_cast M.away z
  have h2 : (mag g x y : ℝ) ≤ (∑ i, √(g i i : ℝ) * |(x i : ℝ)|) * ∑ j, √(g j j : ℝ) * |(y j : ℝ)| := by
    rw [Finset.sum_mul_sum]
    unfold mag
    push_cast
    refine Finset.sum_le_sum fun i _ => Finset.sum_le_sum fun j _ => ?_
    rw [abs_mul, abs_mul]
    have h3 : |(g i j : ℝ)| ≤ √(g i i : ℝ) * √(g j j : ℝ) := by
      rw [← Real.sqrt_mul (by exact_mod_cast (M.diag i).le)]
      refine Real.abs_le_sqrt ?_
      exact_mod_cast M.off i j
    have := mul_le_mul_of_nonneg_left h3 (mul_nonneg (abs_nonneg (x i : ℝ)) (abs_nonneg (y j : ℝ)))
    refine this.trans (le_of_eq (by ring))
  refine h2.trans ?_
  have h4 := mul_le_mul (h1 x) (h1 y) (Finset.sum_nonneg fun i _ => by positivity) (Real.sqrt_nonneg _)
  refine h4.trans (le_of_eq ?_)
  have hc : (0 : ℝ) ≤ c := by have := M.three; exact_mod_cast (by linarith : (0 : ℚ) ≤ c)
  rw [Real.sqrt_mul hc, Real.sqrt_mul hc]
  have := Real.mul_self_sqrt hc
  linear_combination (√(dot g x x : ℝ) * √(dot g y y : ℝ)) * this

theorem well {x y : Fin 3 → ℚ} (hx : x ≠ 0) (hy : y ≠ 0) : Well g c x y := by
  have self : ∀ z, mag g z z ≤ c * dot g z z := by
    intro z
    have := mag_le M z z
    rw [Real.mul_self_sqrt (by exact_mod_cast dot_nonneg M z)] at this
    exact_mod_cast this
  exact ⟨by linarith [M.three], M.le.trans (by norm_num), dot_pos M hx, dot_pos M hy, self x, self y, mag_le M x y⟩

theorem arg_near {x y : Fin 3 → ℚ} (hx : x ≠ 0) (hy : y ≠ 0) :
    ∃ a, arg g x y = some a ∧ |(a : ℝ) - cosine g x y| ≤ c / 2 ^ 47 := by
  obtain ⟨a, h1, h2⟩ := arg_err (well M hx hy)
  refine ⟨a, h1, h2.trans ?_⟩
  have h3 : (1 + |cosine g x y|) ≤ 2 := by linarith [cosine_le M x y]
  have hc : (0 : ℝ) ≤ c := by have := M.three; exact_mod_cast (by linarith : (0 : ℚ) ≤ c)
  have := mul_le_mul_of_nonneg_right h3 (by positivity : (0 : ℝ) ≤ c / 2 ^ 48)
  refine this.trans (le_of_eq (by ring))

end

end Pdffit.FAngle
