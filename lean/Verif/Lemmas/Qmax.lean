import Verif.Model.Qmax

/-! # The discrete Fourier transform and its inverse -/

namespace Pdffit.Qmax
open Complex

theorem geom_zero {z : ℂ} {N : ℕ} (h1 : z ≠ 1) (hN : z ^ N = 1) : ∑ k ∈ Finset.range N, z ^ k = 0 := by
  have := mul_geom_sum z N
  rw [hN, sub_self] at this
  rcases mul_eq_zero.1 this with h | h
  · exact absurd (sub_eq_zero.1 h) h1
  · exact h

theorem orth {N : ℕ} (hN : 0 < N) {n m : ℕ} (hn : n < N) (hm : m < N) :
    ∑ k ∈ Finset.range N, exp (2 * Real.pi * I * (n * k / N)) * exp (-(2 * Real.pi * I * (m * k / N))) =
      if n = m then (N : ℂ) else 0 := by
  have hN' : (N : ℂ) ≠ 0 := by exact_mod_cast hN.ne'
  set z := exp (2 * Real.pi * I * (((n : ℂ) - m) / N)) with hz
  have e : ∀ k : ℕ, exp (2 * Real.pi * I * (n * k / N)) * exp (-(2 * Real.pi * I * (m * k / N))) = z ^ k := by
    intro k
    rw [← exp_add, hz, ← exp_nat_mul]
    congr 1
    field_simp
    ring
  simp only [e]
  by_cases h : n = m
  · rw [if_pos h, hz, h]
    simp
  · rw [if_neg h]
    apply geom_zero
    · intro h1
      rw [hz, exp_eq_one_iff] at h1
      obtain ⟨j, hj⟩ := h1
      have hpi : (2 * Real.pi * I : ℂ) ≠ 0 := two_pi_I_ne_zero
      have h2 : ((n : ℂ) - m) / N = j := by
        apply mul_left_cancel₀ hpi
        rw [hj]; ring
      rw [div_eq_iff hN'] at h2
      have h3 : (n : ℤ) - m = j * N := by exact_mod_cast h2
      have h4 : j = 0 := by
        by_contra hj0
        have : 1 ≤ |j| := Int.one_le_abs hj0
        have h5 : |(n : ℤ) - m| = |j| * N := by rw [h3, abs_mul]; simp
        have h6 : |(n : ℤ) - m| < N := by rw [abs_lt]; constructor <;> omega
        nlinarith
      rw [h4] at h3
      omega
    · rw [hz, ← exp_nat_mul, exp_eq_one_iff]
      refine ⟨(n : ℤ) - m, ?_⟩
      push_cast
      field_simp

theorem idft_dft {N : ℕ} (x : ℕ → ℂ) {n : ℕ} (hn : n < N) : idft N (dft N x) n = x n := by
  have hN : 0 < N := by omega
  have hN' : (N : ℂ) ≠ 0 := by exact_mod_cast hN.ne'
  unfold idft dft
  simp only [Finset.sum_mul]
  rw [Finset.sum_comm]
  have : ∀ m ∈ Finset.range N, ∑ k ∈ Finset.range N, x m * exp (-(2 * Real.pi * I * (m * k / N))) * exp (2 * Real.pi * I * (n * k / N)) =
      x m * if n = m then (N : ℂ) else 0 := by
    intro m hm
    rw [← orth hN hn (Finset.mem_range.1 hm), Finset.mul_sum]
    refine Finset.sum_congr rfl fun k _ => by ring
  rw [Finset.sum_congr rfl this]
  simp [hn]
  field_simp

theorem dft_idft {N : ℕ} (x : ℕ → ℂ) {k : ℕ} (hk : k < N) : dft N (idft N x) k = x k := by
  have hN : 0 < N := by omega
  have hN' : (N : ℂ) ≠ 0 := by exact_mod_cast hN.ne'
  unfold idft dft
  simp only [Finset.mul_sum, Finset.sum_mul]
  rw [Finset.sum_comm]
  have : ∀ m ∈ Finset.range N, ∑ n ∈ Finset.range N, 1 / (N : ℂ) * (x m * exp (2 * Real.pi * I * (n * m / N))) *
      exp (-(2 * Real.pi * I * (n * k / N))) = 1 / (N : ℂ) * x m * if m = k then (N : ℂ) else 0 := by
    intro m hm
    rw [← orth hN (Finset.mem_range.1 hm) hk, Finset.mul_sum]
    refine Finset.sum_congr rfl fun n _ => ?_
    rw [mul_comm (n : ℂ) m, mul_comm (n : ℂ) k]
    ring
  rw [Finset.sum_congr rfl this]
  simp [hk]
  field_simp

theorem dft_congr {N : ℕ} {x y : ℕ → ℂ} (h : ∀ n < N, x n = y n) (k : ℕ) : dft N x k = dft N y k := by
  unfold dft
  exact Finset.sum_congr rfl fun n hn => by rw [h n (Finset.mem_range.1 hn)]

theorem idft_congr {N : ℕ} {x y : ℕ → ℂ} (h : ∀ n < N, x n = y n) (k : ℕ) : idft N x k = idft N y k := by
  unfold idft
  congr 1
  exact Finset.sum_congr rfl fun n hn => by rw [h n (Finset.mem_range.1 hn)]

theorem dft_lin (N : ℕ) (a b : ℂ) (x y : ℕ → ℂ) (k : ℕ) :
    dft N (fun n => a * x n + b * y n) k = a * dft N x k + b * dft N y k := by
  unfold dft
  rw [Finset.mul_sum, Finset.mul_sum, ← Finset.sum_add_distrib]
  exact Finset.sum_congr rfl fun n _ => by ring

theorem idft_lin (N : ℕ) (a b : ℂ) (x y : ℕ → ℂ) (k : ℕ) :
    idft N (fun n => a * x n + b * y n) k = a * idft N x k + b * idft N y k := by
  unfold idft
  have : ∑ n ∈ Finset.range N, (a * x n + b * y n) * exp (2 * Real.pi * I * (k * n / N)) =
      a * ∑ n ∈ Finset.range N, x n * exp (2 * Real.pi * I * (k * n / N)) +
      b * ∑ n ∈ Finset.range N, y n * exp (2 * Real.pi * I * (k * n / N)) := by
    rw [Finset.mul_sum, Finset.mul_sum, ← Finset.sum_add_distrib]
    exact Finset.sum_congr rfl fun n _ => by ring
  rw [this]
  ring

/-- `exp(-2πi n (N-k)/N)` is the conjugate of `exp(-2πi n k/N)`. -/
theorem exp_compl {N n k : ℕ} (hN : 0 < N) (hk : k ≤ N) :
    exp (2 * Real.pi * I * (n * ((N - k : ℕ) : ℂ) / N)) = (starRingEnd ℂ) (exp (2 * Real.pi * I * (n * k / N))) := by
  have hN' : (N : ℂ) ≠ 0 := by exact_mod_cast hN.ne'
  rw [← Complex.exp_conj]
  simp only [map_mul, map_div₀, conj_ofReal, conj_I, map_natCast, Complex.conj_ofNat]
  rw [Nat.cast_sub hk]
  have : 2 * (Real.pi : ℂ) * I * (n * ((N : ℂ) - k) / N) = 2 * Real.pi * -I * (n * k / N) + n * (2 * Real.pi * I) := by
    field_simp
    ring
  rw [this, exp_add, exp_nat_mul_two_pi_mul_I, mul_one]

/-- The transform of real data is conjugate symmetric. -/
theorem dft_conj {N : ℕ} (x : ℕ → ℝ) {k : ℕ} (hk0 : 0 < k) (hk : k ≤ N) :
    dft N (fun n => (x n : ℂ)) (N - k) = (starRingEnd ℂ) (dft N (fun n => (x n : ℂ)) k) := by
  have hN : 0 < N := by omega
  unfold dft
  rw [map_sum]
  refine Finset.sum_congr rfl fun n _ => ?_
  rw [map_mul, conj_ofReal, exp_neg, exp_neg, map_inv₀, exp_compl hN hk]

theorem dft_zero_real {N : ℕ} (x : ℕ → ℝ) : (starRingEnd ℂ) (dft N (fun n => (x n : ℂ)) 0) = dft N (fun n => (x n : ℂ)) 0 := by
  unfold dft
  rw [map_sum]
  refine Finset.sum_congr rfl fun n _ => ?_
  simp

/-- The inverse transform of conjugate symmetric data is real. -/
theorem idft_real {N : ℕ} (X : ℕ → ℂ) (h0 : (starRingEnd ℂ) (X 0) = X 0)
    (h : ∀ k, 0 < k → k < N → X (N - k) = (starRingEnd ℂ) (X k)) (n : ℕ) :
    (starRingEnd ℂ) (idft N X n) = idft N X n := by
  rcases Nat.eq_zero_or_pos N with rfl | hN
  · simp [idft]
  unfold idft
  rw [map_mul, map_sum]
  congr 1
  · simp
  · obtain ⟨M, rfl⟩ : ∃ M, N = M + 1 := ⟨N - 1, by omega⟩
    rw [Finset.sum_range_succ', Finset.sum_range_succ']
    congr 1
    · rw [← Finset.sum_range_reflect]
      refine Finset.sum_congr rfl fun k hk => ?_
      have hk := Finset.mem_range.1 hk
      have e1 : M - 1 - k + 1 = M + 1 - (k + 1) := by omega
      rw [e1, h (k + 1) (by omega) (by omega), map_mul, conj_conj, exp_compl (by omega) (by omega), conj_conj]
    · rw [map_mul, h0]
      simp

end Pdffit.Qmax
