import Verif.Lemmas.Qmax

/-!
# C42: the Qmax cutoff is a linear projection that keeps the curve real

Proved: the filter never writes outside its buffer, is linear, gives a real buffer, is a projection on the buffer, and removes
exactly the frequencies `k` with `Qmax ≤ k dQ`, where `dQ = 2π/((padlen-1) deltar)` is the step used by the code.
The step of the transform is `2π/(padlen deltar)`; because of this difference frequencies slightly below Qmax are
removed too (`removes_below`), so the claim is only partly true. Without Qmax the filter is not called (`Model/Determine.lean`).
-/

namespace Pdffit.C42
open Complex Qmax

theorem padlen_even (len : ℕ) (h : 0 < len) : ∃ m, padlen len = 2 * m ∧ 0 < m ∧ len ≤ m := by
  unfold padlen
  have h1 : 2 * len ≤ 2 ^ Nat.clog 2 (2 * len) := Nat.le_pow_clog (by norm_num) _
  have h2 : Nat.clog 2 (2 * len) ≠ 0 := by
    intro h0
    rw [h0] at h1
    omega
  obtain ⟨c, hc⟩ := Nat.exists_eq_succ_of_ne_zero h2
  rw [hc, pow_succ] at h1 ⊢
  exact ⟨2 ^ c, by ring, by positivity, by omega⟩

theorem dQ_pos {deltar : ℝ} (hd : 0 < deltar) {len : ℕ} (hl : 0 < len) : 0 < dQ deltar len := by
  obtain ⟨m, hm, hm0, -⟩ := padlen_even len hl
  have : (2 : ℝ) ≤ padlen len := by exact_mod_cast (by omega : 2 ≤ padlen len)
  unfold dQ
  have := Real.pi_pos
  apply div_pos (by positivity)
  apply mul_pos _ hd
  linarith

section
variable {deltar qmax : ℝ} (hd : 0 < deltar) (hq : 0 < qmax) {len : ℕ} (hl : 0 < len)
include hd hq hl

theorem lo_pos : 0 < loQ deltar qmax len := Int.ceil_pos.2 (div_pos hq (dQ_pos hd hl))

theorem in_range : hiQ deltar qmax len ≤ loQ deltar qmax len ∨
    (0 ≤ loQ deltar qmax len ∧ hiQ deltar qmax len ≤ (padlen len : ℤ)) := by
  have := lo_pos hd hq hl
  unfold hiQ
  omega

theorem filtered_eq (y : ℕ → ℝ) : filtered deltar qmax len y = some (idft (padlen len) fun k =>
    if loQ deltar qmax len ≤ (k : ℤ) ∧ (k : ℤ) < hiQ deltar qmax len then 0 else dft (padlen len) (pad len y) k) := by
  unfold filtered zeroed
  rw [if_pos (in_range hd hq hl)]
  rfl

/-- No index is outside the buffer, for any positive Qmax and step; only the first `len` values change. -/
theorem total (y : ℕ → ℝ) : ∃ z, applyQmaxCutoff deltar qmax len y = some z ∧ ∀ n, len ≤ n → z n = y n := by
  unfold applyQmaxCutoff
  rw [filtered_eq hd hq hl]
  exact ⟨_, rfl, fun n hn => if_neg (not_lt.2 hn)⟩

/-- The filter is linear. -/
theorem linear (a b : ℝ) (y1 y2 z1 z2 : ℕ → ℝ) (h1 : applyQmaxCutoff deltar qmax len y1 = some z1)
    (h2 : applyQmaxCutoff deltar qmax len y2 = some z2) :
    applyQmaxCutoff deltar qmax len (fun n => a * y1 n + b * y2 n) = some fun n => a * z1 n + b * z2 n := by
  unfold applyQmaxCutoff at *
  rw [filtered_eq hd hq hl] at *
  simp only [Option.map_some, Option.some.injEq] at *
  subst h1; subst h2
  funext n
  by_cases hn : n < len
  · simp only [if_pos hn]
    have hp : pad len (fun n => a * y1 n + b * y2 n) = fun n => (a : ℂ) * pad len y1 n + b * pad len y2 n := by
      funext m
      unfold pad
      split <;> simp
    have he : (fun k : ℕ => if loQ deltar qmax len ≤ (k : ℤ) ∧ (k : ℤ) < hiQ deltar qmax len then 0 else
          dft (padlen len) (pad len fun n => a * y1 n + b * y2 n) k) =
        fun k : ℕ => (a : ℂ) * (if loQ deltar qmax len ≤ (k : ℤ) ∧ (k : ℤ) < hiQ deltar qmax len then 0 else dft (padlen len) (pad len y1) k) +
          b * (if loQ deltar qmax len ≤ (k : ℤ) ∧ (k : ℤ) < hiQ deltar qmax len then 0 else dft (padlen len) (pad len y2) k) := by
      funext k
      rw [hp, dft_lin]
      split <;> simp
    rw [he, idft_lin]
    simp
  · simp only [if_neg hn]

/-- The filtered buffer is real. -/
theorem real (y : ℕ → ℝ) (x : ℕ → ℂ) (h : filtered deltar qmax len y = some x) (n : ℕ) : (x n).im = 0 := by
  rw [filtered_eq hd hq hl, Option.some.injEq] at h
  subst h
  rw [← conj_eq_iff_im]
  have hpad : pad len y = fun n => ((if n < len then y n else 0 : ℝ) : ℂ) := by
    funext m
    unfold pad
    split <;> simp
  have hlo := lo_pos hd hq hl
  apply idft_real
  · rw [if_neg (by push_cast; omega), hpad, dft_zero_real]
  · intro k hk0 hk
    have e : (((padlen len - k : ℕ)) : ℤ) = padlen len - k := by omega
    by_cases hz : loQ deltar qmax len ≤ (k : ℤ) ∧ (k : ℤ) < hiQ deltar qmax len
    · rw [if_pos hz, if_pos, map_zero]
      rw [e]
      unfold hiQ at *
      omega
    · rw [if_neg hz, if_neg, hpad, dft_conj _ hk0 hk.le]
      rw [e]
      unfold hiQ at *
      omega

/-- The spectrum of the filtered buffer: frequency `k` (which stands for `-(padlen-k)` in the upper half) is removed
exactly when Qmax is at most `k dQ` and at most `(padlen-k) dQ`; the others are unchanged. `_partial`: `dQ` is the step of the code, not
that of the transform. -/
theorem spectrum_partial (y : ℕ → ℝ) (x : ℕ → ℂ) (h : filtered deltar qmax len y = some x) (k : ℕ) (hk : k < padlen len) :
    dft (padlen len) x k = if qmax ≤ k * dQ deltar len ∧ qmax ≤ ((padlen len : ℝ) - k) * dQ deltar len then 0
      else dft (padlen len) (pad len y) k := by
  rw [filtered_eq hd hq hl, Option.some.injEq] at h
  subst h
  rw [dft_idft _ hk]
  have hQ := dQ_pos hd hl
  have e1 : loQ deltar qmax len ≤ (k : ℤ) ↔ qmax ≤ k * dQ deltar len := by
    unfold loQ
    rw [Int.ceil_le, div_le_iff₀ hQ]
    push_cast
    rfl
  have e2 : (k : ℤ) < hiQ deltar qmax len ↔ qmax ≤ ((padlen len : ℝ) - k) * dQ deltar len := by
    have : (k : ℤ) < hiQ deltar qmax len ↔ loQ deltar qmax len ≤ (padlen len : ℤ) - k := by unfold hiQ; omega
    rw [this]
    unfold loQ
    rw [Int.ceil_le, div_le_iff₀ hQ]
    push_cast
    rfl
  simp only [e1, e2]

/-- Filtering the buffer a second time changes nothing. -/
theorem projection (y : ℕ → ℝ) (x : ℕ → ℂ) (h : filtered deltar qmax len y = some x) :
    (zeroed (padlen len) (loQ deltar qmax len) (hiQ deltar qmax len) (dft (padlen len) x)).map (idft (padlen len)) = some x := by
  rw [filtered_eq hd hq hl, Option.some.injEq] at h
  subst h
  unfold zeroed
  rw [if_pos (in_range hd hq hl)]
  simp only [Option.map_some, Option.some.injEq]
  funext n
  apply idft_congr
  intro k hk
  rw [dft_idft _ hk]
  split <;> rfl

/-- With Qmax above half of the padded grid (in the step of the code) nothing changes. -/
theorem above_nyquist (hn : (padlen len : ℝ) / 2 * dQ deltar len < qmax) (y : ℕ → ℝ) :
    applyQmaxCutoff deltar qmax len y = some y := by
  unfold applyQmaxCutoff
  rw [filtered_eq hd hq hl]
  simp only [Option.map_some, Option.some.injEq]
  obtain ⟨m, hm, hm0, hlm⟩ := padlen_even len hl
  have hlo : (m : ℤ) < loQ deltar qmax len := by
    unfold loQ
    rw [Int.lt_ceil, lt_div_iff₀ (dQ_pos hd hl)]
    rw [hm] at hn
    push_cast at hn ⊢
    linarith
  funext n
  by_cases h : n < len
  · rw [if_pos h]
    have : (fun k : ℕ => if loQ deltar qmax len ≤ (k : ℤ) ∧ (k : ℤ) < hiQ deltar qmax len then 0 else
        dft (padlen len) (pad len y) k) = dft (padlen len) (pad len y) := by
      funext k
      rw [if_neg]
      unfold hiQ
      rw [hm]
      push_cast
      omega
    rw [this, idft_dft _ (by omega), pad, if_pos h, ofReal_re]
  · rw [if_neg h]

end

/-- Violation: with a step of 1 and four points in the buffer, Qmax = 2π/3 removes the frequency 2π/4, although it is
below Qmax. -/
theorem removes_below : ∃ (y : ℕ → ℝ) (x : ℕ → ℂ), filtered 1 (2 * Real.pi / 3) 2 y = some x ∧
    2 * Real.pi * (1 : ℕ) / (padlen 2 * 1) < 2 * Real.pi / 3 ∧ dft (padlen 2) (pad 2 y) 1 ≠ 0 ∧ dft (padlen 2) x 1 = 0 := by
  have hpi := Real.pi_pos
  have hq : 0 < 2 * Real.pi / 3 := by positivity
  have hp : padlen 2 = 4 := by decide +kernel
  have hQ : dQ 1 2 = 2 * Real.pi / 3 := by unfold dQ; rw [hp]; norm_num
  refine ⟨fun n => if n = 0 then 1 else 0, _, filtered_eq one_pos hq (by norm_num) _, ?_, ?_, ?_⟩
  · rw [hp]; push_cast; rw [div_lt_div_iff₀ (by norm_num) (by norm_num)]; linarith
  · rw [hp]
    unfold dft pad
    simp [Finset.sum_range_succ]
  · rw [spectrum_partial one_pos hq (by norm_num : 0 < 2) _ _ (filtered_eq one_pos hq (by norm_num) _) 1 (by rw [hp]; norm_num)]
    rw [if_pos]
    rw [hQ, hp]
    push_cast
    constructor <;> linarith

/-- The cutoff of all but the constant frequency leaves the mean of the padded curve. -/
example : ∃ z, applyQmaxCutoff 1 (Real.pi / 3) 2 (fun n => if n = 0 then 1 else 0) = some z ∧ z 0 = 1 / 4 := by
  have hpi := Real.pi_pos
  have hq : 0 < Real.pi / 3 := by positivity
  have hp : padlen 2 = 4 := by decide +kernel
  have hQ : dQ 1 2 = 2 * Real.pi / 3 := by unfold dQ; rw [hp]; norm_num
  have hlo : loQ 1 (Real.pi / 3) 2 = 1 := by
    unfold loQ
    rw [hQ, Int.ceil_eq_iff]
    constructor
    · push_cast; norm_num; positivity
    · rw [div_le_iff₀ (by positivity)]; push_cast; linarith
  have hhi : hiQ 1 (Real.pi / 3) 2 = 4 := by unfold hiQ; rw [hlo, hp]; norm_num
  unfold applyQmaxCutoff
  rw [filtered_eq one_pos hq (by norm_num)]
  refine ⟨_, rfl, ?_⟩
  dsimp only
  rw [if_pos (by norm_num), hlo, hhi, hp]
  unfold idft
  simp [Finset.sum_range_succ, dft, pad]

end Pdffit.C42
