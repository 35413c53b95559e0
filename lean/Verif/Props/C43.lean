import Verif.Lemmas.DetDemo
import Mathlib.Analysis.Calculus.Deriv.Inv
import Mathlib.Analysis.Calculus.Deriv.Pow
import Mathlib.Analysis.Calculus.Deriv.Mul
import Mathlib.Analysis.Calculus.Deriv.Add

/-!
# C43: the particle shape factors are proper envelopes

"Beyond spdiameter or stepcut the contribution of the phase is zero" holds for the calculated curve before the termination
filter, which the program applies last (`beyond`, and `beyond_total` for data without Qmax).
-/

namespace Pdffit.C43
open Shape Det

theorem poly (x : ℝ) : 1 - 3 / 2 * x + 1 / 2 * x ^ 3 = (1 - x) ^ 2 * (1 + x / 2) := by ring

theorem bounds (r d : ℝ) (hr : 0 ≤ r) (hd : 0 < d) : 0 ≤ sphereEnvelope r d ∧ sphereEnvelope r d ≤ 1 := by
  unfold sphereEnvelope
  split
  · rename_i h
    have hx : 0 ≤ r / d := div_nonneg hr hd.le
    constructor
    · rw [poly]; positivity
    · nlinarith [mul_nonneg hx hx]
  · exact ⟨le_rfl, zero_le_one⟩

theorem at_zero (d : ℝ) : sphereEnvelope 0 d = 1 := by
  unfold sphereEnvelope
  norm_num

theorem vanishes (r d : ℝ) (hd : 0 < d) (h : d ≤ r) : sphereEnvelope r d = 0 := by
  unfold sphereEnvelope
  rw [if_neg (not_lt.2 ((one_le_div hd).2 h))]

theorem positive (r d : ℝ) (hr : 0 ≤ r) (hd : 0 < d) (h : r < d) : 0 < sphereEnvelope r d := by
  unfold sphereEnvelope
  have hx : 0 ≤ r / d := div_nonneg hr hd.le
  have h1 : r / d < 1 := (div_lt_one hd).2 h
  rw [if_pos h1, poly]
  have : 0 < 1 - r / d := by linarith
  positivity

/-- Strictly decreasing up to the diameter. -/
theorem decreasing (r r' d : ℝ) (hr : 0 ≤ r) (hd : 0 < d) (h : r < r') (hl : r < d) :
    sphereEnvelope r' d < sphereEnvelope r d := by
  rcases lt_or_ge r' d with h' | h'
  · unfold sphereEnvelope
    have hx : 0 ≤ r / d := div_nonneg hr hd.le
    have h1 : r' / d < 1 := (div_lt_one hd).2 h'
    have h2 : r / d < r' / d := (div_lt_div_iff_of_pos_right hd).2 h
    rw [if_pos h1, if_pos (h2.trans h1)]
    set x := r / d
    set y := r' / d
    have : (1 - 3 / 2 * x + 1 / 2 * x ^ 3) - (1 - 3 / 2 * y + 1 / 2 * y ^ 3) =
        (y - x) / 2 * (3 - (x ^ 2 + x * y + y ^ 2)) := by ring
    have p : 0 < 3 - (x ^ 2 + x * y + y ^ 2) := by nlinarith
    have q : 0 < (y - x) / 2 := by linarith
    nlinarith [mul_pos q p]
  · rw [vanishes r' d hd h']
    exact positive r d hr hd hl

theorem antitone (r r' d : ℝ) (hr : 0 ≤ r) (hd : 0 < d) (h : r ≤ r') : sphereEnvelope r' d ≤ sphereEnvelope r d := by
  rcases h.eq_or_lt with rfl | h
  · exact le_rfl
  · rcases lt_or_ge r d with hl | hl
    · exact (decreasing r r' d hr hd h hl).le
    · rw [vanishes r' d hd (hl.trans h.le), vanishes r d hd hl]

theorem poly_deriv (r d : ℝ) (hd : d ≠ 0) : HasDerivAt (fun d => 1 - 3 / 2 * (r / d) + 1 / 2 * (r / d) ^ 3)
    (3 / 2 * (r / d) / d - 3 / 2 * (r / d) ^ 3 / d) d := by
  have h1 : HasDerivAt (fun d : ℝ => r / d) (-r / d ^ 2) d := by
    have := (hasDerivAt_inv hd).const_mul r
    have e : (fun d : ℝ => r / d) = fun d => r * d⁻¹ := by funext d; rw [div_eq_mul_inv]
    rw [e]
    exact this.congr_deriv (by rw [neg_div, div_eq_mul_inv, mul_neg])
  have h2 := ((h1.const_mul (3 / 2)).const_sub 1).add ((h1.pow 3).const_mul (1 / 2))
  refine HasDerivAt.congr_deriv (f' := -(3 / 2 * (-r / d ^ 2)) + 1 / 2 * (((3 : ℕ) : ℝ) * (r / d) ^ (3 - 1) * (-r / d ^ 2))) h2 ?_
  push_cast
  field_simp
  ring

/-- The reported derivative is the derivative, also at `d = r` where the formula changes. -/
theorem derivative (r d : ℝ) (hd : 0 < d) : HasDerivAt (sphereEnvelope r) (dsphereEnvelope r d) d := by
  have hp := poly_deriv r d hd.ne'
  rcases lt_trichotomy r d with h | h | h
  · have e : sphereEnvelope r =ᶠ[nhds d] fun d => 1 - 3 / 2 * (r / d) + 1 / 2 * (r / d) ^ 3 := by
      filter_upwards [lt_mem_nhds h, lt_mem_nhds hd] with x hx hx0
      unfold sphereEnvelope
      rw [if_pos ((div_lt_one hx0).2 hx)]
    unfold dsphereEnvelope
    rw [if_pos ((div_lt_one hd).2 h)]
    exact hp.congr_of_eventuallyEq e
  · subst h
    have h1 : r / r = 1 := div_self hd.ne'
    have h0 : dsphereEnvelope r r = 0 := by unfold dsphereEnvelope; rw [h1, if_neg (lt_irrefl _)]
    have hv : sphereEnvelope r r = 0 := vanishes r r hd le_rfl
    rw [h1] at hp
    rw [h0, hasDerivAt_iff_isLittleO]
    have hp' : HasDerivAt (fun d => 1 - 3 / 2 * (r / d) + 1 / 2 * (r / d) ^ 3) 0 r := by
      exact hp.congr_deriv (by ring)
    rw [hasDerivAt_iff_isLittleO] at hp'
    refine Asymptotics.IsBigO.trans_isLittleO ?_ hp'
    apply Asymptotics.IsBigO.of_bound 1
    filter_upwards [lt_mem_nhds hd] with x hx0
    rw [hv, h1]
    simp only [smul_zero, sub_zero, one_mul]
    norm_num
    unfold sphereEnvelope
    split
    · norm_num
    · simp only [abs_zero]; exact abs_nonneg _
  · have e : sphereEnvelope r =ᶠ[nhds d] fun _ => 0 := by
      filter_upwards [gt_mem_nhds h, lt_mem_nhds hd] with x hx hx0
      exact vanishes r x hx0 hx.le
    have h0 : dsphereEnvelope r d = 0 := by
      unfold dsphereEnvelope
      rw [if_neg (not_lt.2 ((one_le_div hd).2 h.le))]
    rw [h0]
    exact (hasDerivAt_const d (0 : ℝ)).congr_of_eventuallyEq e

/-- Beyond the diameter or the step cut the phase contributes nothing. -/
theorem beyond (D : Data) (ph : PPhase) (s : Sel) (f : ℤ → ℝ) (h : phaseCalc D ph s = .ok (some f)) (i : ℤ)
    (hi : (0 < ph.spdiameter ∧ ph.spdiameter ≤ D.r i) ∨ (0 < ph.stepcut ∧ ph.stepcut < D.r i)) : f i = 0 := by
  unfold phaseCalc at h
  rw [Res.bind_eq_ok] at h
  obtain ⟨p, -, h⟩ := h
  split at h
  · simp at h
  simp only [Res.ok.injEq] at h
  split at h
  · simp at h
  simp only [Option.some.injEq] at h
  subst h
  unfold calcAt envelope
  rcases hi with ⟨h1, h2⟩ | ⟨h1, h2⟩
  · rw [if_pos h1, vanishes _ _ h1 h2]; ring
  · rw [if_pos h1, if_neg (not_le.2 h2)]; ring

/-- Without Qmax this holds for the final curve. -/
theorem beyond_total (D : Data) (hq : ¬0 < D.qmax) (ph : PPhase) (s : Sel) (f : ℤ → ℝ)
    (h : determine D [some (ph, s)] = .ok (some f)) (i : ℤ)
    (hi : (0 < ph.spdiameter ∧ ph.spdiameter ≤ D.r i) ∨ (0 < ph.stepcut ∧ ph.stepcut < D.r i)) : f i = 0 := by
  unfold determine at h
  rw [Res.bind_eq_ok] at h
  obtain ⟨t, ht, h⟩ := h
  rw [if_neg hq] at h
  simp only [Res.ok.injEq] at h
  subst h
  rw [total, Res.bind_eq_ok] at ht
  obtain ⟨c, hc, ht⟩ := ht
  rw [total, Res.bind_ok] at ht
  simp only [Res.ok.injEq] at ht
  cases c with
  | none => simp at ht
  | some c =>
    simp only [Option.bind_some, Option.map_some, Option.some.injEq] at ht
    subst ht
    dsimp only
    rw [beyond D ph s c hc i hi]
    ring

example : sphereEnvelope 1 2 = 5 / 16 ∧ dsphereEnvelope 1 2 = 9 / 32 ∧ HasDerivAt (sphereEnvelope 1) (9 / 32) 2 := by
  have h : dsphereEnvelope 1 2 = 9 / 32 := by norm_num [dsphereEnvelope]
  refine ⟨by norm_num [sphereEnvelope], h, ?_⟩
  rw [← h]
  exact derivative 1 2 two_pos

end Pdffit.C43
