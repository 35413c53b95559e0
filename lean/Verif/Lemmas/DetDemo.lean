import Verif.Lemmas.Determine

/-! # A concrete structure and data set for the examples about the calculated PDF -/

namespace Pdffit.Det
open Geom Parser Bonds

/-- With diagonal non-negative displacement parameters and no `rcut` every peak is a number. -/
theorem event_ne_nan (D : Data) (ph : PPhase) (a b : PAtom) (T : ℤ × ℤ × ℤ)
    (ha : (∀ i, 0 ≤ a.u i) ∧ a.u 3 = 0 ∧ a.u 4 = 0 ∧ a.u 5 = 0) (hb : (∀ i, 0 ≤ b.u i) ∧ b.u 3 = 0 ∧ b.u 4 = 0 ∧ b.u 5 = 0)
    (hr : ph.rcut ≤ 0) : event D ph a b T ≠ .nan := by
  have hm : ∀ v, 0 ≤ ph.msd a b v := by
    intro v
    unfold PPhase.msd
    dsimp only
    rw [ha.2.1, ha.2.2.1, ha.2.2.2, hb.2.1, hb.2.2.1, hb.2.2.2]
    have q : ∀ (i : Fin 6) (x y : ℝ), 0 ≤ (a.u i + b.u i) * x * x * y * y := fun i x y => by
      have : (a.u i + b.u i) * x * x * y * y = (a.u i + b.u i) * (x * y) ^ 2 := by ring
      rw [this]
      exact mul_nonneg (add_nonneg (ha.1 i) (hb.1 i)) (sq_nonneg _)
    simp only [add_zero, mul_zero, zero_mul]
    exact add_nonneg (add_nonneg (q 0 _ _) (q 1 _ _)) (q 2 _ _)
  unfold event
  dsimp only
  split
  · simp
  · rw [if_neg (not_lt.2 (hm _))]
    split
    · simp
    · split
      · simp
      · rename_i h1 h2
        rw [if_neg]
        · simp
        · unfold sigma
          rw [if_neg (by have := Real.sqrt_nonneg (ph.toPhs.skal (dd ph a b T) (dd ph a b T)); linarith)]
          rw [not_le] at h1 h2
          exact (mul_pos h1 (Real.sqrt_pos.2 h2)).ne'

/-- Two atoms in a cubic cell. -/
noncomputable def demo : PPhase where
  cell := ⟨![3, 3, 3], ![90, 90, 90]⟩
  icc := ![1, 1, 1]
  atom := [⟨![0, 0, 0], 1, ![1 / 100, 1 / 100, 1 / 100, 0, 0, 0], 1⟩,
    ⟨![1 / 2, 1 / 2, 1 / 2], 1, ![1 / 50, 1 / 50, 1 / 50, 0, 0, 0], 3⟩]
  delta2 := 0
  delta1 := 0
  rcut := 0
  sratio := 1
  stepcut := 0
  spdiameter := 0
  pscale := 2

noncomputable def demoD (qmax : ℝ) : Data := ⟨1, 1 / 2, 1, 3, qmax, 1 / 100, 0, 5⟩

theorem demoD_ok (q : ℝ) : (demoD q).Ok := ⟨by norm_num [demoD], by norm_num [demoD], by norm_num [demoD]⟩

theorem demo_np : demo.np = 2 := by norm_num [PPhase.np, demo]
theorem demo_bavg : demo.bavg = 2 := by
  have : demo.bavg = (1 * 1 + (1 * 3 + 0)) / demo.np := rfl
  rw [this, demo_np]; norm_num

theorem demo_ncv : demo.ncv = 27 := by
  have hc : bcosd 90 = 0 := by
    unfold bcosd rad
    rw [show Real.pi / 180 * 90 = Real.pi / 2 by ring, Real.cos_pi_div_two]
  have : voll demo.cell = 1 := by simp [demo, voll, hc]
  unfold PPhase.ncv vol
  rw [this]
  simp [demo]
  norm_num

theorem demo_w0 : demo.weight 0 = 1 / 2 := by
  have : demo.weight 0 = 1 / demo.bavg := rfl
  rw [this, demo_bavg]

theorem demo_w1 : demo.weight 1 = 3 / 2 := by
  have : demo.weight 1 = 3 / demo.bavg := rfl
  rw [this, demo_bavg]

theorem demo_rtot : rtot demo = 4 := by
  have : rtot demo = 1 * demo.weight 0 * demo.weight 0 + (2 * demo.weight 0 * demo.weight 1 +
      (1 * demo.weight 1 * demo.weight 1 + 0)) := by
    unfold rtot half
    rw [show halfPairs demo.atom.length = [(0, 0), (0, 1), (1, 1)] from by decide +kernel]
    simp
  rw [this, demo_w0, demo_w1]; norm_num

theorem demo_atm (i : ℕ) : (∀ k, 0 ≤ (demo.atm i).u k) ∧ (demo.atm i).u 3 = 0 ∧ (demo.atm i).u 4 = 0 ∧ (demo.atm i).u 5 = 0 := by
  match i with
  | 0 => exact ⟨fun k => by fin_cases k <;> norm_num [PPhase.atm, demo], rfl, rfl, rfl⟩
  | 1 => exact ⟨fun k => by fin_cases k <;> norm_num [PPhase.atm, demo], rfl, rfl, rfl⟩
  | n + 2 => exact ⟨fun k => le_refl (0 : ℝ), rfl, rfl, rfl⟩

/-- The example gives numbers for every selection. -/
theorem demo_good (q : ℝ) (s : Sel) : ¬Bad (demoD q) demo s := by
  rintro (⟨x, -, h⟩ | h | h | h | h | ⟨i, h1, -, h⟩)
  · exact event_ne_nan _ _ _ _ _ (demo_atm _) (demo_atm _) le_rfl h
  · rw [demo_np] at h; norm_num at h
  · rw [demo_ncv] at h; norm_num at h
  · rw [demo_bavg] at h; norm_num at h
  · rw [demo_rtot] at h; norm_num at h
  · have h0 := (ncmin_nonneg (demoD_ok q)).trans h1
    have : (0 : ℝ) ≤ i := by exact_mod_cast h0
    unfold Data.r demoD at h
    dsimp only at h
    linarith

end Pdffit.Det
