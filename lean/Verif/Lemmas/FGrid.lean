import Verif.Model.FGrid
import Verif.Lemmas.Binary
import Mathlib.Tactic.Linarith
import Mathlib.Tactic.FieldSimp
import Mathlib.Tactic.Ring

/-! Rounding errors on the grid of a data set. -/

namespace Pdffit.FGrid
open Binary

theorem nint_eq {x : ℚ} {n : ℤ} (h : |x - n| < 1 / 2) : nint x = n := by
  rw [abs_lt] at h
  unfold nint
  split_ifs with h0
  · rw [Int.floor_eq_iff]; constructor <;> linarith
  · rw [Int.ceil_eq_iff]; constructor <;> linarith

theorem nint_mono {x y : ℚ} (h : x ≤ y) : nint x ≤ nint y := by
  unfold nint
  split_ifs with h0 h1 h1
  · exact Int.floor_le_floor (by linarith)
  · linarith
  · have a : ⌈x - 1 / 2⌉ ≤ 0 := Int.ceil_le.2 (by push_cast; linarith)
    have b : 0 ≤ ⌊y + 1 / 2⌋ := Int.floor_nonneg.2 (by linarith)
    omega
  · exact Int.ceil_le_ceil (by linarith)

theorem nint_near (x : ℚ) : |(nint x : ℚ) - x| ≤ 1 / 2 := by
  unfold nint
  rw [abs_le]
  split_ifs with h0
  · have h1 := Int.floor_le (x + 1 / 2)
    have h2 := Int.lt_floor_add_one (x + 1 / 2)
    constructor <;> linarith
  · have h1 := Int.le_ceil (x - 1 / 2)
    have h2 := Int.ceil_lt_add_one (x - 1 / 2)
    constructor <;> linarith

theorem rnd53_rel (x : ℚ) : ∃ δ : ℚ, |δ| ≤ 1 / 2 ^ 53 ∧ rnd53 x = x * (1 + δ) := by
  by_cases hx : x = 0
  · exact ⟨0, by norm_num, by rw [hx]; unfold rnd53; simp⟩
  · refine ⟨(rnd53 x - x) / x, ?_, by field_simp; ring⟩
    rw [abs_div, div_le_iff₀ (abs_pos.2 hx)]
    have := rnd53_err x
    linarith

theorem rnd53_nonneg {x : ℚ} (h : 0 ≤ x) : 0 ≤ rnd53 x := by
  have := rnd53_mono h
  have h0 : rnd53 0 = 0 := by unfold rnd53; simp
  rwa [h0] at this

theorem mul_err {u v A B : ℚ} (hu : |u| ≤ A) (hv : |v| ≤ B) : |(1 + u) * (1 + v) - 1| ≤ A + B + A * B := by
  have h0 : (1 + u) * (1 + v) - 1 = u + v + u * v := by ring
  rw [h0]
  have h1 := abs_add_le (u + v) (u * v)
  have h2 := abs_add_le u v
  have h3 : |u * v| ≤ A * B := by
    rw [abs_mul]
    exact mul_le_mul hu hv (abs_nonneg _) ((abs_nonneg _).trans hu)
  linarith

/-- The quotient of a length and its `n`-th part. -/
theorem part_err {x : ℚ} (hx : 0 < x) {n : ℚ} (hn : 0 < n) : |rnd53 (x / rnd53 (x / n)) - n| ≤ n / 2 ^ 51 := by
  obtain ⟨a, ha, h1⟩ := rnd53_rel (x / n)
  obtain ⟨b, hb, h2⟩ := rnd53_rel (x / rnd53 (x / n))
  rw [h2, h1]
  rw [abs_le] at ha hb
  have ha' : 0 < 1 + a := by norm_num at ha; linarith
  have : x / (x / n * (1 + a)) * (1 + b) - n = n * ((b - a) / (1 + a)) := by field_simp; ring
  rw [this, abs_mul, abs_of_pos hn, div_eq_mul_one_div n]
  refine mul_le_mul_of_nonneg_left ?_ hn.le
  rw [abs_div, abs_of_pos ha', div_le_iff₀ ha', abs_le]
  norm_num at ha hb ⊢
  constructor <;> linarith

theorem G.index_mono (g : G) (hd : 0 < g.deltar) {r s : ℚ} (h : r ≤ s) : g.index rnd53 r ≤ g.index rnd53 s := by
  unfold G.index
  refine nint_mono (rnd53_mono ?_)
  have := rnd53_mono (sub_le_sub_right h g.rmin)
  gcongr

theorem G.point_mono (g : G) (hd : 0 < g.deltar) {i j : ℤ} (h : i ≤ j) : g.point rnd53 i ≤ g.point rnd53 j := by
  unfold G.point
  refine rnd53_mono ?_
  have h' : (i : ℚ) ≤ j := by exact_mod_cast h
  have := rnd53_mono (mul_le_mul_of_nonneg_right h' hd.le)
  linarith

theorem G.index_point (g : G) (hd : 0 < g.deltar) {k : ℤ} (h0 : 0 ≤ k) (hk : k ≤ 2 ^ 31) (hm : |g.rmin| ≤ 2 ^ 50 * g.deltar) :
    g.index rnd53 (g.point rnd53 k) = k := by
  unfold G.index G.point
  obtain ⟨a, ha, h1⟩ := rnd53_rel (k * g.deltar)
  obtain ⟨b, hb, h2⟩ := rnd53_rel (rnd53 (k * g.deltar) + g.rmin)
  obtain ⟨c, hc, h3⟩ := rnd53_rel (rnd53 (rnd53 (k * g.deltar) + g.rmin) - g.rmin)
  obtain ⟨f, hf, h4⟩ := rnd53_rel (rnd53 (rnd53 (rnd53 (k * g.deltar) + g.rmin) - g.rmin) / g.deltar)
  apply nint_eq
  rw [h4, h3, h2, h1]
  set m := g.rmin / g.deltar with hmd
  have hr : g.rmin = m * g.deltar := by rw [hmd]; field_simp
  have hm' : |m| ≤ 2 ^ 50 := by
    rw [hmd, abs_div, abs_of_pos hd, div_le_iff₀ hd]; exact hm
  rw [hr]
  have e : ((k * g.deltar * (1 + a) + m * g.deltar) * (1 + b) - m * g.deltar) * (1 + c) / g.deltar * (1 + f) - k
      = k * ((1 + ((1 + a) * (1 + b) - 1)) * (1 + ((1 + c) * (1 + f) - 1)) - 1) + m * (b * (1 + ((1 + c) * (1 + f) - 1))) := by
    field_simp; ring
  rw [e]
  have h5 := mul_err ha hb
  have h6 := mul_err hc hf
  have h7 := mul_err h5 h6
  have h8 : |b * (1 + ((1 + c) * (1 + f) - 1))| ≤ 1 / 2 ^ 52 := by
    rw [abs_mul]
    have h9 : |1 + ((1 + c) * (1 + f) - 1)| ≤ 2 := by
      have := abs_add_le 1 ((1 + c) * (1 + f) - 1)
      rw [abs_one] at this
      norm_num at h6
      linarith
    calc |b| * _ ≤ 1 / 2 ^ 53 * 2 := mul_le_mul hb h9 (abs_nonneg _) (by norm_num)
      _ = 1 / 2 ^ 52 := by norm_num
  have hk' : |(k : ℚ)| ≤ 2 ^ 31 := by
    rw [abs_of_nonneg (by exact_mod_cast h0)]; exact_mod_cast hk
  refine lt_of_le_of_lt (abs_add_le _ _) ?_
  rw [abs_mul, abs_mul m]
  have t1 := mul_le_mul hk' h7 (abs_nonneg _) (by norm_num)
  have t2 := mul_le_mul hm' h8 (abs_nonneg _) (by norm_num)
  refine lt_of_le_of_lt (add_le_add t1 t2) ?_
  norm_num

end Pdffit.FGrid
