import Verif.Model.Binary
import Mathlib.Tactic.Linarith
import Mathlib.Tactic.Positivity
import Mathlib.Tactic.FieldSimp
import Mathlib.Algebra.Group.Int.Even

/-! Rounding to 53 bits. -/

namespace Pdffit.Binary

theorem pow2_eq (e : ℤ) : pow2 e = (2 : ℚ) ^ e := by
  cases e with
  | ofNat n => simp [pow2]
  | negSucc n => simp [pow2, zpow_negSucc]

theorem pow2_pos (e : ℤ) : 0 < pow2 e := by rw [pow2_eq]; exact zpow_pos (by norm_num) e

theorem pow2_add (a b : ℤ) : pow2 (a + b) = pow2 a * pow2 b := by
  simp only [pow2_eq]; exact zpow_add₀ (by norm_num) _ _

theorem pow2_mono {a b : ℤ} (h : a ≤ b) : pow2 a ≤ pow2 b := by
  simp only [pow2_eq]; exact zpow_le_zpow_right₀ (by norm_num) h

theorem ilog_spec {x : ℚ} (hx : 0 < x) : pow2 (ilog x) ≤ x ∧ x < pow2 (ilog x + 1) := by
  have hn : x.num.natAbs ≠ 0 := by simpa using hx.ne'
  have hd : x.den ≠ 0 := x.den_nz
  have hxe : x = (x.num.natAbs : ℚ) / x.den := by
    have h0 : 0 < x.num := Rat.num_pos.2 hx
    have h1 : ((x.num.natAbs : ℕ) : ℚ) = x.num := by
      rw [← Int.cast_natCast, Int.natAbs_of_nonneg h0.le]
    rw [h1]
    exact (Rat.num_div_den x).symm
  have h1 : (2 ^ Nat.log2 x.num.natAbs : ℚ) ≤ x.num.natAbs := by exact_mod_cast Nat.log2_self_le hn
  have h2 : (x.num.natAbs : ℚ) < 2 ^ (Nat.log2 x.num.natAbs + 1) := by exact_mod_cast Nat.lt_log2_self
  have h3 : (2 ^ Nat.log2 x.den : ℚ) ≤ x.den := by exact_mod_cast Nat.log2_self_le hd
  have h4 : (x.den : ℚ) < 2 ^ (Nat.log2 x.den + 1) := by exact_mod_cast Nat.lt_log2_self
  have hdp : (0 : ℚ) < x.den := by exact_mod_cast Nat.pos_of_ne_zero hd
  set a := Nat.log2 x.num.natAbs
  set b := Nat.log2 x.den
  have hup : x < pow2 ((a : ℤ) - b + 1) := by
    have : pow2 ((a : ℤ) - b + 1) = 2 ^ (a + 1) / 2 ^ b := by
      rw [pow2_eq, show (a : ℤ) - b + 1 = ((a + 1 : ℕ) : ℤ) - (b : ℕ) by push_cast; ring, zpow_sub₀ (by norm_num), zpow_natCast, zpow_natCast]
    rw [this, hxe, div_lt_div_iff₀ hdp (by positivity)]
    calc (x.num.natAbs : ℚ) * 2 ^ b < 2 ^ (a + 1) * 2 ^ b := by gcongr
      _ ≤ 2 ^ (a + 1) * x.den := by gcongr
  have hlo : pow2 ((a : ℤ) - b - 1) ≤ x := by
    have : pow2 ((a : ℤ) - b - 1) = 2 ^ a / 2 ^ (b + 1) := by
      rw [pow2_eq, show (a : ℤ) - b - 1 = (a : ℕ) - ((b + 1 : ℕ) : ℤ) by push_cast; ring, zpow_sub₀ (by norm_num), zpow_natCast, zpow_natCast]
    rw [this, hxe, div_le_div_iff₀ (by positivity) hdp]
    calc (2 : ℚ) ^ a * x.den ≤ x.num.natAbs * x.den := by gcongr
      _ ≤ x.num.natAbs * 2 ^ (b + 1) := by gcongr
  unfold ilog
  dsimp only
  split_ifs with h
  · exact ⟨h, hup⟩
  · exact ⟨hlo, by rw [show (a : ℤ) - b - 1 + 1 = a - b by ring]; exact not_le.1 h⟩

theorem nearest_ge (y : ℚ) : ⌊y⌋ ≤ nearest y := by
  unfold nearest; dsimp only; split_ifs <;> omega

theorem nearest_le (y : ℚ) : nearest y ≤ ⌊y⌋ + 1 := by
  unfold nearest; dsimp only; split_ifs <;> omega

theorem nearest_mono {y z : ℚ} (h : y ≤ z) : nearest y ≤ nearest z := by
  rcases lt_or_eq_of_le (Int.floor_le_floor h) with hf | hf
  · exact (nearest_le y).trans (le_trans hf (nearest_ge z))
  · unfold nearest
    rw [hf]
    dsimp only
    split_ifs <;> first | omega | (exfalso; linarith)

theorem le_nearest {n : ℤ} {y : ℚ} (h : (n : ℚ) ≤ y) : n ≤ nearest y := (Int.le_floor.2 h).trans (nearest_ge y)

theorem nearest_le_of {n : ℤ} {y : ℚ} (h : y < n) : nearest y ≤ n := (nearest_le y).trans (Int.floor_lt.2 h)

theorem scaled {x : ℚ} (hx : 0 < x) : (2 : ℚ) ^ 52 ≤ x / pow2 (ilog x - 52) ∧ x / pow2 (ilog x - 52) < 2 ^ 53 := by
  obtain ⟨h1, h2⟩ := ilog_spec hx
  have hp := pow2_pos (ilog x - 52)
  have e1 : pow2 (ilog x) = 2 ^ 52 * pow2 (ilog x - 52) := by
    rw [show (2 : ℚ) ^ 52 = pow2 52 by norm_num [pow2_eq], ← pow2_add]; congr 1; ring
  have e2 : pow2 (ilog x + 1) = 2 ^ 53 * pow2 (ilog x - 52) := by
    rw [show (2 : ℚ) ^ 53 = pow2 53 by norm_num [pow2_eq], ← pow2_add]; congr 1; ring
  rw [e1] at h1
  rw [e2] at h2
  exact ⟨(le_div_iff₀ hp).2 h1, (div_lt_iff₀ hp).2 h2⟩

theorem rndPos_bounds {x : ℚ} (hx : 0 < x) : pow2 (ilog x) ≤ rndPos x ∧ rndPos x ≤ pow2 (ilog x + 1) := by
  obtain ⟨h1, h2⟩ := scaled hx
  have hp := pow2_pos (ilog x - 52)
  have e1 : pow2 (ilog x) = 2 ^ 52 * pow2 (ilog x - 52) := by
    rw [show (2 : ℚ) ^ 52 = pow2 52 by norm_num [pow2_eq], ← pow2_add]; congr 1; ring
  have e2 : pow2 (ilog x + 1) = 2 ^ 53 * pow2 (ilog x - 52) := by
    rw [show (2 : ℚ) ^ 53 = pow2 53 by norm_num [pow2_eq], ← pow2_add]; congr 1; ring
  have n1 : (2 ^ 52 : ℤ) ≤ nearest (x / pow2 (ilog x - 52)) := le_nearest (by push_cast; exact h1)
  have n2 : nearest (x / pow2 (ilog x - 52)) ≤ (2 ^ 53 : ℤ) := nearest_le_of (by push_cast; exact h2)
  have n1' : (2 : ℚ) ^ 52 ≤ nearest (x / pow2 (ilog x - 52)) := by exact_mod_cast n1
  have n2' : (nearest (x / pow2 (ilog x - 52)) : ℚ) ≤ 2 ^ 53 := by exact_mod_cast n2
  unfold rndPos
  dsimp only
  rw [e1, e2]
  exact ⟨mul_le_mul_of_nonneg_right n1' hp.le, mul_le_mul_of_nonneg_right n2' hp.le⟩

theorem rndPos_pos {x : ℚ} (hx : 0 < x) : 0 < rndPos x := lt_of_lt_of_le (pow2_pos _) (rndPos_bounds hx).1

theorem ilog_mono {x y : ℚ} (hx : 0 < x) (h : x ≤ y) : ilog x ≤ ilog y := by
  by_contra hc
  have h1 := (ilog_spec hx).1
  have h2 := (ilog_spec (lt_of_lt_of_le hx h)).2
  have h3 := pow2_mono (show ilog y + 1 ≤ ilog x by omega)
  linarith

theorem rndPos_mono {x y : ℚ} (hx : 0 < x) (h : x ≤ y) : rndPos x ≤ rndPos y := by
  have hy := lt_of_lt_of_le hx h
  rcases lt_or_eq_of_le (ilog_mono hx h) with hl | hl
  · exact (rndPos_bounds hx).2.trans ((pow2_mono (show ilog x + 1 ≤ ilog y by omega)).trans (rndPos_bounds hy).1)
  · unfold rndPos
    rw [hl]
    dsimp only
    have hp := pow2_pos (ilog y - 52)
    have := nearest_mono (div_le_div_of_nonneg_right h hp.le)
    exact mul_le_mul_of_nonneg_right (by exact_mod_cast this) hp.le

theorem rnd53_pos {x : ℚ} (hx : 0 < x) : 0 < rnd53 x := by
  unfold rnd53
  rw [if_neg hx.ne', if_pos hx]
  exact rndPos_pos hx

theorem rnd53_mono : Monotone rnd53 := by
  intro x y h
  unfold rnd53
  rcases lt_trichotomy x 0 with hx | hx | hx
  · rw [if_neg hx.ne, if_neg (not_lt.2 hx.le)]
    have hx' := rndPos_pos (neg_pos.2 hx)
    split_ifs with h1 h2
    · linarith
    · have := rndPos_pos h2; linarith
    · have hy : y < 0 := lt_of_le_of_ne (not_lt.1 h2) h1
      have := rndPos_mono (neg_pos.2 hy) (neg_le_neg h)
      linarith
  · rw [if_pos hx]
    split_ifs with h1 h2
    · exact le_refl _
    · exact (rndPos_pos h2).le
    · exact absurd (lt_of_le_of_ne (hx ▸ h) (Ne.symm h1)) h2
  · have hy := lt_of_lt_of_le hx h
    rw [if_neg hx.ne', if_pos hx, if_neg hy.ne', if_pos hy]
    exact rndPos_mono hx h

/-- The error of rounding is at most half a unit in the last place. -/
theorem rnd53_err (x : ℚ) : |rnd53 x - x| ≤ |x| / 2 ^ 53 := by
  have key : ∀ x : ℚ, 0 < x → |rndPos x - x| ≤ x / 2 ^ 53 := by
    intro x hx
    obtain ⟨h1, -⟩ := scaled hx
    have hp := pow2_pos (ilog x - 52)
    set u := pow2 (ilog x - 52)
    set y := x / u with hy
    have hxy : x = y * u := by rw [hy]; field_simp
    have hn : |(nearest y : ℚ) - y| ≤ 1 / 2 := by
      have f1 := Int.floor_le y
      have f2 := Int.lt_floor_add_one y
      unfold nearest
      dsimp only
      rw [abs_le]
      split_ifs <;> push_cast <;> constructor <;> linarith
    have hr : rndPos x = nearest y * u := rfl
    rw [hr, hxy, ← sub_mul, abs_mul, abs_of_pos hp]
    calc |(nearest y : ℚ) - y| * u ≤ 1 / 2 * u := by gcongr
      _ ≤ y * u / 2 ^ 53 := by
        rw [le_div_iff₀ (by positivity)]
        nlinarith
  unfold rnd53
  rcases lt_trichotomy x 0 with hx | hx | hx
  · rw [if_neg hx.ne, if_neg (not_lt.2 hx.le), abs_of_neg hx, ← abs_neg]
    have := key (-x) (neg_pos.2 hx)
    rw [show -(-rndPos (-x) - x) = rndPos (-x) - -x by ring]
    exact this
  · rw [if_pos hx, hx]; simp
  · rw [if_neg hx.ne', if_pos hx, abs_of_pos hx]
    exact key x hx

/-- A number with 53 bits. -/
def Is53 (y : ℚ) : Prop := ∃ m e : ℤ, |m| ≤ 2 ^ 53 ∧ y = m * pow2 e

theorem Is53.neg {y : ℚ} (h : Is53 y) : Is53 (-y) := by
  obtain ⟨m, e, h1, h2⟩ := h
  exact ⟨-m, e, by rw [abs_neg]; exact h1, by rw [h2]; push_cast; ring⟩

theorem nearest_best (y : ℚ) (k : ℤ) : |(nearest y : ℚ) - y| ≤ |(k : ℚ) - y| := by
  have f1 := Int.floor_le y
  have f2 := Int.lt_floor_add_one y
  rcases le_or_gt k ⌊y⌋ with hk | hk
  · have hk' : (k : ℚ) ≤ ⌊y⌋ := by exact_mod_cast hk
    rw [abs_of_nonpos (show (k : ℚ) - y ≤ 0 by linarith)]
    unfold nearest
    dsimp only
    split_ifs <;> push_cast <;> rw [abs_le] <;> constructor <;> linarith
  · have hk' : (⌊y⌋ : ℚ) + 1 ≤ k := by exact_mod_cast hk
    rw [abs_of_nonneg (show (0 : ℚ) ≤ k - y by linarith)]
    unfold nearest
    dsimp only
    split_ifs <;> push_cast <;> rw [abs_le] <;> constructor <;> linarith

theorem nearest_even (y : ℚ) (h : |(nearest y : ℚ) - y| = 1 / 2) : Even (nearest y) := by
  have f1 := Int.floor_le y
  have f2 := Int.lt_floor_add_one y
  revert h
  unfold nearest
  dsimp only
  split_ifs with h1 h2 h3
  · intro h; rw [abs_of_nonpos (by linarith)] at h; linarith
  · intro h; push_cast at h; rw [abs_of_nonneg (by linarith)] at h; linarith
  · intro _; exact Int.even_iff.2 h3
  · intro _; exact Int.even_iff.2 (by omega)

theorem rndPos_best {x : ℚ} (hx : 0 < x) {z : ℚ} (hz : Is53 z) : |rndPos x - x| ≤ |z - x| := by
  obtain ⟨m, e, hm, rfl⟩ := hz
  have hp := pow2_pos (ilog x - 52)
  have key : ∀ k : ℤ, |rndPos x - x| ≤ |(k : ℚ) * pow2 (ilog x - 52) - x| := by
    intro k
    have hr : rndPos x = nearest (x / pow2 (ilog x - 52)) * pow2 (ilog x - 52) := rfl
    have hxy : x = x / pow2 (ilog x - 52) * pow2 (ilog x - 52) := by field_simp
    rw [hr]
    conv_lhs => rw [show (nearest (x / pow2 (ilog x - 52)) : ℚ) * pow2 (ilog x - 52) - x =
      ((nearest (x / pow2 (ilog x - 52)) : ℚ) - x / pow2 (ilog x - 52)) * pow2 (ilog x - 52) by rw [sub_mul, ← hxy]]
    conv_rhs => rw [show (k : ℚ) * pow2 (ilog x - 52) - x = ((k : ℚ) - x / pow2 (ilog x - 52)) * pow2 (ilog x - 52) by rw [sub_mul, ← hxy]]
    rw [abs_mul, abs_mul]
    exact mul_le_mul_of_nonneg_right (nearest_best _ k) (abs_nonneg _)
  rcases le_or_gt (ilog x - 52) e with he | he
  · obtain ⟨n, hn⟩ := Int.eq_ofNat_of_zero_le (show 0 ≤ e - (ilog x - 52) by omega)
    have : (m : ℚ) * pow2 e = ((m * 2 ^ n : ℤ) : ℚ) * pow2 (ilog x - 52) := by
      rw [show e = (n : ℤ) + (ilog x - 52) by omega, pow2_add]
      push_cast
      rw [show pow2 (n : ℤ) = 2 ^ n by rw [pow2_eq, zpow_natCast]]
      ring
    rw [this]
    exact key _
  · have h1 := (ilog_spec hx).1
    have e1 : pow2 (ilog x) = ((2 ^ 52 : ℤ) : ℚ) * pow2 (ilog x - 52) := by
      rw [show ((2 ^ 52 : ℤ) : ℚ) = pow2 52 by norm_num [pow2_eq], ← pow2_add]; congr 1; ring
    have h2 := key (2 ^ 52)
    rw [← e1] at h2
    have h3 : (m : ℚ) * pow2 e ≤ pow2 (ilog x) := by
      have hm' : (m : ℚ) ≤ 2 ^ 53 := by exact_mod_cast (le_abs_self m).trans hm
      calc (m : ℚ) * pow2 e ≤ 2 ^ 53 * pow2 e := mul_le_mul_of_nonneg_right hm' (pow2_pos e).le
        _ = pow2 (53 + e) := by rw [pow2_add, show (2 : ℚ) ^ 53 = pow2 53 by norm_num [pow2_eq]]
        _ ≤ pow2 (ilog x) := pow2_mono (by omega)
    rw [abs_of_nonpos (show pow2 (ilog x) - x ≤ 0 by linarith)] at h2
    rw [abs_of_nonpos (show (m : ℚ) * pow2 e - x ≤ 0 by linarith)]
    linarith

theorem rndPos_form {x : ℚ} (hx : 0 < x) : ∃ m e : ℤ, rndPos x = m * pow2 e ∧ 2 ^ 52 ≤ |m| ∧ |m| ≤ 2 ^ 53 ∧ (|rndPos x - x| = pow2 e / 2 → Even m) := by
  obtain ⟨h1, h2⟩ := scaled hx
  have hp := pow2_pos (ilog x - 52)
  have n1 : (2 ^ 52 : ℤ) ≤ nearest (x / pow2 (ilog x - 52)) := le_nearest (by push_cast; exact h1)
  have n2 : nearest (x / pow2 (ilog x - 52)) ≤ (2 ^ 53 : ℤ) := nearest_le_of (by push_cast; exact h2)
  refine ⟨nearest (x / pow2 (ilog x - 52)), ilog x - 52, rfl, n1.trans (le_abs_self _), ?_, fun h => ?_⟩
  · rw [abs_of_nonneg (le_trans (by norm_num) n1)]; exact n2
  · apply nearest_even
    have hr : rndPos x = nearest (x / pow2 (ilog x - 52)) * pow2 (ilog x - 52) := rfl
    have hxy : x = x / pow2 (ilog x - 52) * pow2 (ilog x - 52) := by field_simp
    rw [hr, show (nearest (x / pow2 (ilog x - 52)) : ℚ) * pow2 (ilog x - 52) - x =
      ((nearest (x / pow2 (ilog x - 52)) : ℚ) - x / pow2 (ilog x - 52)) * pow2 (ilog x - 52) by rw [sub_mul, ← hxy], abs_mul, abs_of_pos hp] at h
    have := mul_right_cancel₀ hp.ne' (h.trans (by ring : pow2 (ilog x - 52) / 2 = 1 / 2 * pow2 (ilog x - 52)))
    exact this

/-- No number with 53 bits is nearer. -/
theorem rnd53_best (x : ℚ) {z : ℚ} (hz : Is53 z) : |rnd53 x - x| ≤ |z - x| := by
  unfold rnd53
  rcases lt_trichotomy x 0 with hx | hx | hx
  · rw [if_neg hx.ne, if_neg (not_lt.2 hx.le)]
    have := rndPos_best (neg_pos.2 hx) hz.neg
    rw [show -z - -x = -(z - x) by ring, abs_neg] at this
    rwa [← abs_neg, show -(-rndPos (-x) - x) = rndPos (-x) - -x by ring]
  · rw [if_pos hx, hx]; simp
  · rw [if_neg hx.ne', if_pos hx]
    exact rndPos_best hx hz

/-- 53 bits, and of two numbers equally near the one whose last bit is zero. -/
theorem rnd53_form (x : ℚ) (hx : x ≠ 0) : ∃ m e : ℤ, rnd53 x = m * pow2 e ∧ 2 ^ 52 ≤ |m| ∧ |m| ≤ 2 ^ 53 ∧ (|rnd53 x - x| = pow2 e / 2 → Even m) := by
  unfold rnd53
  rcases lt_or_gt_of_ne hx with hx | hx
  · rw [if_neg hx.ne, if_neg (not_lt.2 hx.le)]
    obtain ⟨m, e, h1, h2, h3, h4⟩ := rndPos_form (neg_pos.2 hx)
    refine ⟨-m, e, by rw [h1]; push_cast; ring, by rwa [abs_neg], by rwa [abs_neg], fun h => ?_⟩
    rw [even_neg]
    apply h4
    rw [← h, ← abs_neg]
    congr 1
    ring
  · rw [if_neg hx.ne', if_pos hx]
    exact rndPos_form hx

theorem rnd53_fix {x : ℚ} (hx : Is53 x) : rnd53 x = x := by
  have := rnd53_best x hx
  rw [sub_self, abs_zero] at this
  exact sub_eq_zero.1 (abs_nonpos_iff.1 this)

end Pdffit.Binary
