import Verif.Model.FAngle
import Verif.Lemmas.FGrid
import Mathlib.Algebra.BigOperators.Group.List.Basic
import Mathlib.Algebra.Order.BigOperators.Ring.Finset
import Mathlib.Analysis.InnerProductSpace.Basic

/-! Rounding errors of the argument of `acosd`. -/

namespace Pdffit.FAngle
open Binary FGrid

theorem isq_spec (q : ℚ) : ∀ b r : ℕ, (r : ℚ) ^ 2 ≤ q → q < (r + 2 ^ b) ^ 2 →
    ((isq q b r : ℕ) : ℚ) ^ 2 ≤ q ∧ q < ((isq q b r : ℕ) + 1) ^ 2
  | 0, r, h, k => by simpa [isq] using ⟨h, k⟩
  | b + 1, r, h, k => by
    unfold isq
    by_cases hc : (((r + 2 ^ b : ℕ) : ℚ)) ^ 2 ≤ q
    · rw [if_pos hc]
      refine isq_spec q b _ hc ?_
      push_cast
      rwa [show (r : ℚ) + 2 ^ b + 2 ^ b = r + 2 ^ (b + 1) by ring]
    · rw [if_neg hc]
      refine isq_spec q b _ h ?_
      push_cast at hc
      exact not_le.1 hc

theorem sqrt53_err {x : ℚ} (hx : 0 < x) : |(sqrt53 x : ℝ) - √(x : ℝ)| ≤ √(x : ℝ) / 2 ^ 53 := by
  unfold sqrt53
  rw [if_neg (not_le.2 hx)]
  dsimp only
  set e := ilog x / 2 with he
  set u := pow2 (e - 52) with hu
  have hup : 0 < u := pow2_pos _
  set q := x / u ^ 2 with hq
  obtain ⟨h1, h2⟩ := ilog_spec hx
  have hu2 : u ^ 2 = pow2 (2 * e - 104) := by
    rw [sq, hu, ← pow2_add]; congr 1; ring
  have hlo : (2 : ℚ) ^ 104 ≤ q := by
    rw [hq, le_div_iff₀ (by positivity), hu2]
    calc (2 : ℚ) ^ 104 * pow2 (2 * e - 104) = pow2 (2 * e) := by
          rw [show 2 * e = 104 + (2 * e - 104) by ring, pow2_add]
          rw [show (104 : ℤ) + (2 * e - 104) - 104 = 2 * e - 104 by ring]
          congr 1
      _ ≤ pow2 (ilog x) := pow2_mono (by omega)
      _ ≤ x := h1
  have hhi : q < (2 : ℚ) ^ 106 := by
    rw [hq, div_lt_iff₀ (by positivity), hu2]
    calc x < pow2 (ilog x + 1) := h2
      _ ≤ pow2 (2 * e + 2) := pow2_mono (by omega)
      _ = 2 ^ 106 * pow2 (2 * e - 104) := by
          rw [show 2 * e + 2 = 106 + (2 * e - 104) by ring, pow2_add]
          congr 1
  obtain ⟨f1, f2⟩ := isq_spec q 53 0 (by norm_num; linarith) (by norm_num at hhi ⊢; exact hhi)
  set f := isq q 53 0
  have hxq : √(x : ℝ) = √(q : ℝ) * u := by
    have : (x : ℝ) = q * (u : ℝ) ^ 2 := by
      have : x = q * u ^ 2 := by rw [hq]; field_simp
      exact_mod_cast this
    rw [this, Real.sqrt_mul' _ (by positivity), Real.sqrt_sq (by exact_mod_cast hup.le)]
  have g1 : (f : ℝ) ≤ √(q : ℝ) := Real.le_sqrt_of_sq_le (by exact_mod_cast f1)
  have g2 : √(q : ℝ) < f + 1 := by
    rw [Real.sqrt_lt' (by positivity)]; exact_mod_cast f2
  have g3 : (2 : ℝ) ^ 52 ≤ √(q : ℝ) := by
    refine Real.le_sqrt_of_sq_le ?_
    have : ((2 : ℝ) ^ 104) ≤ q := by exact_mod_cast hlo
    refine le_trans (le_of_eq ?_) this
    norm_num
  have huR : (0 : ℝ) < u := by exact_mod_cast hup
  rw [hxq]
  have key : ∀ z : ℝ, |z - √(q : ℝ)| ≤ 1 / 2 → |z * u - √(q : ℝ) * u| ≤ √(q : ℝ) * u / 2 ^ 53 := by
    intro z hz
    rw [← sub_mul, abs_mul, abs_of_pos huR, mul_div_right_comm]
    refine mul_le_mul_of_nonneg_right (hz.trans ?_) huR.le
    rw [le_div_iff₀ (by norm_num)]
    refine le_trans (le_of_eq ?_) g3
    norm_num
  split_ifs with hc
  · push_cast
    refine key _ ?_
    have : √(q : ℝ) < f + 1 / 2 := by
      rw [Real.sqrt_lt' (by positivity)]
      have : ((q : ℚ) : ℝ) < (((f : ℚ) + 1 / 2 : ℚ) : ℝ) ^ 2 := by exact_mod_cast hc
      simpa using this
    rw [abs_le]; constructor <;> linarith
  · push_cast
    refine key _ ?_
    have : (f : ℝ) + 1 / 2 ≤ √(q : ℝ) := by
      refine Real.le_sqrt_of_sq_le ?_
      have : (((f : ℚ) + 1 / 2 : ℚ) : ℝ) ^ 2 ≤ ((q : ℚ) : ℝ) := by exact_mod_cast not_lt.1 hc
      simpa using this
    rw [abs_le]; constructor <;> linarith

/-- The loop of `make_nearest` has at most two rounds: the third value is not less than `n`. -/
theorem loop_ends {x : ℚ} {n : ℕ} (hx : -(n : ℚ) < x) (hn : n ≤ 2 ^ 53) : (n : ℚ) ≤ rnd53 (rnd53 (x + n) + n) := by
  have h1 : 0 < rnd53 (x + n) := rnd53_pos (by linarith)
  have h2 : rnd53 (n : ℚ) = n := rnd53_fix ⟨n, 0, by rw [abs_of_nonneg (by positivity)]; exact_mod_cast hn, by simp [pow2]⟩
  have h3 := rnd53_mono (show (n : ℚ) ≤ rnd53 (x + n) + n by linarith)
  rwa [h2] at h3

/-- `2^-53` -/
def u : ℚ := 1 / 2 ^ 53

theorem u_pos : 0 < u := by unfold u; norm_num

theorem rnd_err (x : ℚ) : |rnd53 x - x| ≤ u * |x| := by
  have := rnd53_err x
  unfold u
  rw [div_mul_eq_mul_div, one_mul]; exact this

/-- The rounding of a value with an error. -/
theorem step_err {a b e s : ℚ} (h : |b - a| ≤ e * s) (hs : |a| ≤ s) : |rnd53 b - a| ≤ ((1 + u) * (1 + e) - 1) * s := by
  have h1 := rnd_err b
  have h2 : |b| ≤ e * s + s := by
    have := abs_add_le (b - a) a
    rw [sub_add_cancel] at this
    linarith
  have h3 : |rnd53 b - a| ≤ |rnd53 b - b| + |b - a| := by
    have := abs_add_le (rnd53 b - b) (b - a)
    rwa [sub_add_sub_cancel] at this
  have h4 := mul_le_mul_of_nonneg_left h2 u_pos.le
  have h5 : ((1 + u) * (1 + e) - 1) * s = u * (e * s + s) + e * s := by ring
  rw [h5]; linarith

theorem prod_err (a b c : ℚ) : |prod a b c - a * b * c| ≤ ((1 + u) ^ 2 - 1) * |a * b * c| := by
  unfold prod
  have h1 : |rnd53 (a * b) * c - a * b * c| ≤ u * |a * b * c| := by
    rw [← sub_mul, abs_mul, abs_mul (a * b) c, ← mul_assoc]
    exact mul_le_mul_of_nonneg_right (rnd_err _) (abs_nonneg _)
  have := step_err h1 le_rfl
  rwa [show (1 + u) ^ 2 - 1 = (1 + u) * (1 + u) - 1 by ring]

theorem sum_err {α : Type*} (v w : α → ℚ) (hw : ∀ p, |w p - v p| ≤ ((1 + u) ^ 2 - 1) * |v p|) :
    ∀ (l : List α) (n : ℕ) (s a t : ℚ), |s - a| ≤ ((1 + u) ^ (n + 2) - 1) * t → |a| ≤ t →
      |l.foldl (fun s p => rnd53 (s + w p)) s - (a + (l.map v).sum)| ≤
        ((1 + u) ^ (n + 2 + l.length) - 1) * (t + (l.map fun p => |v p|).sum) ∧
      |a + (l.map v).sum| ≤ t + (l.map fun p => |v p|).sum
  | [], n, s, a, t, h, ht => by simpa using ⟨h, ht⟩
  | p :: l, n, s, a, t, h, ht => by
    have hu1 : (1 : ℚ) ≤ 1 + u := by linarith [u_pos]
    have ht' : |a + v p| ≤ t + |v p| := (abs_add_le _ _).trans (by linarith)
    have hs : |s + w p - (a + v p)| ≤ ((1 + u) ^ (n + 2) - 1) * (t + |v p|) := by
      have h1 : |s + w p - (a + v p)| ≤ |s - a| + |w p - v p| := by
        have := abs_add_le (s - a) (w p - v p)
        rwa [show s - a + (w p - v p) = s + w p - (a + v p) by ring] at this
      have h2 : (1 + u) ^ 2 ≤ (1 + u) ^ (n + 2) := pow_le_pow_right₀ hu1 (by omega)
      have h3 : ((1 + u) ^ 2 - 1) * |v p| ≤ ((1 + u) ^ (n + 2) - 1) * |v p| :=
        mul_le_mul_of_nonneg_right (by linarith) (abs_nonneg _)
      rw [mul_add]
      linarith [hw p]
    have hr := step_err hs ht'
    rw [show (1 + u) * (1 + ((1 + u) ^ (n + 2) - 1)) - 1 = (1 + u) ^ (n + 1 + 2) - 1 by ring] at hr
    have := sum_err v w hw l (n + 1) _ _ _ hr ht'
    rw [List.foldl_cons, List.map_cons, List.map_cons, List.sum_cons, List.sum_cons, List.length_cons]
    rw [show n + 2 + (l.length + 1) = n + 1 + 2 + l.length by omega, ← add_assoc, ← add_assoc]
    exact this

/-- The exact scalar product. -/
def dot (g : Fin 3 → Fin 3 → ℚ) (h k : Fin 3 → ℚ) : ℚ := ∑ i, ∑ j, h i * k j * g i j

/-- The sum of the magnitudes of its terms. -/
def mag (g : Fin 3 → Fin 3 → ℚ) (h k : Fin 3 → ℚ) : ℚ := ∑ i, ∑ j, |h i * k j * g i j|

theorem skal_err (g : Fin 3 → Fin 3 → ℚ) (h k : Fin 3 → ℚ) : |skal g h k - dot g h k| ≤ 23 / 2 * u * mag g h k := by
  have := (sum_err (fun p : Fin 3 × Fin 3 => h p.1 * k p.2 * g p.1 p.2) (fun p => prod (h p.1) (k p.2) (g p.1 p.2))
    (fun p => prod_err _ _ _) ij 0 0 0 0 (by simp) (by simp)).1
  have e1 : (0 : ℚ) + (ij.map fun p : Fin 3 × Fin 3 => h p.1 * k p.2 * g p.1 p.2).sum = dot g h k := by
    unfold dot ij
    simp only [List.map_cons, List.map_nil, List.sum_cons, List.sum_nil, Fin.sum_univ_three]
    ring
  have e2 : (0 : ℚ) + (ij.map fun p : Fin 3 × Fin 3 => |h p.1 * k p.2 * g p.1 p.2|).sum = mag g h k := by
    unfold mag ij
    simp only [List.map_cons, List.map_nil, List.sum_cons, List.sum_nil, Fin.sum_univ_three]
    ring
  rw [e1, e2] at this
  refine this.trans (mul_le_mul_of_nonneg_right ?_ ?_)
  · unfold ij u; norm_num
  · unfold mag; positivity

/-- The two vectors have lengths, and no scalar product is small because of cancellation. -/
structure Well (g : Fin 3 → Fin 3 → ℚ) (κ : ℚ) (x y : Fin 3 → ℚ) : Prop where
  one : 1 ≤ κ
  le : κ ≤ 2 ^ 47
  px : 0 < dot g x x
  py : 0 < dot g y y
  mx : mag g x x ≤ κ * dot g x x
  my : mag g y y ≤ κ * dot g y y
  mxy : (mag g x y : ℝ) ≤ κ * (√(dot g x x : ℝ) * √(dot g y y : ℝ))

/-- The cosine of the angle between two vectors. -/
noncomputable def cosine (g : Fin 3 → Fin 3 → ℚ) (x y : Fin 3 → ℚ) : ℝ := dot g x y / (√(dot g x x : ℝ) * √(dot g y y : ℝ))

theorem rnd_rel (x : ℚ) : ∃ δ : ℝ, |δ| ≤ 1 / 2 ^ 53 ∧ (rnd53 x : ℝ) = x * (1 + δ) := by
  obtain ⟨d, h1, h2⟩ := rnd53_rel x
  have h3 : ((|d| : ℚ) : ℝ) ≤ ((1 / 2 ^ 53 : ℚ) : ℝ) := Rat.cast_le.2 h1
  push_cast at h3
  exact ⟨d, h3, by exact_mod_cast h2⟩

theorem sqrt_rel {x : ℚ} (hx : 0 < x) : ∃ δ : ℝ, |δ| ≤ 1 / 2 ^ 53 ∧ (sqrt53 x : ℝ) = √(x : ℝ) * (1 + δ) := by
  have hp : 0 < √(x : ℝ) := Real.sqrt_pos.2 (by exact_mod_cast hx)
  refine ⟨(sqrt53 x - √(x : ℝ)) / √(x : ℝ), ?_, by field_simp; ring⟩
  rw [abs_div, abs_of_pos hp, div_le_iff₀ hp]
  have := sqrt53_err hx
  linarith

theorem skal_self {g : Fin 3 → Fin 3 → ℚ} {κ : ℚ} {x : Fin 3 → ℚ} (hm : mag g x x ≤ κ * dot g x x) :
    |(skal g x x : ℝ) - dot g x x| ≤ 23 / 2 * (κ / 2 ^ 53) * dot g x x := by
  have h := skal_err g x x
  have h2 : 23 / 2 * u * mag g x x ≤ 23 / 2 * (κ / 2 ^ 53) * dot g x x := by
    have : 23 / 2 * (κ / 2 ^ 53) * dot g x x = 23 / 2 * u * (κ * dot g x x) := by unfold u; ring
    rw [this]
    exact mul_le_mul_of_nonneg_left hm (by unfold u; norm_num)
  have h3 : ((|skal g x x - dot g x x| : ℚ) : ℝ) ≤ ((23 / 2 * (κ / 2 ^ 53) * dot g x x : ℚ) : ℝ) := Rat.cast_le.2 (h.trans h2)
  push_cast at h3
  exact h3

theorem triple {a b c : ℝ} (ha : |a| ≤ 1 / 2 ^ 53) (hb : |b| ≤ 1 / 2 ^ 53) (hc : |c| ≤ 1 / 2 ^ 53) :
    |(1 + a) * (1 + b) * (1 + c) - 1| ≤ 7 / 2 / 2 ^ 53 := by
  have h : (1 + a) * (1 + b) * (1 + c) - 1 = a + b + c + (a * b + a * c + b * c + a * b * c) := by ring
  have hab : |a * b| ≤ 1 / 2 ^ 53 * (1 / 2 ^ 53) := by rw [abs_mul]; exact mul_le_mul ha hb (abs_nonneg _) (by norm_num)
  have hac : |a * c| ≤ 1 / 2 ^ 53 * (1 / 2 ^ 53) := by rw [abs_mul]; exact mul_le_mul ha hc (abs_nonneg _) (by norm_num)
  have hbc : |b * c| ≤ 1 / 2 ^ 53 * (1 / 2 ^ 53) := by rw [abs_mul]; exact mul_le_mul hb hc (abs_nonneg _) (by norm_num)
  have habc : |a * b * c| ≤ 1 / 2 ^ 53 * (1 / 2 ^ 53) * (1 / 2 ^ 53) := by
    rw [abs_mul]; exact mul_le_mul hab hc (abs_nonneg _) (by norm_num)
  rw [abs_le] at *
  rw [h]
  obtain ⟨_, _⟩ := ha
  obtain ⟨_, _⟩ := hb
  obtain ⟨_, _⟩ := hc
  obtain ⟨_, _⟩ := hab
  obtain ⟨_, _⟩ := hac
  obtain ⟨_, _⟩ := hbc
  obtain ⟨_, _⟩ := habc
  norm_num at *
  constructor <;> linarith

set_option maxHeartbeats 1000000 in
theorem arg_err {g : Fin 3 → Fin 3 → ℚ} {κ : ℚ} {x y : Fin 3 → ℚ} (w : Well g κ x y) :
    ∃ a, arg g x y = some a ∧ |(a : ℝ) - cosine g x y| ≤ (1 + |cosine g x y|) * (κ / 2 ^ 48) := by
  obtain ⟨one, le, px, py, mx, my, mxy⟩ := w
  have hx := skal_self mx
  have hy := skal_self my
  have oneR : (1 : ℝ) ≤ κ := by exact_mod_cast one
  have leR : (κ : ℝ) ≤ 2 ^ 47 := by exact_mod_cast le
  have pxR : (0 : ℝ) < dot g x x := by exact_mod_cast px
  have pyR : (0 : ℝ) < dot g y y := by exact_mod_cast py
  set ε : ℝ := 23 / 2 * (κ / 2 ^ 53) with hε
  have hε0 : 0 ≤ ε := by rw [hε]; positivity
  have hε1 : ε ≤ 1 / 4 := by rw [hε]; norm_num at leR ⊢; linarith
  have hxy : |(skal g x y : ℝ) - dot g x y| ≤ ε * (√(dot g x x : ℝ) * √(dot g y y : ℝ)) := by
    have h3 : ((|skal g x y - dot g x y| : ℚ) : ℝ) ≤ ((23 / 2 * u * mag g x y : ℚ) : ℝ) := Rat.cast_le.2 (skal_err g x y)
    push_cast at h3
    refine h3.trans ?_
    have : ε * (√(dot g x x : ℝ) * √(dot g y y : ℝ)) = 23 / 2 * (u : ℝ) * (κ * (√(dot g x x : ℝ) * √(dot g y y : ℝ))) := by
      rw [hε]; unfold u; push_cast; ring
    rw [this]
    exact mul_le_mul_of_nonneg_left mxy (by unfold u; norm_num)
  set X := √(dot g x x : ℝ) * √(dot g y y : ℝ) with hX
  have hXp : 0 < X := mul_pos (Real.sqrt_pos.2 pxR) (Real.sqrt_pos.2 pyR)
  rw [abs_le] at hx hy
  have sxl : (1 - ε) * dot g x x ≤ skal g x x := by linarith [hx.1]
  have sxu : (skal g x x : ℝ) ≤ (1 + ε) * dot g x x := by linarith [hx.2]
  have syl : (1 - ε) * dot g y y ≤ skal g y y := by linarith [hy.1]
  have syu : (skal g y y : ℝ) ≤ (1 + ε) * dot g y y := by linarith [hy.2]
  have h1ε : 0 < 1 - ε := by linarith
  have sx0 : (0 : ℝ) < skal g x x := lt_of_lt_of_le (mul_pos h1ε pxR) sxl
  have sy0 : (0 : ℝ) < skal g y y := lt_of_lt_of_le (mul_pos h1ε pyR) syl
  set P := √(skal g x x : ℝ) * √(skal g y y : ℝ) with hP
  have hP1 : (1 - ε) * X ≤ P := by
    have : (1 - ε) * X = √((1 - ε) * dot g x x) * √((1 - ε) * dot g y y) := by
      rw [Real.sqrt_mul h1ε.le, Real.sqrt_mul h1ε.le, hX]
      have := Real.mul_self_sqrt h1ε.le
      linear_combination (-(√(dot g x x : ℝ) * √(dot g y y : ℝ))) * this
    rw [this]
    exact mul_le_mul (Real.sqrt_le_sqrt sxl) (Real.sqrt_le_sqrt syl) (Real.sqrt_nonneg _) (Real.sqrt_nonneg _)
  have hP2 : P ≤ (1 + ε) * X := by
    have h1 : 0 ≤ 1 + ε := by linarith
    have : (1 + ε) * X = √((1 + ε) * dot g x x) * √((1 + ε) * dot g y y) := by
      rw [Real.sqrt_mul h1, Real.sqrt_mul h1, hX]
      have := Real.mul_self_sqrt h1
      linear_combination (-(√(dot g x x : ℝ) * √(dot g y y : ℝ))) * this
    rw [this]
    exact mul_le_mul (Real.sqrt_le_sqrt sxu) (Real.sqrt_le_sqrt syu) (Real.sqrt_nonneg _) (Real.sqrt_nonneg _)
  obtain ⟨b1, hb1, e1⟩ := sqrt_rel (x := skal g x x) (by exact_mod_cast sx0)
  obtain ⟨b2, hb2, e2⟩ := sqrt_rel (x := skal g y y) (by exact_mod_cast sy0)
  obtain ⟨c, hc, e3⟩ := rnd_rel (sqrt53 (skal g x x) * sqrt53 (skal g y y))
  set D := rnd53 (sqrt53 (skal g x x) * sqrt53 (skal g y y)) with hD
  obtain ⟨d, hd, e4⟩ := rnd_rel (skal g x y / D)
  set G := (1 + b1) * (1 + b2) * (1 + c) with hG
  have hGe : |G - 1| ≤ 7 / 2 / 2 ^ 53 := triple hb1 hb2 hc
  have hDP : (D : ℝ) = P * G := by
    rw [e3]; push_cast; rw [e1, e2, hP, hG]; ring
  have hP0 : 0 < P := mul_pos (Real.sqrt_pos.2 sx0) (Real.sqrt_pos.2 sy0)
  set E : ℝ := κ / 2 ^ 49 with hE
  have hE0 : 0 < E := by rw [hE]; positivity
  have hE1 : E ≤ 1 / 4 := by rw [hE]; norm_num at leR ⊢; linarith
  have hF : |(D : ℝ) - X| ≤ E * X := by
    have h1 : |P - X| ≤ ε * X := by rw [abs_le]; constructor <;> linarith
    have h2 : |(D : ℝ) - X| ≤ P * |G - 1| + |P - X| := by
      have := abs_add_le (P * (G - 1)) (P - X)
      rw [abs_mul, abs_of_pos hP0] at this
      rwa [show P * (G - 1) + (P - X) = (D : ℝ) - X by rw [hDP]; ring] at this
    have h3 : P * |G - 1| ≤ 5 / 4 * X * (7 / 2 / 2 ^ 53) := by
      refine mul_le_mul ?_ hGe (abs_nonneg _) (by positivity)
      have := mul_le_mul_of_nonneg_right hε1 hXp.le
      linarith
    have h4 : 5 / 4 * X * (7 / 2 / 2 ^ 53) + ε * X ≤ E * X := by
      rw [show 5 / 4 * X * (7 / 2 / 2 ^ 53) + ε * X = (5 / 4 * (7 / 2 / 2 ^ 53) + ε) * X by ring]
      refine mul_le_mul_of_nonneg_right ?_ hXp.le
      rw [hε, hE]
      norm_num at oneR ⊢
      linarith
    linarith
  have hD0 : 3 / 4 * X ≤ D := by
    rw [abs_le] at hF
    have := mul_le_mul_of_nonneg_right hE1 hXp.le
    linarith [hF.1]
  have hDp : (0 : ℝ) < D := by linarith
  have hDn : D ≠ 0 := by intro h; rw [h] at hDp; norm_num at hDp
  refine ⟨rnd53 (skal g x y / D), by unfold arg; rw [← hD, if_neg hDn], ?_⟩
  rw [e4]
  push_cast
  have hcos : cosine g x y = dot g x y / X := rfl
  set q := cosine g x y with hq
  have hdq : (dot g x y : ℝ) = q * X := by rw [hcos]; field_simp
  rw [hdq] at hxy
  have hd' : |d| ≤ E / 16 := by
    refine hd.trans ?_
    rw [hE]
    norm_num at oneR ⊢
    linarith
  have hbig : |(skal g x y : ℝ) * (1 + d) - q * D| ≤ (1 + |q|) * (3 / 2 * E) * X := by
    have h1 : (skal g x y : ℝ) * (1 + d) - q * D = (skal g x y - q * X) * (1 + d) + q * (X - D) + q * X * d := by ring
    have h2 : |(skal g x y - q * X) * (1 + d)| ≤ E * X * (65 / 64) := by
      rw [abs_mul]
      refine mul_le_mul (hxy.trans (mul_le_mul_of_nonneg_right ?_ hXp.le)) ?_ (abs_nonneg _) (by positivity)
      · rw [hε, hE]
        norm_num at oneR ⊢
        linarith
      · rw [abs_le] at hd' ⊢
        constructor <;> linarith
    have h3 : |q * (X - D)| ≤ |q| * (E * X) := by
      rw [abs_mul]
      exact mul_le_mul_of_nonneg_left (by rwa [abs_sub_comm]) (abs_nonneg _)
    have h4 : |q * X * d| ≤ |q| * X * (E / 16) := by
      rw [abs_mul, abs_mul, abs_of_pos hXp]
      exact mul_le_mul_of_nonneg_left hd' (by positivity)
    rw [h1]
    refine (abs_add_three _ _ _).trans ?_
    have h5 : 0 ≤ |q| * (E * X) := by positivity
    have h6 : 0 ≤ E * X := by positivity
    have h7 : (1 + |q|) * (3 / 2 * E) * X = 3 / 2 * (E * X) + 3 / 2 * (|q| * (E * X)) := by ring
    have h8 : |q| * X * (E / 16) = 1 / 16 * (|q| * (E * X)) := by ring
    linarith
  have : (skal g x y : ℝ) / D * (1 + d) - q = (skal g x y * (1 + d) - q * D) / D := by field_simp
  rw [this, abs_div, abs_of_pos hDp, div_le_iff₀ hDp]
  refine hbig.trans ?_
  have h7 : (κ : ℝ) / 2 ^ 48 = 2 * E := by rw [hE]; ring
  rw [h7]
  have h8 : 0 ≤ (1 + |q|) * E := by positivity
  have := mul_le_mul_of_nonneg_left hD0 h8
  linarith

end Pdffit.FAngle
