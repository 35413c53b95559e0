import Verif.Lemmas.FSphere
import Verif.Props.C18

/-! Error bounds for the computed numbers of the sequencer. -/

namespace Pdffit.FSphere
open Sphere (ints mem_ints)

/-- Every operation has the relative error `v`. -/
structure Rel (rnd sq : ℝ → ℝ) (v : ℝ) : Prop where
  rnd : ∀ x, |rnd x - x| ≤ v * |x|
  sq : ∀ x, 0 ≤ x → |sq x - √x| ≤ v * √x

section
variable {rnd sq : ℝ → ℝ} {v : ℝ} (H : Rel rnd sq v) (v0 : 0 < v) (v1 : v ≤ 1 / 1000)
include H v0 v1

/-- A computed half span. -/
noncomputable def half (rnd sq : ℝ → ℝ) (r q : ℝ) : ℝ := if 0 < r then rnd (rnd (sq r) * q) else 0

omit H v0 v1 in
theorem two_sided {a b t : ℝ} (h : |a - b| ≤ t) : b - t ≤ a ∧ a ≤ b + t := by
  have := abs_le.1 h
  constructor <;> linarith

theorem half_bounds {r q q' : ℝ} (hr : 0 < r) (hq : 0 < q) (hq' : |q' - q| ≤ v * q) :
    (1 - 5 * v) * √r * q ≤ half rnd sq r q' ∧ half rnd sq r q' ≤ (1 + 5 * v) * √r * q := by
  unfold half
  rw [if_pos hr]
  have hs : 0 < √r := Real.sqrt_pos.2 hr
  obtain ⟨a1, a2⟩ := two_sided (H.sq r hr.le)
  have p1 : 0 < sq r := by nlinarith
  have e1 := H.rnd (sq r)
  rw [abs_of_pos p1] at e1
  obtain ⟨b1, b2⟩ := two_sided e1
  have p2 : 0 < rnd (sq r) := by nlinarith
  obtain ⟨c1, c2⟩ := two_sided hq'
  have p3 : 0 < q' := by nlinarith
  have p4 := mul_pos p2 p3
  have e2 := H.rnd (rnd (sq r) * q')
  rw [abs_of_pos p4] at e2
  obtain ⟨d1, d2⟩ := two_sided e2
  have w : 0 ≤ 1 - v := by linarith
  -- lower bounds
  have l1 : (1 - v) * √r ≤ sq r := by linarith
  have l2 : (1 - v) * ((1 - v) * √r) ≤ rnd (sq r) := by
    have := mul_le_mul_of_nonneg_left l1 w
    linarith
  have l3 : (1 - v) * ((1 - v) * √r) * ((1 - v) * q) ≤ rnd (sq r) * q' :=
    mul_le_mul l2 (by linarith) (by positivity) p2.le
  have l4 : (1 - v) * ((1 - v) * ((1 - v) * √r) * ((1 - v) * q)) ≤ rnd (rnd (sq r) * q') := by
    have := mul_le_mul_of_nonneg_left l3 w
    linarith
  have u1 : sq r ≤ (1 + v) * √r := by linarith
  have u2 : rnd (sq r) ≤ (1 + v) * ((1 + v) * √r) := by
    have := mul_le_mul_of_nonneg_left u1 (by linarith : (0:ℝ) ≤ 1 + v)
    linarith
  have u3 : rnd (sq r) * q' ≤ (1 + v) * ((1 + v) * √r) * ((1 + v) * q) :=
    mul_le_mul u2 (by linarith) p3.le (by positivity)
  have u4 : rnd (rnd (sq r) * q') ≤ (1 + v) * ((1 + v) * ((1 + v) * √r) * ((1 + v) * q)) := by
    have := mul_le_mul_of_nonneg_left u3 (by linarith : (0:ℝ) ≤ 1 + v)
    linarith
  have k0 := mul_pos hs hq
  have t1 : 1 - 5 * v ≤ (1 - v) ^ 4 := by nlinarith [sq_nonneg v, mul_pos v0 v0]
  have t2 : (1 + v) ^ 4 ≤ 1 + 5 * v := by
    have h2 : v ^ 2 ≤ v / 1000 := by nlinarith
    have h3 : v ^ 3 ≤ v / 1000 := by nlinarith [mul_pos v0 v0]
    have h4 : v ^ 4 ≤ v / 1000 := by nlinarith [mul_pos v0 v0, pow_pos v0 3]
    nlinarith
  constructor
  · have := mul_le_mul_of_nonneg_right t1 k0.le
    nlinarith
  · have := mul_le_mul_of_nonneg_right t2 k0.le
    nlinarith

theorem half_nonneg {r q q' : ℝ} (hq : 0 < q) (hq' : |q' - q| ≤ v * q) : 0 ≤ half rnd sq r q' := by
  by_cases hr : 0 < r
  · refine le_trans ?_ (half_bounds H v0 v1 hr hq hq').1
    have : 0 ≤ 1 - 5 * v := by linarith
    positivity
  · unfold half
    rw [if_neg hr]

/-- Rounding up to the integer above. -/
theorem rnd_gt {y i g : ℝ} (hy : i + g ≤ y) (hg : v * |i| + v * g < g) : i < rnd y := by
  have h := (two_sided (H.rnd y)).1
  have g0 : 0 < g := by
    by_contra hn
    have : 0 ≤ v * |i| := by positivity
    nlinarith
  have a1 : |i + g| ≤ |i| + g := by
    have := abs_add_le i g
    rwa [abs_of_pos g0] at this
  have : (i + g) - v * |i + g| ≤ y - v * |y| := by
    have : |y| ≤ |i + g| + (y - (i + g)) := by
      have := abs_add_le (i + g) (y - (i + g))
      rwa [abs_of_nonneg (by linarith : (0:ℝ) ≤ y - (i + g)), show i + g + (y - (i + g)) = y by ring] at this
    have := mul_le_mul_of_nonneg_left this v0.le
    nlinarith
  have := mul_le_mul_of_nonneg_left a1 v0.le
  linarith

theorem rnd_lt {y i g : ℝ} (hy : y ≤ i - g) (hg : v * |i| + v * g < g) : rnd y < i := by
  have h := (two_sided (H.rnd y)).2
  have g0 : 0 < g := by
    by_contra hn
    have : 0 ≤ v * |i| := by positivity
    nlinarith
  have a1 : |i - g| ≤ |i| + g := by
    have := abs_sub i g
    rwa [abs_of_pos g0] at this
  have : y + v * |y| ≤ (i - g) + v * |i - g| := by
    have : |y| ≤ |i - g| + ((i - g) - y) := by
      have := abs_sub (i - g) ((i - g) - y)
      rwa [abs_of_nonneg (by linarith : (0:ℝ) ≤ (i - g) - y), show i - g - (i - g - y) = y by ring] at this
    have := mul_le_mul_of_nonneg_left this v0.le
    nlinarith
  have := mul_le_mul_of_nonneg_left a1 v0.le
  linarith

omit H in
/-- The slack that the rounding of a sum needs. -/
theorem slack {x i q A γ R G : ℝ} (hq : 0 < q) (hx : |x| ≤ G * q) (hA : |i - x| = A * q) (hAR : A ≤ R) (h0 : 0 ≤ G) (hR : 0 ≤ R)
    (hγ : 2 * v * (G + R) < γ) : v * |i| + v * (γ * q) < γ * q := by
  have a1 : |i| ≤ |x| + |i - x| := by
    have := abs_add_le x (i - x)
    rwa [show x + (i - x) = i by ring] at this
  have a2 : |i| ≤ (G + R) * q := by
    have := mul_le_mul_of_nonneg_right hAR hq.le
    rw [hA] at a1
    linarith
  have a3 := mul_le_mul_of_nonneg_left a2 v0.le
  have hγ0 : 0 < γ := lt_of_le_of_lt (by positivity) hγ
  have h1 : v * (G + R) + v * γ < γ := by
    have h3 : v * γ ≤ 1 / 1000 * γ := mul_le_mul_of_nonneg_right v1 hγ0.le
    linarith
  have h2 := mul_lt_mul_of_pos_right h1 hq
  linarith

/-- An integer well inside an interval is found inside. -/
theorem inside {x x' q q' r A E e R G : ℝ} {i : ℤ} (hq : 0 < q) (hq' : |q' - q| ≤ v * q) (hx : |x| ≤ G * q)
    (hx' : |x' - x| ≤ e * q) (hA : |(i : ℝ) - x| = A * q) (hA0 : 0 ≤ A) (hAR : A ≤ R) (h0 : 0 ≤ G) (hR : 0 < R)
    (he : 0 ≤ e) (hE : 2 * e + 24 * v * R + 4 * v * G < E) (hr : (A + E) ^ 2 ≤ r) :
    ⌊rnd (x' - half rnd sq r q')⌋ + 1 ≤ i ∧ i < ⌈rnd (x' + half rnd sq r q')⌉ := by
  have vR : 0 < v * R := by positivity
  have vG : 0 ≤ v * G := by positivity
  have E0 : 0 < E := by linarith
  have hr0 : 0 < r := lt_of_lt_of_le (by positivity) hr
  have hs : A + E ≤ √r := Real.le_sqrt_of_sq_le hr
  have hb2 : (1 - 5 * v) * (A + E) * q ≤ half rnd sq r q' := by
    refine le_trans ?_ (half_bounds H v0 v1 hr0 hq hq').1
    have : (1 - 5 * v) * (A + E) ≤ (1 - 5 * v) * √r := mul_le_mul_of_nonneg_left hs (by linarith)
    exact mul_le_mul_of_nonneg_right this hq.le
  obtain ⟨x1, x2⟩ := two_sided hx'
  obtain ⟨i1, i2⟩ := abs_le.1 hA.le
  have hAE : v * (A + E) ≤ v * R + E / 1000 := by
    have e1 := mul_le_mul_of_nonneg_left hAR v0.le
    have e2 := mul_le_mul_of_nonneg_right v1 E0.le
    linarith
  have sl := slack v0 v1 (γ := (1 - 5 * v) * (A + E) - A - e) hq hx hA hAR h0 hR.le (by linarith)
  rw [Int.add_one_le_iff, Int.floor_lt, Int.lt_ceil]
  exact ⟨rnd_lt H v0 v1 (by linarith) sl, rnd_gt H v0 v1 (by linarith) sl⟩

/-- An integer well outside a hole is not in it. -/
theorem outside {x x' q q' r B E e R G : ℝ} {i : ℤ} (hq : 0 < q) (hq' : |q' - q| ≤ v * q) (hx : |x| ≤ G * q)
    (hx' : |x' - x| ≤ e * q) (hB : |(i : ℝ) - x| = B * q) (hBR : B ≤ R) (h0 : 0 ≤ G) (hR : 0 < R)
    (he : 0 ≤ e) (hE : 2 * e + 24 * v * R + 4 * v * G < E) (hr0 : 0 < r) (hr : √r + E ≤ B) :
    i < ⌈rnd (x' - half rnd sq r q')⌉ ∨ ⌈rnd (x' + half rnd sq r q')⌉ ≤ i := by
  have vR : 0 < v * R := by positivity
  have vG : 0 ≤ v * G := by positivity
  have E0 : 0 < E := by linarith
  have hs0 := Real.sqrt_nonneg r
  have hb2 := (half_bounds H v0 v1 hr0 hq hq').2
  obtain ⟨x1, x2⟩ := two_sided hx'
  have hvs : v * √r ≤ v * R := mul_le_mul_of_nonneg_left (by linarith) v0.le
  have sl := slack v0 v1 (γ := B - (1 + 5 * v) * √r - e) hq hx hB hBR h0 hR.le (by linarith)
  rcases le_or_gt (i : ℝ) x with h | h
  · left
    rw [abs_of_nonpos (by linarith)] at hB
    rw [Int.lt_ceil]
    exact rnd_gt H v0 v1 (by linarith) sl
  · right
    rw [abs_of_pos (by linarith)] at hB
    rw [Int.ceil_le]
    exact (rnd_lt H v0 v1 (by linarith) sl).le

end

/-- The computed constants are close to the exact ones; `S` bounds how oblique the cell is. -/
structure Acc (rnd : ℝ → ℝ) (k : Sphere.Cst) (c : Cst ℝ) (v S : ℝ) : Prop where
  rmax2 : |c.rmax2 - k.rmax ^ 2| ≤ v * k.rmax ^ 2
  rmin2 : |c.rmin2 - k.rmin2| ≤ v * |k.rmin2|
  fix : rnd c.rmax2 = c.rmax2
  mHalf : |c.mHalf - k.rmax * k.lat.ar| ≤ v * (k.rmax * k.lat.ar)
  ar : |c.ar - k.lat.ar| ≤ v * k.lat.ar
  b2r : |c.b2r - k.b2r| ≤ v * k.b2r
  c1r : |c.c1r - k.c1r| ≤ v * k.c1r
  dn0dm : |c.dn0dm - k.dn0dm| * k.lat.ar ≤ v * (S * k.b2r)
  do0dm : |c.do0dm - k.do0dm| * k.lat.ar ≤ v * (S * k.c1r)
  do0dn : |c.do0dn - k.do0dn| * k.b2r ≤ v * (S * k.c1r)
  sn : |k.dn0dm| * k.lat.ar ≤ S * k.b2r
  so : |k.do0dm| * k.lat.ar ≤ S * k.c1r
  sl : |k.do0dn| * k.b2r ≤ S * k.c1r

/-- A computed product with an integer. -/
theorem prod_err {rnd sq : ℝ → ℝ} {v : ℝ} (H : Rel rnd sq v) (v0 : 0 < v) (v1 : v ≤ 1 / 1000) {m D d ar q S R : ℝ} (har : 0 < ar)
    (hR : 0 ≤ R) (hm : |m / ar| ≤ R) (h1 : |D - d| * ar ≤ v * (S * q)) (h2 : |d| * ar ≤ S * q) :
    |rnd (m * D) - m * d| ≤ 3 * v * (R * S * q) ∧ |m * d| ≤ R * S * q := by
  have em : |m| = |m / ar| * ar := by rw [abs_div, abs_of_pos har]; field_simp
  have hP : 0 ≤ S * q := le_trans (by positivity) h2
  have a1 : |m * D - m * d| ≤ v * (R * S * q) := by
    rw [← mul_sub, abs_mul, em]
    calc |m / ar| * ar * |D - d| = |m / ar| * (|D - d| * ar) := by ring
      _ ≤ R * (v * (S * q)) := mul_le_mul hm h1 (by positivity) hR
      _ = _ := by ring
  have a2 : |m * d| ≤ R * S * q := by
    rw [abs_mul, em]
    calc |m / ar| * ar * |d| = |m / ar| * (|d| * ar) := by ring
      _ ≤ R * (S * q) := mul_le_mul hm h2 (by positivity) hR
      _ = _ := by ring
  refine ⟨?_, a2⟩
  have P0 : 0 ≤ R * S * q := le_trans (abs_nonneg _) a2
  have a3 : |m * D| ≤ R * S * q + v * (R * S * q) := by
    have := abs_add_le (m * d) (m * D - m * d)
    rw [show m * d + (m * D - m * d) = m * D by ring] at this
    linarith
  have a4 := H.rnd (m * D)
  have a5 : v * |m * D| ≤ 2 * v * (R * S * q) := by
    have := mul_le_mul_of_nonneg_left a3 v0.le
    have hv : v * (v * (R * S * q)) ≤ 1 * (v * (R * S * q)) := mul_le_mul_of_nonneg_right (by linarith) (by positivity)
    linarith
  have := abs_add_le (rnd (m * D) - m * D) (m * D - m * d)
  rw [show rnd (m * D) - m * D + (m * D - m * d) = rnd (m * D) - m * d by ring] at this
  linarith

/-- A computed quotient. -/
theorem quot_err {rnd sq : ℝ → ℝ} {v : ℝ} (H : Rel rnd sq v) (v0 : 0 < v) (v1 : v ≤ 1 / 1000) {w a a' : ℝ} (ha : 0 < a)
    (h : |a' - a| ≤ v * a) : |rnd (w / a') - w / a| ≤ 3 * v * |w / a| := by
  obtain ⟨b1, b2⟩ := two_sided h
  have ha' : 0 < a' := by nlinarith
  have e : w / a' - w / a = (w / a) * ((a - a') / a') := by field_simp
  have h1 : |(a - a') / a'| ≤ 11 / 10 * v := by
    rw [abs_div, abs_of_pos ha', div_le_iff₀ ha', abs_sub_comm]
    refine le_trans h ?_
    have : v * (11 / 10 * (1 - v) * a) ≤ v * (11 / 10 * a') := mul_le_mul_of_nonneg_left (by nlinarith) v0.le
    have h3 : v * a ≤ v * (11 / 10 * (1 - v) * a) := mul_le_mul_of_nonneg_left (by nlinarith) v0.le
    linarith
  have a1 : |w / a' - w / a| ≤ 11 / 10 * v * |w / a| := by
    rw [e, abs_mul, mul_comm]
    exact mul_le_mul_of_nonneg_right h1 (abs_nonneg _)
  have a2 : |w / a'| ≤ |w / a| + 11 / 10 * v * |w / a| := by
    have := abs_add_le (w / a) (w / a' - w / a)
    rw [show w / a + (w / a' - w / a) = w / a' by ring] at this
    linarith
  have a3 := H.rnd (w / a')
  have a4 := mul_le_mul_of_nonneg_left a2 v0.le
  have a5 : v * (v * |w / a|) ≤ 1 / 1000 * (v * |w / a|) := mul_le_mul_of_nonneg_right v1 (by positivity)
  have := abs_add_le (rnd (w / a') - w / a') (w / a' - w / a)
  rw [show rnd (w / a') - w / a' + (w / a' - w / a) = rnd (w / a') - w / a by ring] at this
  have : 0 ≤ v * |w / a| := by positivity
  linarith

/-- A computed square. -/
theorem square_err {rnd sq : ℝ → ℝ} {v : ℝ} (H : Rel rnd sq v) (v0 : 0 < v) {x x' R t : ℝ} (hR : 0 ≤ R)
    (hx : |x| ≤ R) (h : |x' - x| ≤ t) (ht : t ≤ R) : |rnd (x' * x') - x ^ 2| ≤ 3 * t * R + 4 * v * R ^ 2 := by
  have t0 : 0 ≤ t := le_trans (abs_nonneg _) h
  have a0 : |x'| ≤ R + t := by
    have := abs_add_le x (x' - x)
    rw [show x + (x' - x) = x' by ring] at this
    linarith
  have a1 : |x' * x' - x ^ 2| ≤ 3 * t * R := by
    rw [show x' * x' - x ^ 2 = (x' - x) * (x' + x) by ring, abs_mul]
    have : |x' + x| ≤ 3 * R := by
      have := abs_add_le x' x
      linarith
    calc _ ≤ t * (3 * R) := mul_le_mul h this (abs_nonneg _) t0
      _ = _ := by ring
  have a2 : |x' * x'| ≤ 4 * R ^ 2 := by
    rw [abs_mul]
    have : |x'| ≤ 2 * R := by linarith
    calc _ ≤ (2 * R) * (2 * R) := mul_le_mul this this (abs_nonneg _) (by positivity)
      _ = _ := by ring
  have a3 := H.rnd (x' * x')
  have a4 := mul_le_mul_of_nonneg_left a2 v0.le
  have := abs_add_le (rnd (x' * x') - x' * x') (x' * x' - x ^ 2)
  rw [show rnd (x' * x') - x' * x' + (x' * x' - x ^ 2) = rnd (x' * x') - x ^ 2 by ring] at this
  linarith

/-- A computed difference. -/
theorem sub_err {rnd sq : ℝ → ℝ} {v : ℝ} (H : Rel rnd sq v) (v0 : 0 < v) {x x' y y' s t b : ℝ} (hx : |x' - x| ≤ s) (hy : |y' - y| ≤ t)
    (hb : |x - y| + s + t ≤ b) : |rnd (x' - y') - (x - y)| ≤ s + t + v * b := by
  have a1 : |(x' - y') - (x - y)| ≤ s + t := by
    have := abs_sub (x' - x) (y' - y)
    rw [show x' - x - (y' - y) = (x' - y') - (x - y) by ring] at this
    linarith
  have a2 : |x' - y'| ≤ b := by
    have := abs_add_le (x - y) ((x' - y') - (x - y))
    rw [show x - y + (x' - y' - (x - y)) = x' - y' by ring] at this
    linarith
  have a3 := H.rnd (x' - y')
  have a4 := mul_le_mul_of_nonneg_left a2 v0.le
  have := abs_add_le (rnd (x' - y') - (x' - y')) ((x' - y') - (x - y))
  rw [show rnd (x' - y') - (x' - y') + ((x' - y') - (x - y)) = rnd (x' - y') - (x - y) by ring] at this
  linarith

theorem add_err {rnd sq : ℝ → ℝ} {v : ℝ} (H : Rel rnd sq v) (v0 : 0 < v) {x x' y y' s t b : ℝ} (hx : |x' - x| ≤ s) (hy : |y' - y| ≤ t)
    (hb : |x + y| + s + t ≤ b) : |rnd (x' + y') - (x + y)| ≤ s + t + v * b := by
  have hy' : |-y' - -y| ≤ t := by rw [show -y' - -y = -(y' - y) by ring, abs_neg]; exact hy
  have := sub_err H v0 (x := x) (x' := x') (y := -y) (y' := -y') (b := b) hx hy' (by rw [sub_neg_eq_add]; exact hb)
  simpa only [sub_neg_eq_add] using this

section
variable {rnd sq : ℝ → ℝ} {v S : ℝ} {k : Sphere.Cst} {c : Cst ℝ} (H : Rel rnd sq v) (v0 : 0 < v) (v1 : v ≤ 1 / 1000)
  (g : C18.Good k.lat) (A : Acc rnd k c v S) (hR : 0 < k.rmax) (S0 : 0 ≤ S)
include H v0 v1 g A hR

theorem n0_err {m : ℤ} (hm : |(m : ℝ) / k.lat.ar| ≤ k.rmax) :
    |n0 rnd c m - Sphere.n0 k m| ≤ 3 * v * (k.rmax * S) * k.b2r ∧ |Sphere.n0 k m| ≤ k.rmax * S * k.b2r := by
  have := prod_err H v0 v1 (C18.ar_pos g) hR.le hm A.dn0dm A.sn
  exact ⟨by have h := this.1; unfold n0 Sphere.n0; linarith, this.2⟩

theorem o0p_err {m : ℤ} (hm : |(m : ℝ) / k.lat.ar| ≤ k.rmax) :
    |o0p rnd c m - Sphere.o0p k m| ≤ 3 * v * (k.rmax * S * k.c1r) ∧ |Sphere.o0p k m| ≤ k.rmax * S * k.c1r :=
  prod_err H v0 v1 (C18.ar_pos g) hR.le hm A.do0dm A.so

theorem rp_err {m : ℤ} (hm : |(m : ℝ) / k.lat.ar| ≤ k.rmax) :
    |rp rnd c m - (k.rmax ^ 2 - (m / k.lat.ar) ^ 2)| ≤ 17 * v * k.rmax ^ 2 := by
  have e1 := quot_err H v0 v1 (w := m) (C18.ar_pos g) A.ar
  have e2 : 3 * v * |(m : ℝ) / k.lat.ar| ≤ 3 * v * k.rmax := mul_le_mul_of_nonneg_left hm (by positivity)
  have e3 := square_err H v0 hR.le hm (e1.trans e2) (by nlinarith)
  have hX : ((m : ℝ) / k.lat.ar) ^ 2 ≤ k.rmax ^ 2 := by
    rw [← sq_abs ((m : ℝ) / k.lat.ar)]
    exact pow_le_pow_left₀ (abs_nonneg _) hm 2
  have hR2 : 0 < k.rmax ^ 2 := by positivity
  have w : v * k.rmax ^ 2 ≤ 1 / 1000 * k.rmax ^ 2 := mul_le_mul_of_nonneg_right v1 hR2.le
  have e4 := sub_err H v0 A.rmax2 e3 (b := 2 * k.rmax ^ 2) (by
    rw [abs_of_nonneg (by linarith)]
    have : 0 ≤ ((m : ℝ) / k.lat.ar) ^ 2 := sq_nonneg _
    nlinarith)
  unfold rp
  refine e4.trans ?_
  nlinarith

/-- The exact `RlineSquare`. -/
noncomputable def rlx (k : Sphere.Cst) (m n : ℤ) : ℝ :=
  k.rmax ^ 2 - (m / k.lat.ar) ^ 2 - ((n - Sphere.n0 k m) / k.b2r) ^ 2

variable (hS : v * (1 + S) ≤ 1 / 1000)
include hS

theorem w_err {m n : ℤ} (hm : |(m : ℝ) / k.lat.ar| ≤ k.rmax) (hn : |((n : ℝ) - Sphere.n0 k m) / k.b2r| ≤ k.rmax) :
    |rnd (n - n0 rnd c m) / k.b2r - ((n : ℝ) - Sphere.n0 k m) / k.b2r| ≤ (3 * S + 2) * v * k.rmax := by
  have hb := C18.b2r_pos g
  have hn' : |(n : ℝ) - Sphere.n0 k m| ≤ k.rmax * k.b2r := by
    rwa [abs_div, abs_of_pos hb, div_le_iff₀ hb] at hn
  have e0 := (n0_err H v0 v1 g A hR hm).1
  have P : 0 < k.rmax * k.b2r := by positivity
  have h1 : v * S * (k.rmax * k.b2r) ≤ 1 / 1000 * (k.rmax * k.b2r) := mul_le_mul_of_nonneg_right (by linarith) P.le
  have e1 := sub_err H v0 (x := (n : ℝ)) (x' := n) (s := 0) (by simp) e0 (b := 2 * (k.rmax * k.b2r)) (by linarith)
  rw [← sub_div, abs_div, abs_of_pos hb, div_le_iff₀ hb]
  refine e1.trans ?_
  linarith

include S0

theorem rl_err {m n : ℤ} (hm : |(m : ℝ) / k.lat.ar| ≤ k.rmax) (hn : |((n : ℝ) - Sphere.n0 k m) / k.b2r| ≤ k.rmax) :
    |rl rnd c m n - rlx k m n| ≤ 41 * v * (1 + S) * k.rmax ^ 2 := by
  have hb := C18.b2r_pos g
  have e0 := w_err H v0 v1 g A hR hS hm hn
  have h1 : v * S * k.rmax ≤ 1 / 1000 * k.rmax := mul_le_mul_of_nonneg_right (by linarith) hR.le
  have h2 : v * k.rmax ≤ 1 / 1000 * k.rmax := mul_le_mul_of_nonneg_right v1 hR.le
  have a0 : |rnd (n - n0 rnd c m) / k.b2r| ≤ 4 / 3 * k.rmax := by
    have := abs_add_le (((n : ℝ) - Sphere.n0 k m) / k.b2r) (rnd (n - n0 rnd c m) / k.b2r - ((n : ℝ) - Sphere.n0 k m) / k.b2r)
    rw [add_sub_cancel] at this
    linarith
  have e1 := quot_err H v0 v1 (w := rnd (n - n0 rnd c m)) hb A.b2r
  have e2 : |rnd (rnd (n - n0 rnd c m) / c.b2r) - ((n : ℝ) - Sphere.n0 k m) / k.b2r| ≤ 6 * v * (1 + S) * k.rmax := by
    have := abs_add_le (rnd (rnd (n - n0 rnd c m) / c.b2r) - rnd (n - n0 rnd c m) / k.b2r)
      (rnd (n - n0 rnd c m) / k.b2r - ((n : ℝ) - Sphere.n0 k m) / k.b2r)
    rw [sub_add_sub_cancel] at this
    have h3 := mul_le_mul_of_nonneg_left a0 v0.le
    have : 0 ≤ v * S * k.rmax := by positivity
    linarith
  have e3 := square_err H v0 hR.le hn e2 (by linarith)
  have hX : ((m : ℝ) / k.lat.ar) ^ 2 ≤ k.rmax ^ 2 := by
    rw [← sq_abs ((m : ℝ) / k.lat.ar)]
    exact pow_le_pow_left₀ (abs_nonneg _) hm 2
  have hY : (((n : ℝ) - Sphere.n0 k m) / k.b2r) ^ 2 ≤ k.rmax ^ 2 := by
    rw [← sq_abs (((n : ℝ) - Sphere.n0 k m) / k.b2r)]
    exact pow_le_pow_left₀ (abs_nonneg _) hn 2
  have R2 : 0 < k.rmax ^ 2 := by positivity
  have w1 : v * k.rmax ^ 2 ≤ 1 / 1000 * k.rmax ^ 2 := mul_le_mul_of_nonneg_right v1 R2.le
  have w2 : v * (1 + S) * k.rmax ^ 2 ≤ 1 / 1000 * k.rmax ^ 2 := mul_le_mul_of_nonneg_right hS R2.le
  have w3 : v * k.rmax ^ 2 ≤ v * (1 + S) * k.rmax ^ 2 := mul_le_mul_of_nonneg_right (by nlinarith) R2.le
  have e4 := sub_err H v0 (rp_err H v0 v1 g A hR hm) e3 (b := 2 * k.rmax ^ 2) (by
    have : |k.rmax ^ 2 - (m / k.lat.ar) ^ 2 - ((n - Sphere.n0 k m) / k.b2r) ^ 2| ≤ k.rmax ^ 2 := by
      rw [abs_le]
      constructor
      · linarith
      · have := sq_nonneg ((m : ℝ) / k.lat.ar)
        have := sq_nonneg (((n : ℝ) - Sphere.n0 k m) / k.b2r)
        linarith
    nlinarith)
  unfold rl rlx
  refine e4.trans ?_
  nlinarith

theorem re_err {m n : ℤ} (hm : |(m : ℝ) / k.lat.ar| ≤ k.rmax) (hn : |((n : ℝ) - Sphere.n0 k m) / k.b2r| ≤ k.rmax)
    (hmin : |k.rmin2| ≤ k.rmax ^ 2) :
    |re rnd c m n - (k.rmin2 + (rlx k m n - k.rmax ^ 2))| ≤ 50 * v * (1 + S) * k.rmax ^ 2 := by
  have e1 := rl_err H v0 v1 g A hR S0 hS hm hn
  have hX : ((m : ℝ) / k.lat.ar) ^ 2 ≤ k.rmax ^ 2 := by
    rw [← sq_abs ((m : ℝ) / k.lat.ar)]
    exact pow_le_pow_left₀ (abs_nonneg _) hm 2
  have hY : (((n : ℝ) - Sphere.n0 k m) / k.b2r) ^ 2 ≤ k.rmax ^ 2 := by
    rw [← sq_abs (((n : ℝ) - Sphere.n0 k m) / k.b2r)]
    exact pow_le_pow_left₀ (abs_nonneg _) hn 2
  have hrl : |rlx k m n - k.rmax ^ 2| ≤ 2 * k.rmax ^ 2 := by
    unfold rlx
    rw [abs_le]
    have := sq_nonneg ((m : ℝ) / k.lat.ar)
    have := sq_nonneg (((n : ℝ) - Sphere.n0 k m) / k.b2r)
    constructor <;> nlinarith
  have R2 : 0 < k.rmax ^ 2 := by positivity
  have w1 : v * k.rmax ^ 2 ≤ 1 / 1000 * k.rmax ^ 2 := mul_le_mul_of_nonneg_right v1 R2.le
  have w2 : v * (1 + S) * k.rmax ^ 2 ≤ 1 / 1000 * k.rmax ^ 2 := mul_le_mul_of_nonneg_right hS R2.le
  have w3 : v * k.rmax ^ 2 ≤ v * (1 + S) * k.rmax ^ 2 := mul_le_mul_of_nonneg_right (by nlinarith) R2.le
  have e2 := sub_err H v0 e1 A.rmax2 (b := 3 * k.rmax ^ 2) (by linarith)
  have e3 : |c.rmin2 - k.rmin2| ≤ v * k.rmax ^ 2 := A.rmin2.trans (mul_le_mul_of_nonneg_left hmin v0.le)
  have e4 := add_err H v0 e3 e2 (b := 4 * k.rmax ^ 2) (by
    have := abs_add_le k.rmin2 (rlx k m n - k.rmax ^ 2)
    linarith)
  unfold re
  refine e4.trans ?_
  linarith

theorem o0_err {m n : ℤ} (hm : |(m : ℝ) / k.lat.ar| ≤ k.rmax) (hn : |((n : ℝ) - Sphere.n0 k m) / k.b2r| ≤ k.rmax) :
    |o0 rnd c m n - Sphere.o0 k m n| ≤ 12 * v * (1 + S) * (k.rmax * S) * k.c1r ∧ |Sphere.o0 k m n| ≤ 2 * (k.rmax * S) * k.c1r := by
  have hb := C18.b2r_pos g
  have hc := C18.c1r_pos g
  have e0 := w_err H v0 v1 g A hR hS hm hn
  obtain ⟨p1, p2⟩ := o0p_err H v0 v1 g A hR hm
  set W := (n : ℝ) - Sphere.n0 k m with hW
  set W' := rnd ((n : ℝ) - n0 rnd c m) with hW'
  set P := k.rmax * S * k.c1r with hP
  have P0 : 0 ≤ P := by positivity
  have dd : |c.do0dn| * k.b2r ≤ 11 / 10 * (S * k.c1r) := by
    have a := abs_add_le k.do0dn (c.do0dn - k.do0dn)
    rw [add_sub_cancel] at a
    have a2 := mul_le_mul_of_nonneg_right a hb.le
    have a3 : v * (S * k.c1r) ≤ 1 / 1000 * (S * k.c1r) := mul_le_mul_of_nonneg_right v1 (by positivity)
    have := A.do0dn
    have := A.sl
    nlinarith
  have q1 : |(W' - W) * c.do0dn| ≤ (3 * S + 2) * (11 / 10) * v * P := by
    have : (W' - W) * c.do0dn = (W' / k.b2r - W / k.b2r) * (c.do0dn * k.b2r) := by field_simp
    rw [this, abs_mul, abs_mul, abs_of_pos hb]
    refine (mul_le_mul e0 dd (by positivity) (by positivity)).trans ?_
    rw [hP]
    linarith
  have q2 : |W * (c.do0dn - k.do0dn)| ≤ v * P := by
    have : W * (c.do0dn - k.do0dn) = (W / k.b2r) * ((c.do0dn - k.do0dn) * k.b2r) := by field_simp
    rw [this, abs_mul, abs_mul, abs_of_pos hb]
    refine (mul_le_mul hn A.do0dn (by positivity) hR.le).trans ?_
    rw [hP]
    linarith
  have q3 : |W * k.do0dn| ≤ P := by
    have : W * k.do0dn = (W / k.b2r) * (k.do0dn * k.b2r) := by field_simp
    rw [this, abs_mul, abs_mul, abs_of_pos hb]
    refine (mul_le_mul hn A.sl (by positivity) hR.le).trans ?_
    rw [hP]
    linarith
  have w1 : v * P ≤ 1 / 1000 * P := mul_le_mul_of_nonneg_right v1 P0
  have w2 : v * (1 + S) * P ≤ 1 / 1000 * P := mul_le_mul_of_nonneg_right hS P0
  have w4 : 0 ≤ v * S * P := by positivity
  have w5 : 0 ≤ v * P := by positivity
  have q4 : |W' * c.do0dn - W * k.do0dn| ≤ (4 * S + 4) * v * P := by
    have := abs_add_le ((W' - W) * c.do0dn) (W * (c.do0dn - k.do0dn))
    rw [show (W' - W) * c.do0dn + W * (c.do0dn - k.do0dn) = W' * c.do0dn - W * k.do0dn by ring] at this
    linarith
  have q5 : |W' * c.do0dn| ≤ 2 * P := by
    have := abs_add_le (W * k.do0dn) (W' * c.do0dn - W * k.do0dn)
    rw [add_sub_cancel] at this
    linarith
  have q6 := H.rnd (W' * c.do0dn)
  have q7 := mul_le_mul_of_nonneg_left q5 v0.le
  have q8 : |rnd (W' * c.do0dn) - W * k.do0dn| ≤ 6 * v * (1 + S) * P := by
    have := abs_add_le (rnd (W' * c.do0dn) - W' * c.do0dn) (W' * c.do0dn - W * k.do0dn)
    rw [sub_add_sub_cancel] at this
    linarith
  have q9 : |Sphere.o0p k m + W * k.do0dn| ≤ 2 * P := by
    have := abs_add_le (Sphere.o0p k m) (W * k.do0dn)
    linarith
  have q10 := add_err H v0 p1 q8 (b := 3 * P) (by linarith)
  have hh : 12 * v * (1 + S) * (k.rmax * S) * k.c1r = 12 * v * (1 + S) * P := by rw [hP]; ring
  refine ⟨?_, ?_⟩
  · rw [hh]
    refine (show |o0 rnd c m n - Sphere.o0 k m n| ≤ _ from q10).trans ?_
    linarith
  · refine (show |Sphere.o0 k m n| ≤ _ from q9).trans ?_
    rw [hP]
    linarith

end
end Pdffit.FSphere
