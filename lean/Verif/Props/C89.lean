import Verif.Lemmas.FShell
import Verif.Props.C19
import Verif.Lemmas.FAngle

/-!
# C89 No periodic image is lost or counted twice by rounding

The search of lattice points (`PointsInSphere`) behind `bond_length_types`, `bond_length_atoms` and the PDF, with every operation rounded.

* `once`, `once_double`: no point is visited twice, for any constants. The loops end by definition.
* `complete`, `complete_double`: every lattice point that lies inside of the shell by a margin `δ` is visited. The margin is proportional to
  the error `v` of the operations and constants, to the square of `Rmax` and to the obliqueness of the cell.
* `bonds`: the extension of the search radius by `circum_diameter` leaves the margin `2^-26`, so that no bond is lost.
* `lost`: without a margin a point is lost.
* `exact_search`: without rounding it is the search of C18.

Numbers have 53 bits, without overflow and underflow. The values of sine and cosine are not modelled; their errors are part of the
hypothesis `Computed`.
-/

namespace Pdffit.C89
open FSphere

/-- Every operation has the relative error `v` at most. -/
def Rounds (rnd sq : ℝ → ℝ) (v : ℝ) : Prop := (∀ x, |rnd x - x| ≤ v * |x|) ∧ ∀ x, 0 ≤ x → |sq x - √x| ≤ v * √x

theorem room {y E R : ℝ} (hy : |y| ≤ R) (E0 : 0 ≤ E) (E1 : E ≤ R) : (|y| + E) ^ 2 ≤ y ^ 2 + 3 * (R * E) := by
  have s1 := mul_le_mul_of_nonneg_right hy E0
  have s2 := mul_le_mul_of_nonneg_right E1 E0
  have := sq_abs y
  nlinarith

theorem gap {Z L r δ : ℝ} (d0 : 0 < δ) (hL : 0 < L) (hZ : |Z| ≤ L) (hr : 0 < r) (h : r ≤ Z ^ 2 - δ * L / 2) : √r + δ / 4 ≤ |Z| := by
  have q4 := Real.sq_sqrt hr.le
  have q5 := Real.sqrt_pos.2 hr
  have q6 := sq_abs Z
  have q7 := abs_nonneg Z
  have q8 := mul_pos d0 hL
  have q9 : √r < |Z| := by
    by_contra hn
    have := pow_le_pow_left₀ q7 (not_lt.1 hn) 2
    linarith
  by_contra hn
  have hn := not_le.1 hn
  have t1 : (|Z| - √r) * (|Z| + √r) ≤ δ / 4 * (|Z| + √r) := mul_le_mul_of_nonneg_right (by linarith) (by linarith)
  have t2 : δ / 4 * (|Z| + √r) < δ / 4 * (2 * L) := mul_lt_mul_of_pos_left (by linarith) (by linarith)
  have t3 : (|Z| - √r) * (|Z| + √r) = Z ^ 2 - r := by linear_combination q6 - q4
  linarith

theorem neg_of_rel {t t' v : ℝ} (v1 : v ≤ 1 / 1000) (ht : t < 0) (h : |t' - t| ≤ v * |t|) : t' < 0 := by
  have h2 := (two_sided h).2
  rw [abs_of_neg ht] at h2
  have : v * -t ≤ 1 / 1000 * -t := mul_le_mul_of_nonneg_right v1 (by linarith)
  linarith

theorem rmin2_abs {k : Sphere.Cst} (h : |k.rmin| ≤ k.rmax) : |k.rmin2| ≤ k.rmax ^ 2 := by
  have : |k.rmin| ^ 2 ≤ k.rmax ^ 2 := pow_le_pow_left₀ (abs_nonneg _) h 2
  rw [sq_abs] at this
  unfold Sphere.Cst.rmin2
  split
  · rw [abs_neg, abs_of_nonneg (mul_self_nonneg _)]; linarith
  · rw [abs_of_nonneg (mul_self_nonneg _)]; linarith

theorem rmin2_gap {k : Sphere.Cst} {L δ : ℝ} (L0 : 0 ≤ L) (d0 : 0 < δ) (h1 : k.rmin + δ ≤ L) (hd : δ ≤ L) : δ * L ≤ L ^ 2 - k.rmin2 := by
  have := mul_le_mul_of_nonneg_right hd L0
  unfold Sphere.Cst.rmin2
  split
  · linarith [mul_self_nonneg k.rmin]
  · rename_i hr
    have hr := not_lt.1 hr
    have a := mul_le_mul_of_nonneg_right (by linarith : δ ≤ L - k.rmin) L0
    have b := mul_le_mul_of_nonneg_right (by linarith : k.rmin ≤ L) hr
    linarith

set_option maxHeartbeats 1000000 in
/-- Every lattice point that is inside of the shell by at least `δ` is visited, whatever the rounding errors are. -/
theorem complete {rnd sq : ℝ → ℝ} {v S lam δ : ℝ} {k : Sphere.Cst} {c : Cst ℝ} (H : Rounds rnd sq v) (v0 : 0 < v) (S0 : 0 ≤ S)
    (g : C18.Good k.lat) (A : Acc rnd k c v S) (hv : v * (1 + S) ^ 2 ≤ 1 / 1000)
    (hlam : ∀ p, p ≠ (0, 0, 0) → lam ≤ √(C18.len2 k.lat p)) (hmin : |k.rmin| ≤ k.rmax)
    (d0 : 0 < δ) (hd : δ ≤ lam) (hl : lam ≤ k.rmax) (hc : 128 * v * (1 + S) ^ 2 * k.rmax ^ 2 ≤ δ * lam) (p : ℤ × ℤ × ℤ)
    (h1 : k.rmin + δ ≤ √(C18.len2 k.lat p)) (h2 : √(C18.len2 k.lat p) ≤ k.rmax - δ) : p ∈ points (numsOf rnd sq c) := by
  obtain ⟨m, n, o⟩ := p
  replace H : Rel rnd sq v := ⟨H.1, H.2⟩
  have hR : 0 < k.rmax := by linarith
  have ha := C18.ar_pos g
  have hb := C18.b2r_pos g
  have hc1 := C18.c1r_pos g
  have hS1 : 1 + S ≤ (1 + S) ^ 2 := by nlinarith
  have hS2 : 1 ≤ (1 + S) ^ 2 := by nlinarith
  have hS : v * (1 + S) ≤ 1 / 1000 := (mul_le_mul_of_nonneg_left hS1 v0.le).trans hv
  have v1 : v ≤ 1 / 1000 := (le_mul_of_one_le_right v0.le hS2).trans hv
  have hδ : 128 * v * (1 + S) ^ 2 * k.rmax ≤ δ := by
    have : 128 * v * (1 + S) ^ 2 * k.rmax * k.rmax ≤ δ * k.rmax := by
      have := mul_le_mul_of_nonneg_left hl d0.le
      linarith
    exact le_of_mul_le_mul_right this hR
  have hδ1 : 128 * v * (1 + S) * k.rmax ≤ δ := by
    refine le_trans ?_ hδ
    have := mul_le_mul_of_nonneg_right (mul_le_mul_of_nonneg_left hS1 v0.le) hR.le
    linarith
  have hδ2 : 128 * v * k.rmax ≤ δ := by
    refine le_trans ?_ hδ
    have := mul_le_mul_of_nonneg_right (mul_le_mul_of_nonneg_left hS2 v0.le) hR.le
    linarith
  set R := k.rmax with hRdef
  have e0 := C18.len2_eq g m n o
  set X : ℝ := m / k.lat.ar with hX
  set Y : ℝ := (n - Sphere.n0 k m) / k.b2r with hY
  set Z : ℝ := (o - Sphere.o0 k m n) / k.c1r with hZ
  have hn0 : 0 ≤ C18.len2 k.lat (m, n, o) := by rw [e0]; positivity
  set L := √(C18.len2 k.lat (m, n, o)) with hL
  have eL : L ^ 2 = X ^ 2 + Y ^ 2 + Z ^ 2 := by rw [hL, Real.sq_sqrt hn0, e0]
  have L0 : 0 ≤ L := Real.sqrt_nonneg _
  have bnd : ∀ t : ℝ, t ^ 2 ≤ L ^ 2 → |t| ≤ L := fun t ht => abs_le_of_sq_le_sq ht L0
  have bX := bnd X (by linarith [sq_nonneg Y, sq_nonneg Z])
  have bY := bnd Y (by linarith [sq_nonneg X, sq_nonneg Z])
  have bZ := bnd Z (by linarith [sq_nonneg Y, sq_nonneg X])
  have hm : |(m : ℝ) / k.lat.ar| ≤ k.rmax := by linarith
  have hn : |((n : ℝ) - Sphere.n0 k m) / k.b2r| ≤ k.rmax := by linarith
  have hLR : L ^ 2 + δ * R ≤ R ^ 2 := by
    have : L ^ 2 ≤ (R - δ) ^ 2 := pow_le_pow_left₀ L0 h2 2
    have := mul_le_mul_of_nonneg_left (hd.trans hl) d0.le
    linarith
  have R2 : 0 < R ^ 2 := by positivity
  rw [mem_points]
  refine ⟨?_, ?_, ?_⟩
  · -- planes
    have hm1 : |(m : ℝ)| < c.mHalf := by
      have e1 : |(m : ℝ)| = |X| * k.lat.ar := by rw [hX, abs_div, abs_of_pos ha]; field_simp
      have e2 := (two_sided A.mHalf).1
      have e3 : |X| * k.lat.ar ≤ (R - δ) * k.lat.ar := mul_le_mul_of_nonneg_right (by linarith) ha.le
      have e4 : (R - δ) * k.lat.ar < (R - v * R) * k.lat.ar := mul_lt_mul_of_pos_right (by linarith [mul_pos v0 hR]) ha
      rw [e1]
      linarith
    obtain ⟨m1, m2⟩ := abs_lt.1 hm1
    have q1 : m < ⌈c.mHalf⌉ := Int.lt_ceil.2 m2
    have q2 : -m < ⌈c.mHalf⌉ := Int.lt_ceil.2 (by push_cast; linarith)
    show -⌈c.mHalf⌉ + 1 ≤ m ∧ m < ⌈c.mHalf⌉
    omega
  · -- lines
    obtain ⟨a1, a2⟩ := n0_err H v0 v1 g A hR hm
    have a3 := (two_sided (rp_err H v0 v1 g A hR hm)).1
    have hA : |(n : ℝ) - Sphere.n0 k m| = |Y| * k.b2r := by rw [hY, abs_div, abs_of_pos hb]; field_simp
    refine inside H v0 v1 (E := 25 * v * (1 + S) * R) (R := R) hb A.b2r a2 a1 hA (abs_nonneg _) (by linarith) (by positivity) hR (by positivity)
      (by have : 0 < v * R := by positivity
          have : 0 ≤ v * S * R := by positivity
          linarith) ?_
    have E0 : 0 ≤ 25 * v * (1 + S) * R := by positivity
    have E1 : 25 * v * (1 + S) * R ≤ R := by linarith
    have s3 : 128 * v * (1 + S) * R * R ≤ δ * R := mul_le_mul_of_nonneg_right hδ1 hR.le
    have s4 := room (hn : |Y| ≤ R) E0 E1
    have s5 : 0 ≤ v * S * R ^ 2 := by positivity
    have s6 : 0 ≤ v * R ^ 2 := by positivity
    have s7 := sq_nonneg Z
    refine s4.trans (le_trans ?_ a3)
    linarith
  · -- points
    obtain ⟨a1, a2⟩ := o0_err H v0 v1 g A hR S0 hS hm hn
    have a3 := (two_sided (rl_err H v0 v1 g A hR S0 hS hm hn)).1
    have hB : |(o : ℝ) - Sphere.o0 k m n| = |Z| * k.c1r := by rw [hZ, abs_div, abs_of_pos hc1]; field_simp
    have hE : 2 * (12 * v * (1 + S) * (R * S)) + 24 * v * R + 4 * v * (2 * (R * S)) < 25 * v * (1 + S) ^ 2 * R := by
      have : 0 < v * R := by positivity
      have : 0 ≤ v * S * R := by positivity
      have : 0 ≤ v * S ^ 2 * R := by positivity
      linarith
    have E0 : 0 ≤ 25 * v * (1 + S) ^ 2 * R := by positivity
    have hin := inside H v0 v1 (E := 25 * v * (1 + S) ^ 2 * R) (R := R) (r := rl rnd c m n) hc1 A.c1r a2 a1 hB (abs_nonneg _) (by linarith)
      (by positivity) hR (by positivity) hE (by
        have E1 : 25 * v * (1 + S) ^ 2 * R ≤ R := by linarith
        have s3 : 128 * v * (1 + S) ^ 2 * R * R ≤ δ * R := mul_le_mul_of_nonneg_right hδ hR.le
        have s4 := room (by linarith : |Z| ≤ R) E0 E1
        have s5 : v * (1 + S) * R ^ 2 ≤ v * (1 + S) ^ 2 * R ^ 2 :=
          mul_le_mul_of_nonneg_right (mul_le_mul_of_nonneg_left hS1 v0.le) R2.le
        have s6 : 0 ≤ v * (1 + S) ^ 2 * R ^ 2 := by positivity
        refine s4.trans (le_trans ?_ a3)
        unfold rlx
        linarith)
    have hout : ∀ h, (numsOf rnd sq c).hole m n = some h → o < h ∨ (numsOf rnd sq c).resume m n ≤ o := by
      intro h hh
      simp only [numsOf, Option.ite_none_right_eq_some, Option.some.injEq] at hh
      obtain ⟨⟨x1, -⟩, rfl⟩ := hh
      have hre : 0 < re rnd c m n := by
        by_contra hn
        exact x1 (by unfold exc; rw [if_neg hn])
      have hmin2 := rmin2_abs hmin
      have a4 := (two_sided (re_err H v0 v1 g A hR S0 hS hm hn hmin2)).2
      refine outside H v0 v1 (E := 25 * v * (1 + S) ^ 2 * R) (R := R) hc1 A.c1r a2 a1 hB (by linarith) (by positivity) hR (by positivity) hE hre ?_
      by_cases hp : (m, n, o) = (0, 0, 0)
      · exfalso
        simp only [Prod.mk.injEq] at hp
        obtain ⟨rfl, rfl, rfl⟩ := hp
        have hL0 : L = 0 := by simp [hL, C18.len2]
        have hneg : k.rmin < 0 := by linarith
        have r0 : rnd 0 = 0 := by simpa using H.rnd 0
        have e1 : re rnd c 0 0 = rnd c.rmin2 := by
          simp [re, rl, rp, n0, r0, A.fix]
        have e2 : k.rmin2 < 0 := by
          unfold Sphere.Cst.rmin2
          rw [if_pos hneg]
          linarith [mul_pos_of_neg_of_neg hneg hneg]
        rw [e1] at hre
        exact absurd hre (not_lt.2 (neg_of_rel v1 (neg_of_rel v1 e2 A.rmin2) (H.rnd _)).le)
      · have hLl := hlam _ hp
        have q1 := rmin2_gap L0 d0 h1 (hd.trans hLl)
        have q2 : 50 * v * (1 + S) * R ^ 2 ≤ δ * L / 2 := by
          have s5 : v * (1 + S) * R ^ 2 ≤ v * (1 + S) ^ 2 * R ^ 2 :=
            mul_le_mul_of_nonneg_right (mul_le_mul_of_nonneg_left hS1 v0.le) R2.le
          have s6 : 0 ≤ v * (1 + S) ^ 2 * R ^ 2 := by positivity
          have := mul_le_mul_of_nonneg_left hLl d0.le
          linarith
        have q3 : re rnd c m n ≤ Z ^ 2 - δ * L / 2 := by
          unfold rlx at a4
          rw [← hX, ← hY] at a4
          linarith
        have q4 := gap d0 (lt_of_lt_of_le (by linarith) hLl) bZ hre q3
        linarith
    unfold oList hi1
    rw [List.mem_append, Sphere.mem_ints]
    have h3 : (numsOf rnd sq c).loO m n + 1 ≤ o ∧ o < (numsOf rnd sq c).outO m n := hin
    cases hh : (numsOf rnd sq c).hole m n with
    | none => left; exact h3
    | some h =>
      simp only [Option.getD_some]
      rcases hout h hh with h4 | h4
      · left; exact ⟨h3.1, h4⟩
      · by_cases h5 : h = (numsOf rnd sq c).outO m n
        · left; rw [h5]; exact h3
        · right
          rw [if_pos h5, Sphere.mem_ints]
          exact ⟨h4, h3.2⟩

/-- No point is visited twice, in any arithmetic with a monotone rounding. (That the loops end is part of the definition.) -/
theorem once {K : Type} [Field K] [LinearOrder K] [IsStrictOrderedRing K] [FloorRing K] (rnd sq : K → K) (c : Cst K)
    (hr : Monotone rnd) (h0 : rnd 0 = 0) (hs : ∀ x, 0 ≤ sq x) (hc : 0 ≤ c.c1r) : (points (numsOf rnd sq c)).Nodup := by
  refine nodup_points _ fun m n h hh => ?_
  simp only [numsOf, Option.ite_none_right_eq_some, Option.some.injEq] at hh
  obtain ⟨-, rfl⟩ := hh
  have he : 0 ≤ exc rnd sq c m n := by
    unfold exc
    split
    · have h1 : 0 ≤ rnd (sq (re rnd c m n)) := by
        have := hr (hs (re rnd c m n))
        rwa [h0] at this
      have := hr (mul_nonneg h1 hc)
      rwa [h0] at this
    · exact le_rfl
  exact Int.ceil_mono (hr (by linarith))

/-- Without rounding it is the search of C18, which visits exactly the points of the shell. -/
theorem exact_search (k : Sphere.Cst) : points (numsOf id Real.sqrt (exact k)) = Sphere.points k := points_exact k

/-! ### Double arithmetic -/
open Binary
open FAngle (sqrt53)

/-- Double numbers as real numbers. -/
def toReal (c : Cst ℚ) : Cst ℝ :=
  ⟨c.rmin2, c.rmax2, c.mHalf, c.ar, c.dn0dm, c.do0dm, c.b2r, c.do0dn, c.c1r⟩

open Classical in
/-- Rounding of rational numbers, as a function on the real numbers. -/
noncomputable def rndR (x : ℝ) : ℝ := if h : ∃ q : ℚ, (q : ℝ) = x then (rnd53 h.choose : ℝ) else x
open Classical in
@[inherit_doc rndR] noncomputable def sqR (x : ℝ) : ℝ := if h : ∃ q : ℚ, (q : ℝ) = x then (sqrt53 h.choose : ℝ) else √x

theorem rndR_cast (q : ℚ) : rndR q = rnd53 q := by
  have h : ∃ r : ℚ, (r : ℝ) = q := ⟨q, rfl⟩
  unfold rndR
  rw [dif_pos h, Rat.cast_injective h.choose_spec]

theorem sqR_cast (q : ℚ) : sqR q = sqrt53 q := by
  have h : ∃ r : ℚ, (r : ℝ) = q := ⟨q, rfl⟩
  unfold sqR
  rw [dif_pos h, Rat.cast_injective h.choose_spec]

theorem rounds : Rounds rndR sqR (1 / 2 ^ 53) := by
  constructor
  · intro x
    by_cases h : ∃ q : ℚ, (q : ℝ) = x
    · obtain ⟨q, rfl⟩ := h
      rw [rndR_cast]
      obtain ⟨d, h1, h2⟩ := FAngle.rnd_rel q
      rw [h2, show (q : ℝ) * (1 + d) - q = d * q by ring, abs_mul]
      exact mul_le_mul_of_nonneg_right h1 (abs_nonneg _)
    · unfold rndR
      rw [dif_neg h, sub_self, abs_zero]
      positivity
  · intro x hx
    by_cases h : ∃ q : ℚ, (q : ℝ) = x
    · obtain ⟨q, rfl⟩ := h
      rw [sqR_cast]
      rcases hx.eq_or_lt with h0 | h0
      · have : q = 0 := by exact_mod_cast h0.symm
        subst this
        simp [sqrt53]
      · have := FAngle.sqrt53_err (x := q) (by exact_mod_cast h0)
        linarith
    · unfold sqR
      rw [dif_neg h, sub_self, abs_zero]
      positivity

theorem n0_cast (c : Cst ℚ) (m : ℤ) : n0 rndR (toReal c) m = (n0 rnd53 c m : ℚ) := by
  unfold n0 toReal
  rw [← rndR_cast]
  push_cast
  rfl

theorem o0p_cast (c : Cst ℚ) (m : ℤ) : o0p rndR (toReal c) m = (o0p rnd53 c m : ℚ) := by
  unfold o0p toReal
  rw [← rndR_cast]
  push_cast
  rfl

theorem rp_cast (c : Cst ℚ) (m : ℤ) : rp rndR (toReal c) m = (rp rnd53 c m : ℚ) := by
  unfold rp toReal
  dsimp only
  simp only [← rndR_cast, Rat.cast_sub, Rat.cast_mul, Rat.cast_div, Rat.cast_intCast]

theorem rl_cast (c : Cst ℚ) (m n : ℤ) : rl rndR (toReal c) m n = (rl rnd53 c m n : ℚ) := by
  unfold rl
  rw [rp_cast, n0_cast]
  unfold toReal
  dsimp only
  simp only [← rndR_cast, Rat.cast_sub, Rat.cast_mul, Rat.cast_div, Rat.cast_intCast]

theorem o0_cast (c : Cst ℚ) (m n : ℤ) : o0 rndR (toReal c) m n = (o0 rnd53 c m n : ℚ) := by
  unfold o0
  rw [o0p_cast, n0_cast]
  unfold toReal
  dsimp only
  simp only [← rndR_cast, Rat.cast_sub, Rat.cast_mul, Rat.cast_add, Rat.cast_intCast]

theorem re_cast (c : Cst ℚ) (m n : ℤ) : re rndR (toReal c) m n = (re rnd53 c m n : ℚ) := by
  unfold re
  rw [rl_cast]
  unfold toReal
  dsimp only
  simp only [← rndR_cast, Rat.cast_sub, Rat.cast_add]

theorem half_cast (r q : ℚ) : (if (0 : ℝ) < (r : ℝ) then rndR (rndR (sqR r) * (q : ℝ)) else 0) =
    ((if 0 < r then rnd53 (rnd53 (sqrt53 r) * q) else 0 : ℚ) : ℝ) := by
  by_cases h : 0 < r
  · rw [if_pos h, if_pos (by exact_mod_cast h), sqR_cast, rndR_cast, ← Rat.cast_mul, rndR_cast]
  · rw [if_neg h, if_neg (by exact_mod_cast h), Rat.cast_zero]

theorem nHalf_cast (c : Cst ℚ) (m : ℤ) : nHalf rndR sqR (toReal c) m = (nHalf rnd53 sqrt53 c m : ℚ) := by
  unfold nHalf
  rw [rp_cast]
  exact half_cast _ _

theorem oHalf_cast (c : Cst ℚ) (m n : ℤ) : oHalf rndR sqR (toReal c) m n = (oHalf rnd53 sqrt53 c m n : ℚ) := by
  unfold oHalf
  rw [rl_cast]
  exact half_cast _ _

theorem exc_cast (c : Cst ℚ) (m n : ℤ) : exc rndR sqR (toReal c) m n = (exc rnd53 sqrt53 c m n : ℚ) := by
  unfold exc
  rw [re_cast]
  exact half_cast _ _

/-- The double numbers give the same integers as the real numbers that they are. -/
theorem nums_cast (c : Cst ℚ) : numsOf rndR sqR (toReal c) = numsOf rnd53 sqrt53 c := by
  have hm : (⌈(toReal c).mHalf⌉ : ℤ) = ⌈c.mHalf⌉ := Rat.ceil_cast _
  unfold numsOf
  simp only [n0_cast, nHalf_cast, o0_cast, oHalf_cast, exc_cast, hm, ← Rat.cast_sub, ← Rat.cast_add, rndR_cast, Rat.floor_cast,
    Rat.ceil_cast, Nums.mk.injEq, true_and, and_true]
  funext m n
  rw [← Rat.cast_intCast, ← Rat.cast_sub, rndR_cast]
  simp only [← Rat.cast_abs, Rat.cast_lt, ne_eq, Rat.cast_eq_zero]

/-- Double arithmetic: no point is visited twice. -/
theorem once_double (c : Cst ℚ) (hc : 0 ≤ c.c1r) : (points (numsOf rnd53 sqrt53 c)).Nodup := by
  refine once rnd53 sqrt53 c rnd53_mono (by unfold rnd53; simp) (fun x => ?_) hc
  by_cases hx : 0 < x
  · have h := FAngle.sqrt53_err hx
    have h2 : (0 : ℝ) ≤ √(x : ℝ) := Real.sqrt_nonneg _
    have h3 := (two_sided h).1
    have : (0 : ℝ) ≤ (sqrt53 x : ℝ) := by
      have : √(x : ℝ) / 2 ^ 53 ≤ √(x : ℝ) := div_le_self h2 (by norm_num)
      linarith
    exact_mod_cast this
  · unfold sqrt53
    rw [if_pos (not_lt.1 hx)]

/-- The constants of the search are computed with the relative error `v` at most (the mixed ones relative to the obliqueness `S`);
`rmax2` is a double. -/
structure Computed (k : Sphere.Cst) (c : Cst ℚ) (v S : ℝ) : Prop where
  rmax2 : |(c.rmax2 : ℝ) - k.rmax ^ 2| ≤ v * k.rmax ^ 2
  rmin2 : |(c.rmin2 : ℝ) - k.rmin2| ≤ v * |k.rmin2|
  fix : rnd53 c.rmax2 = c.rmax2
  mHalf : |(c.mHalf : ℝ) - k.rmax * k.lat.ar| ≤ v * (k.rmax * k.lat.ar)
  ar : |(c.ar : ℝ) - k.lat.ar| ≤ v * k.lat.ar
  b2r : |(c.b2r : ℝ) - k.b2r| ≤ v * k.b2r
  c1r : |(c.c1r : ℝ) - k.c1r| ≤ v * k.c1r
  dn0dm : |(c.dn0dm : ℝ) - k.dn0dm| * k.lat.ar ≤ v * (S * k.b2r)
  do0dm : |(c.do0dm : ℝ) - k.do0dm| * k.lat.ar ≤ v * (S * k.c1r)
  do0dn : |(c.do0dn : ℝ) - k.do0dn| * k.b2r ≤ v * (S * k.c1r)
  sn : |k.dn0dm| * k.lat.ar ≤ S * k.b2r
  so : |k.do0dm| * k.lat.ar ≤ S * k.c1r
  sl : |k.do0dn| * k.b2r ≤ S * k.c1r

/-- Double arithmetic: every lattice point that is inside of the shell by at least `δ` is visited. -/
theorem complete_double {v S lam δ : ℝ} {k : Sphere.Cst} {c : Cst ℚ} (hv53 : 1 / 2 ^ 53 ≤ v) (S0 : 0 ≤ S)
    (g : C18.Good k.lat) (A : Computed k c v S) (hv : v * (1 + S) ^ 2 ≤ 1 / 1000)
    (hlam : ∀ p, p ≠ (0, 0, 0) → lam ≤ √(C18.len2 k.lat p)) (hmin : |k.rmin| ≤ k.rmax)
    (d0 : 0 < δ) (hd : δ ≤ lam) (hl : lam ≤ k.rmax) (hc : 128 * v * (1 + S) ^ 2 * k.rmax ^ 2 ≤ δ * lam) (p : ℤ × ℤ × ℤ)
    (h1 : k.rmin + δ ≤ √(C18.len2 k.lat p)) (h2 : √(C18.len2 k.lat p) ≤ k.rmax - δ) : p ∈ points (numsOf rnd53 sqrt53 c) := by
  rw [← nums_cast]
  have H : Rounds rndR sqR v := ⟨fun x => (rounds.1 x).trans (mul_le_mul_of_nonneg_right hv53 (abs_nonneg _)),
    fun x hx => (rounds.2 x hx).trans (mul_le_mul_of_nonneg_right hv53 (Real.sqrt_nonneg _))⟩
  have v0 : 0 < v := lt_of_lt_of_le (by positivity) hv53
  refine complete H v0 S0 g ?_ hv hlam hmin d0 hd hl hc p h1 h2
  exact ⟨A.rmax2, A.rmin2, by show rndR (c.rmax2 : ℝ) = c.rmax2; rw [rndR_cast, A.fix], A.mHalf, A.ar, A.b2r, A.c1r, A.dn0dm, A.do0dm, A.do0dn, A.sn, A.so, A.sl⟩

/-- A cubic lattice with edge 3 and `Rmax` one unit in the last place above 3, with exact angles. -/
def lostC : Cst ℚ where
  rmin2 := 0
  rmax2 := rnd53 (rnd53 (3 + 1 / 2251799813685248) * rnd53 (3 + 1 / 2251799813685248))
  mHalf := rnd53 ((3 + 1 / 2251799813685248) * rnd53 (1 / 3))
  ar := rnd53 (1 / 3)
  dn0dm := 0
  do0dm := 0
  b2r := rnd53 (1 / 3)
  do0dn := 0
  c1r := rnd53 (1 / 3)

/-- Without the margin points are lost: cubic lattice with edge 3, `Rmax = 3 + 2^-51`; the point at the distance 3 is not visited. -/
theorem lost : (0, 0, 1) ∉ points (numsOf rnd53 sqrt53 lostC) := by
  rw [mem_points]
  rintro ⟨-, -, h⟩
  have e1 : (numsOf rnd53 sqrt53 lostC).outO 0 0 = 1 := by decide +kernel
  have e2 : (numsOf rnd53 sqrt53 lostC).hole 0 0 = none := by decide +kernel
  unfold oList hi1 at h
  rw [e2, e1] at h
  simp [Sphere.mem_ints] at h

/-- The cubic lattice with edge 3. -/
noncomputable def cubic3 : Sphere.Lat := Sphere.Lat.of 3 3 3 90 90 90

theorem cubic3_good : C18.Good cubic3 := by
  apply C18.good_of <;> norm_num [C18.cos90]

theorem cubic3_len (m n o : ℤ) : C18.len2 cubic3 (m, n, o) = 9 * ((m ^ 2 + n ^ 2 + o ^ 2 : ℤ) : ℝ) := by
  simp [C18.len2, cubic3, Sphere.Lat.of, C18.cos90]
  ring

/-- The exact search visits that point. -/
theorem lost_exact : (0, 0, 1) ∈ Sphere.points ⟨0, 3 + 1 / 2251799813685248, cubic3⟩ := by
  rw [C18.no_rmin _ cubic3_good le_rfl (by norm_num), cubic3_len]
  norm_num

/-! ### Bonds -/
section
open Geom Bonds

/-- The search of `bond_length_types(A, B, lb, ub)` in double arithmetic reaches every image in the range, for atoms whose coordinates
differ by at most one cell edge: the extension of the search radius by `circum_diameter` leaves the margin `2^-26`. -/
theorem bonds {p : Phs} (F : C19.Fine p) {lb ub v S lam : ℝ} {c : Cst ℚ} (h0 : 0 ≤ lb) (hub : lb ≤ ub) (hv53 : 1 / 2 ^ 53 ≤ v) (S0 : 0 ≤ S)
    (A : Computed (sph p lb ub) c v S) (hv : v * (1 + S) ^ 2 ≤ 1 / 1000)
    (hlam : ∀ T, T ≠ (0, 0, 0) → lam ≤ √(p.skal (C19.tvec p T) (C19.tvec p T))) (hl : eps ≤ lam) (hlr : lam ≤ ub + circumDiameter p)
    (hc : 128 * v * (1 + S) ^ 2 * (ub + circumDiameter p) ^ 2 ≤ eps * lam)
    {ai aj : Atm} (hi : ai ∈ p.atom) (hx : ∀ k, |ai.pos k - aj.pos k| ≤ 1) (T : ℤ × ℤ × ℤ)
    (h1 : lb ≤ √(p.skal (diff p ai aj T) (diff p ai aj T))) (h2 : √(p.skal (diff p ai aj T) (diff p ai aj T)) ≤ ub) :
    T ∈ points (numsOf rnd53 sqrt53 c) := by
  have hD := C19.diag_bound_eps p F (List.ne_nil_of_mem hi) (fun k => ai.pos k - aj.pos k) hx
  set D : Fin 3 → ℝ := fun k => ai.pos k - aj.pos k with hDdef
  set d := diff p ai aj T with hd
  set t := C19.tvec p T with ht
  have hg := p.gten_symm
  have hp := C19.nonneg F
  have e1 : d + t = D := by
    funext k
    simp only [hd, ht, hDdef, diff, C19.tvec, Pi.add_apply]
    ring
  have tri1 : √(p.skal t t) ≤ √(p.skal D D) + √(p.skal d d) := by
    have e2 : t = D + -d := by rw [← e1]; funext k; simp
    have := triangle _ hg hp D (-d)
    rw [skalpro_neg, ← e2] at this
    exact this
  have tri2 : √(p.skal d d) ≤ √(p.skal D D) + √(p.skal t t) := by
    have e3 : d = D + -t := by rw [← e1]; funext k; simp
    have := triangle _ hg hp D (-t)
    rw [skalpro_neg, ← e3] at this
    exact this
  have hL : ∀ T, √(C18.len2 (sph p lb ub).lat T) = √(p.skal (C19.tvec p T) (C19.tvec p T)) := fun T => by rw [C19.len2_tvec F]
  have c0 : 0 ≤ √(p.skal D D) := Real.sqrt_nonneg _
  have ep := C45.eps_pos
  refine complete_double hv53 S0 (C19.good F lb ub) A hv (fun q hq => by rw [hL]; exact hlam q hq) ?_ ep hl hlr hc T ?_ ?_
  · show |lb - circumDiameter p| ≤ ub + circumDiameter p
    rw [abs_le]
    constructor <;> linarith
  · rw [hL]
    show lb - circumDiameter p + eps ≤ _
    linarith
  · rw [hL]
    show _ ≤ ub + circumDiameter p - eps
    linarith

end

/-! ### Examples -/

/-- The computed constants of a search between 1 and 10 in the cubic lattice. -/
def tenC : Cst ℚ where
  rmin2 := 1
  rmax2 := 100
  mHalf := rnd53 (10 * rnd53 (1 / 3))
  ar := rnd53 (1 / 3)
  dn0dm := 0
  do0dm := 0
  b2r := rnd53 (1 / 3)
  do0dn := 0
  c1r := rnd53 (1 / 3)

theorem third : rnd53 (1 / 3) = 6004799503160661 / 18014398509481984 := by decide +kernel
theorem tenM : rnd53 (10 * rnd53 (1 / 3)) = 7505999378950826 / 2251799813685248 := by decide +kernel

theorem ten_computed : Computed ⟨1, 10, cubic3⟩ tenC (1 / 2 ^ 53) 0 := by
  have e1 : cubic3.ar = 1 / 3 := by simp [Sphere.Lat.ar, Sphere.Lat.vunit, cubic3, Sphere.Lat.of, C18.cos90, C18.sin90]
  have e2 : (⟨1, 10, cubic3⟩ : Sphere.Cst).b2r = 1 / 3 := by simp [Sphere.Cst.b2r, cubic3, Sphere.Lat.of, C18.sin90]
  have e3 : (⟨1, 10, cubic3⟩ : Sphere.Cst).c1r = 1 / 3 := by simp [Sphere.Cst.c1r, cubic3, Sphere.Lat.of]
  have e4 : (⟨1, 10, cubic3⟩ : Sphere.Cst).dn0dm = 0 := by simp [Sphere.Cst.dn0dm, Sphere.Lat.cgr, cubic3, Sphere.Lat.of, C18.cos90]
  have e5 : (⟨1, 10, cubic3⟩ : Sphere.Cst).do0dm = 0 := by simp [Sphere.Cst.do0dm, Sphere.Lat.cbr, cubic3, Sphere.Lat.of, C18.cos90]
  have e6 : (⟨1, 10, cubic3⟩ : Sphere.Cst).do0dn = 0 := by simp [Sphere.Cst.do0dn, Sphere.Cst.ca2r, cubic3, Sphere.Lat.of, C18.cos90]
  have e7 : (⟨1, 10, cubic3⟩ : Sphere.Cst).rmin2 = 1 := by simp [Sphere.Cst.rmin2]
  constructor
  · norm_num [tenC]
  · norm_num [tenC, e7]
  · show rnd53 100 = 100
    decide +kernel
  · simp only [tenC, tenM, e1]; norm_num [abs_le]
  · simp only [tenC, third, e1]; norm_num [abs_le]
  · rw [e2]; simp only [tenC, third]; norm_num [abs_le]
  · rw [e3]; simp only [tenC, third]; norm_num [abs_le]
  · rw [e4]; simp [tenC]
  · rw [e5]; simp [tenC]
  · rw [e6]; simp [tenC]
  · rw [e4]; simp
  · rw [e5]; simp
  · rw [e6]; simp

/-- The hypotheses of `complete_double` hold for this search with the margin `10^-12`: the point (1, 1, 1) is visited. -/
example : (1, 1, 1) ∈ points (numsOf rnd53 sqrt53 tenC) := by
  refine complete_double (lam := 3) (δ := 1 / 10 ^ 12) le_rfl le_rfl cubic3_good ten_computed (by norm_num) ?_ (by norm_num) (by norm_num)
    (by norm_num) (by norm_num) (by norm_num) _ ?_ ?_
  · rintro ⟨m, n, o⟩ hp
    rw [cubic3_len]
    refine Real.le_sqrt_of_sq_le ?_
    have h1 : (1 : ℤ) ≤ m ^ 2 + n ^ 2 + o ^ 2 := by
      by_contra h
      have s1 := sq_nonneg m
      have s2 := sq_nonneg n
      have s3 := sq_nonneg o
      have z1 : m = 0 := pow_eq_zero_iff two_ne_zero |>.1 (by omega)
      have z2 : n = 0 := pow_eq_zero_iff two_ne_zero |>.1 (by omega)
      have z3 : o = 0 := pow_eq_zero_iff two_ne_zero |>.1 (by omega)
      exact hp (by rw [z1, z2, z3])
    have h2 : ((1 : ℤ) : ℝ) ≤ ((m ^ 2 + n ^ 2 + o ^ 2 : ℤ) : ℝ) := Int.cast_le.2 h1
    push_cast at h2 ⊢
    linarith
  · rw [cubic3_len]
    refine Real.le_sqrt_of_sq_le ?_
    norm_num
  · rw [cubic3_len]
    refine Real.sqrt_le_iff.2 ⟨by norm_num, by norm_num⟩

example : (points (numsOf rnd53 sqrt53 tenC)).Nodup := once_double _ (by rw [show tenC.c1r = _ from third]; norm_num)

end Pdffit.C89
