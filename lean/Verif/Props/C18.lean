import Verif.Lemmas.Sphere
import Mathlib.Tactic.NormNum
import Mathlib.Tactic.Positivity

/-!
# C18 The lattice-point generator visits exactly the points of the spherical shell

Violated at one place: when a lattice point lies exactly at the distance `Rmin`, the code does not
notice the hole (`fabs(hole_o-o0line) < oExclHalfSpan` is false because the two are equal) and visits the points inside
it.  `visits_origin` is a witness: cubic lattice, `Rmin = 1`, `Rmax = 2`, the origin is visited.

* `complete`: every point with `Rmin ≤ r < Rmax` is visited, each point at most once, and all visited points have `r < Rmax`.
* `shell_partial`: exactly the points of the shell are visited when no lattice point is at the distance `Rmin`.
* `no_rmin`: for `Rmin ≤ 0` exactly the points with `r < Rmax` are visited.

Termination is part of the definition of `points` (all loops are accepted as total recursive functions).
-/

namespace Pdffit.C18
open Sphere

/-- Lattice parameters of a lattice: positive edges, angles strictly between 0 and 180 degrees, positive volume. -/
structure Good (l : Lat) : Prop where
  a : 0 < l.a
  b : 0 < l.b
  c : 0 < l.c
  sa : 0 < l.sa
  sb : 0 < l.sb
  sg : 0 < l.sg
  ea : l.sa ^ 2 + l.ca ^ 2 = 1
  eb : l.sb ^ 2 + l.cb ^ 2 = 1
  eg : l.sg ^ 2 + l.cg ^ 2 = 1
  vol : 0 < 1 + 2 * l.ca * l.cb * l.cg - l.ca * l.ca - l.cb * l.cb - l.cg * l.cg

/-- Square of the length of the lattice vector `m a + n b + o c` (law of cosines). -/
def len2 (l : Lat) (p : ℤ × ℤ × ℤ) : ℝ :=
  p.1 ^ 2 * l.a ^ 2 + p.2.1 ^ 2 * l.b ^ 2 + p.2.2 ^ 2 * l.c ^ 2 + 2 * p.1 * p.2.1 * l.a * l.b * l.cg +
    2 * p.1 * p.2.2 * l.a * l.c * l.cb + 2 * p.2.1 * p.2.2 * l.b * l.c * l.ca

section
variable {k : Cst} (g : Good k.lat)
include g

theorem vunit_pos : 0 < k.lat.vunit := Real.sqrt_pos.2 g.vol

theorem vunit_sq : k.lat.vunit ^ 2 =
    1 + 2 * k.lat.ca * k.lat.cb * k.lat.cg - k.lat.ca * k.lat.ca - k.lat.cb * k.lat.cb - k.lat.cg * k.lat.cg :=
  Real.sq_sqrt g.vol.le

theorem ar_pos : 0 < k.lat.ar := div_pos g.sa (mul_pos g.a (vunit_pos g))
theorem b2r_pos : 0 < k.b2r := div_pos one_pos (mul_pos g.b g.sa)
theorem c1r_pos : 0 < k.c1r := div_pos one_pos g.c

/-- Completing the square. -/
theorem len2_eq (m n o : ℤ) : len2 k.lat (m, n, o) =
    (m / k.lat.ar) ^ 2 + ((n - n0 k m) / k.b2r) ^ 2 + ((o - o0 k m n) / k.c1r) ^ 2 := by
  have ha := g.a.ne'
  have hb := g.b.ne'
  have hc := g.c.ne'
  have hsa := g.sa.ne'
  have hsb := g.sb.ne'
  have hsg := g.sg.ne'
  have hv := (vunit_pos g).ne'
  have hv2 := vunit_sq g
  have h1 := g.ea
  have e1 : (m : ℝ) / k.lat.ar = m * k.lat.a * k.lat.vunit / k.lat.sa := by
    unfold Lat.ar; field_simp
  have e2 : ((n : ℝ) - n0 k m) / k.b2r = (n * k.lat.b * k.lat.sa ^ 2 - m * k.lat.a * (k.lat.ca * k.lat.cb - k.lat.cg)) / k.lat.sa := by
    unfold n0 Cst.dn0dm Cst.b2r Lat.cgr Lat.br Lat.ar; field_simp
  have e3 : ((o : ℝ) - o0 k m n) / k.c1r = o * k.lat.c + n * k.lat.b * k.lat.ca + m * k.lat.a * k.lat.cb := by
    have h2 : k.lat.sa ^ 2 = 1 - k.lat.ca ^ 2 := by linarith
    have : ((o : ℝ) - o0 k m n) / k.c1r = o * k.lat.c + n * k.lat.b * k.lat.ca -
        (m * k.lat.a * (k.lat.ca * k.lat.cg - k.lat.cb) + k.lat.ca * (m * k.lat.a * (k.lat.ca * k.lat.cb - k.lat.cg))) / k.lat.sa ^ 2 := by
      unfold o0 o0p n0 Cst.do0dm Cst.dn0dm Cst.do0dn Cst.ca2r Cst.c2r Cst.b2r Cst.c1r Lat.cgr Lat.cbr Lat.br Lat.cr Lat.ar
      field_simp
      ring
    rw [this]
    have h3 : m * k.lat.a * (k.lat.ca * k.lat.cg - k.lat.cb) + k.lat.ca * (m * k.lat.a * (k.lat.ca * k.lat.cb - k.lat.cg)) =
        -(m * k.lat.a * k.lat.cb) * k.lat.sa ^ 2 := by rw [h2]; ring
    rw [h3]
    field_simp
    ring
  rw [e1, e2, e3]
  have h2 : k.lat.sa ^ 2 = 1 - k.lat.ca ^ 2 := by linarith
  have e4 : (m * k.lat.a * k.lat.vunit / k.lat.sa) ^ 2 +
      ((n * k.lat.b * k.lat.sa ^ 2 - m * k.lat.a * (k.lat.ca * k.lat.cb - k.lat.cg)) / k.lat.sa) ^ 2 =
      (m * k.lat.a) ^ 2 * (1 - k.lat.cb ^ 2) + (n * k.lat.b) ^ 2 * k.lat.sa ^ 2 -
        2 * (m * k.lat.a) * (n * k.lat.b) * (k.lat.ca * k.lat.cb - k.lat.cg) := by
    have h5 : (m * k.lat.a * k.lat.vunit) ^ 2 = (m * k.lat.a) ^ 2 * k.lat.vunit ^ 2 := by ring
    rw [div_pow, div_pow, ← add_div, h5, hv2, div_eq_iff (pow_ne_zero 2 hsa), h2]
    ring
  rw [e4, h2]
  unfold len2
  dsimp only
  ring

omit g in
theorem mem_half {x h : ℝ} {i : ℤ} : (⌊x - h⌋ + 1 ≤ i ∧ i < ⌈x + h⌉) ↔ |(i : ℝ) - x| < h := by
  rw [Int.lt_ceil, Int.add_one_le_iff, Int.floor_lt, abs_lt]
  constructor
  · rintro ⟨h1, h2⟩; exact ⟨by linarith, by linarith⟩
  · rintro ⟨h1, h2⟩; exact ⟨by linarith, by linarith⟩

omit g in
theorem abs_half {x q r : ℝ} (hq : 0 < q) : |x| < (if 0 < r then √r * q else 0) ↔ (x / q) ^ 2 < r := by
  split
  · rename_i h
    rw [← div_lt_iff₀ hq, ← abs_of_pos hq, ← abs_div, abs_of_pos hq, Real.lt_sqrt (abs_nonneg _), sq_abs]
  · rename_i h
    constructor
    · intro h1; exact absurd h1 (not_lt.2 (abs_nonneg _))
    · intro h1; exact absurd (lt_of_le_of_lt (sq_nonneg _) h1) h

theorem exc_nonneg (m n : ℤ) : 0 ≤ exc k m n := by
  unfold exc
  split
  · exact mul_nonneg (Real.sqrt_nonneg _) (c1r_pos g).le
  · exact le_rfl

/-- Distance from the centre of the hole. -/
theorem exc_iff (m n o : ℤ) : |(o : ℝ) - o0 k m n| < exc k m n ↔ len2 k.lat (m, n, o) < k.rmin2 := by
  unfold exc
  rw [abs_half (c1r_pos g), len2_eq g]
  unfold re rl rp
  constructor <;> intro h <;> linarith

theorem half_iff (m n o : ℤ) : |(o : ℝ) - o0 k m n| < oHalf k m n ↔ len2 k.lat (m, n, o) < k.rmax2 := by
  unfold oHalf
  rw [abs_half (c1r_pos g), len2_eq g]
  unfold rl rp
  constructor <;> intro h <;> linarith

/-- The points of a line. -/
theorem mem_oList (m n o : ℤ) : o ∈ oList k m n ↔ len2 k.lat (m, n, o) < k.rmax2 ∧
    (Hole k m n → k.rmin2 ≤ len2 k.lat (m, n, o)) := by
  rw [← half_iff g, ← not_lt, ← exc_iff g]
  rw [← mem_half]
  have hhalf : 0 ≤ oHalf k m n := by
    unfold oHalf
    split
    · exact mul_nonneg (Real.sqrt_nonneg _) (c1r_pos g).le
    · exact le_rfl
  have hexc := exc_nonneg g m n
  unfold oList
  by_cases hh : Hole k m n
  · have e1 : hi1 k m n = ⌈o0 k m n - exc k m n⌉ := by unfold hi1; exact if_pos hh
    have hpos : 0 < exc k m n := lt_of_le_of_ne hexc (Ne.symm hh.1)
    have hH := abs_lt.1 hh.2
    have hH1 : o0 k m n - exc k m n < ((⌈o0 k m n - exc k m n⌉ : ℤ) : ℝ) := by linarith [hH.1]
    have hH2 : ⌈o0 k m n - exc k m n⌉ < ⌈o0 k m n + exc k m n⌉ := by
      rw [Int.lt_ceil]; linarith [hH.2]
    have key : ¬ |(o : ℝ) - o0 k m n| < exc k m n ↔ o < ⌈o0 k m n - exc k m n⌉ ∨ ⌈o0 k m n + exc k m n⌉ ≤ o := by
      rw [abs_lt, Int.ceil_le]
      constructor
      · intro h
        by_cases h1 : (o : ℝ) ≤ o0 k m n - exc k m n
        · left
          have : (o : ℝ) < ((⌈o0 k m n - exc k m n⌉ : ℤ) : ℝ) := lt_of_le_of_lt h1 hH1
          exact_mod_cast this
        · right
          by_contra h2
          exact h ⟨by linarith [not_le.1 h1], by linarith [not_le.1 h2]⟩
      · rintro (h | h) ⟨h1, h2⟩
        · rw [Int.lt_ceil] at h
          linarith
        · linarith
    have hL : ⌈o0 k m n + exc k m n⌉ ≤ o → ⌊o0 k m n - oHalf k m n⌋ + 1 ≤ o := by
      intro h
      rw [Int.ceil_le] at h
      rw [Int.add_one_le_iff, Int.floor_lt]
      linarith
    have hU : o < ⌈o0 k m n - exc k m n⌉ → o < ⌈o0 k m n + oHalf k m n⌉ := by
      intro h
      rw [Int.lt_ceil] at h ⊢
      linarith
    rw [e1, List.mem_append, mem_ints]
    simp only [hh, key, forall_const]
    split
    · rw [mem_ints]; omega
    · rename_i hne
      simp only [List.not_mem_nil, or_false]
      have hne := not_not.1 hne
      omega
  · have e1 : hi1 k m n = ⌈o0 k m n + oHalf k m n⌉ := by unfold hi1; exact if_neg hh
    rw [e1, List.mem_append, mem_ints]
    simp [hh]

omit g in
theorem nodup_oList (g : Good k.lat) (m n : ℤ) : (oList k m n).Nodup := by
  unfold oList
  rw [List.nodup_append]
  refine ⟨nodup_ints _ _, ?_, ?_⟩
  · split
    · exact nodup_ints _ _
    · simp
  · intro x hx y hy
    split at hy
    · rename_i hne
      have hh : Hole k m n := by
        by_contra h
        exact hne (by unfold hi1; exact if_neg h)
      have e1 : hi1 k m n = ⌈o0 k m n - exc k m n⌉ := by unfold hi1; exact if_pos hh
      rw [e1, mem_ints] at hx
      rw [mem_ints] at hy
      have : ⌈o0 k m n - exc k m n⌉ ≤ ⌈o0 k m n + exc k m n⌉ := Int.ceil_mono (by linarith [exc_nonneg g m n])
      omega
    · simp at hy

/-- The points visited. -/
theorem mem_points (hmax : 0 ≤ k.rmax) (p : ℤ × ℤ × ℤ) : p ∈ points k ↔ len2 k.lat p < k.rmax ^ 2 ∧
    (Hole k p.1 p.2.1 → k.rmin2 ≤ len2 k.lat p) := by
  have hr2 : k.rmax2 = k.rmax ^ 2 := by unfold Cst.rmax2; rw [if_neg (not_lt.2 hmax)]; ring
  obtain ⟨m, n, o⟩ := p
  rw [points_eq, ← hr2, List.mem_flatMap]
  have hm : ∀ m' : ℤ, m' ∈ ints (-k.hiM + 1) k.hiM ↔ (m' / k.lat.ar) ^ 2 < k.rmax2 := by
    intro m'
    have e : (-k.hiM + 1 ≤ m' ∧ m' < k.hiM) ↔ |(m' : ℝ) - 0| < k.rmax * k.lat.ar := by
      rw [← mem_half, zero_sub, Int.floor_neg, zero_add]
      rfl
    rw [mem_ints, e, sub_zero, ← div_lt_iff₀ (ar_pos g), ← abs_of_pos (ar_pos g), ← abs_div, abs_of_pos (ar_pos g), hr2,
      sq_lt_sq, abs_of_nonneg hmax]
  have hn : ∀ m' n' : ℤ, n' ∈ ints (⌊n0 k m' - nHalf k m'⌋ + 1) ⌈n0 k m' + nHalf k m'⌉ ↔ ((n' - n0 k m') / k.b2r) ^ 2 < rp k m' := by
    intro m' n'
    rw [mem_ints, mem_half]
    unfold nHalf
    exact abs_half (b2r_pos g)
  have hl := len2_eq g m n o
  constructor
  · rintro ⟨m', hm', h⟩
    simp only [plane, List.mem_flatMap, line, List.mem_map] at h
    obtain ⟨n', hn', o', ho', e⟩ := h
    simp only [Prod.mk.injEq] at e
    obtain ⟨rfl, rfl, rfl⟩ := e
    exact (mem_oList g _ _ _).1 ho'
  · rintro ⟨h1, h2⟩
    have s1 : 0 ≤ ((n - n0 k m) / k.b2r) ^ 2 := sq_nonneg _
    have s2 : 0 ≤ ((o - o0 k m n) / k.c1r) ^ 2 := sq_nonneg _
    refine ⟨m, (hm m).2 (by linarith), ?_⟩
    simp only [plane, List.mem_flatMap, line, List.mem_map]
    refine ⟨n, (hn m n).2 (by unfold rp; linarith), o, (mem_oList g _ _ _).2 ⟨h1, h2⟩, rfl⟩

theorem nodup_points : (points k).Nodup := by
  rw [points_eq]
  rw [List.nodup_flatMap]
  refine ⟨fun m _ => ?_, ?_⟩
  · unfold plane
    rw [List.nodup_flatMap]
    refine ⟨fun n _ => ?_, ?_⟩
    · unfold line
      exact (nodup_oList g m n).map fun a b h => by simpa using h
    · refine (nodup_ints _ _).imp fun {a b} hab => ?_
      intro x h1 h2
      simp only [line, List.mem_map] at h1 h2
      obtain ⟨_, _, rfl⟩ := h1
      obtain ⟨_, _, e⟩ := h2
      simp only [Prod.mk.injEq] at e
      exact hab e.2.1.symm
  · refine (nodup_ints _ _).imp fun {a b} hab => ?_
    intro x h1 h2
    simp only [plane, line, List.mem_flatMap, List.mem_map] at h1 h2
    obtain ⟨_, _, _, _, rfl⟩ := h1
    obtain ⟨_, _, _, _, e⟩ := h2
    simp only [Prod.mk.injEq] at e
    exact hab e.1.symm

end

/-- Every lattice point with `Rmin ≤ r < Rmax` is visited; no point is visited twice; every visited
point has `r < Rmax`. -/
theorem complete (k : Cst) (g : Good k.lat) (h0 : 0 ≤ k.rmin) (hmax : 0 ≤ k.rmax) :
    (points k).Nodup ∧ (∀ p, k.rmin ^ 2 ≤ len2 k.lat p → len2 k.lat p < k.rmax ^ 2 → p ∈ points k) ∧
    ∀ p ∈ points k, len2 k.lat p < k.rmax ^ 2 := by
  have hr2 : k.rmin2 = k.rmin ^ 2 := by unfold Cst.rmin2; rw [if_neg (not_lt.2 h0)]; ring
  refine ⟨nodup_points g, fun p h1 h2 => ?_, fun p hp => ((mem_points g hmax p).1 hp).1⟩
  rw [mem_points g hmax]
  exact ⟨h2, fun _ => by rw [hr2]; exact h1⟩

/-- Exactly the shell is visited when no lattice point is at the distance `Rmin`. -/
theorem shell_partial (k : Cst) (g : Good k.lat) (h0 : 0 ≤ k.rmin) (hmax : 0 ≤ k.rmax)
    (hne : ∀ p, len2 k.lat p ≠ k.rmin ^ 2) (p : ℤ × ℤ × ℤ) :
    p ∈ points k ↔ k.rmin ^ 2 ≤ len2 k.lat p ∧ len2 k.lat p < k.rmax ^ 2 := by
  have hr2 : k.rmin2 = k.rmin ^ 2 := by unfold Cst.rmin2; rw [if_neg (not_lt.2 h0)]; ring
  obtain ⟨m, n, o⟩ := p
  rw [mem_points g hmax]
  constructor
  · rintro ⟨h1, h2⟩
    refine ⟨?_, h1⟩
    by_contra hc
    rw [not_le, ← hr2, ← exc_iff g] at hc
    have hpos : 0 < exc k m n := lt_of_le_of_lt (abs_nonneg _) hc
    have hh : Hole k m n := by
      refine ⟨hpos.ne', ?_⟩
      have hceil : ((⌈o0 k m n - exc k m n⌉ : ℤ) : ℝ) ≤ o := by
        have : ⌈o0 k m n - exc k m n⌉ ≤ o := by rw [Int.ceil_le]; linarith [(abs_lt.1 hc).1]
        exact_mod_cast this
      have hle := Int.le_ceil (o0 k m n - exc k m n)
      have hlt : o0 k m n - exc k m n ≠ ((⌈o0 k m n - exc k m n⌉ : ℤ) : ℝ) := by
        intro he
        have h3 := len2_eq g m n ⌈o0 k m n - exc k m n⌉
        rw [← he] at h3
        have hre : 0 < re k m n := by
          by_contra hre
          rw [exc, if_neg hre] at hpos
          exact lt_irrefl _ hpos
        have e4 : ((o0 k m n - exc k m n - o0 k m n) / k.c1r) ^ 2 = re k m n := by
          rw [exc, if_pos hre]
          have := (c1r_pos g).ne'
          have e5 : (o0 k m n - √(re k m n) * k.c1r - o0 k m n) / k.c1r = -√(re k m n) := by
            field_simp; ring
          rw [e5, neg_sq, Real.sq_sqrt hre.le]
        rw [e4] at h3
        refine hne _ (h3.trans ?_)
        unfold re rl rp
        rw [hr2]
        ring
      rw [abs_lt]
      exact ⟨by linarith [lt_of_le_of_ne hle hlt], by linarith [(abs_lt.1 hc).2]⟩
    have := h2 hh
    rw [← not_lt, ← exc_iff g] at this
    exact this hc
  · rintro ⟨h1, h2⟩
    exact ⟨h2, fun _ => by rw [hr2]; exact h1⟩

/-- For `Rmin ≤ 0` exactly the points with `r < Rmax` are visited. -/
theorem no_rmin (k : Cst) (g : Good k.lat) (h0 : k.rmin ≤ 0) (hmax : 0 ≤ k.rmax) (p : ℤ × ℤ × ℤ) :
    p ∈ points k ↔ len2 k.lat p < k.rmax ^ 2 := by
  have hr2 : k.rmin2 ≤ 0 := by
    unfold Cst.rmin2
    split
    · nlinarith [mul_self_nonneg k.rmin]
    · rename_i h
      have : k.rmin = 0 := le_antisymm h0 (not_lt.1 h)
      simp [this]
  rw [mem_points g hmax, and_iff_left]
  intro _
  obtain ⟨m, n, o⟩ := p
  rw [len2_eq g]
  have : 0 ≤ (m / k.lat.ar) ^ 2 + ((n - n0 k m) / k.b2r) ^ 2 + ((o - o0 k m n) / k.c1r) ^ 2 := by positivity
  exact le_trans hr2 this

/-- The constructor with angles gives a good lattice. -/
theorem good_of (a b c al be ga : ℝ) (ha : 0 < a) (hb : 0 < b) (hc : 0 < c) (h1 : 0 < al ∧ al < 180)
    (h2 : 0 < be ∧ be < 180) (h3 : 0 < ga ∧ ga < 180)
    (hv : 0 < 1 + 2 * Real.cos (Real.pi / 180 * al) * Real.cos (Real.pi / 180 * be) * Real.cos (Real.pi / 180 * ga) -
      Real.cos (Real.pi / 180 * al) * Real.cos (Real.pi / 180 * al) -
      Real.cos (Real.pi / 180 * be) * Real.cos (Real.pi / 180 * be) -
      Real.cos (Real.pi / 180 * ga) * Real.cos (Real.pi / 180 * ga)) : Good (Lat.of a b c al be ga) := by
  have hs : ∀ x : ℝ, 0 < x ∧ x < 180 → 0 < Real.sin (Real.pi / 180 * x) := by
    intro x hx
    apply Real.sin_pos_of_pos_of_lt_pi
    · have := Real.pi_pos; have := hx.1; positivity
    · have := Real.pi_pos
      have h4 := hx.2
      calc Real.pi / 180 * x < Real.pi / 180 * 180 := by apply mul_lt_mul_of_pos_left h4; positivity
        _ = Real.pi := by ring
  exact ⟨ha, hb, hc, hs _ h1, hs _ h2, hs _ h3, Real.sin_sq_add_cos_sq _, Real.sin_sq_add_cos_sq _,
    Real.sin_sq_add_cos_sq _, hv⟩

/-- Cubic lattice with edge 1. -/
noncomputable def cubic : Lat := Lat.of 1 1 1 90 90 90

theorem cos90 : Real.cos (Real.pi / 180 * 90) = 0 := by
  rw [show Real.pi / 180 * 90 = Real.pi / 2 by ring, Real.cos_pi_div_two]

theorem sin90 : Real.sin (Real.pi / 180 * 90) = 1 := by
  rw [show Real.pi / 180 * 90 = Real.pi / 2 by ring, Real.sin_pi_div_two]

theorem cubic_good : Good cubic := by
  apply good_of <;> norm_num [cos90]

/-- Violation: with `Rmin = 1`, `Rmax = 2` in the cubic lattice the origin is visited. -/
theorem visits_origin : (0, 0, 0) ∈ points ⟨1, 2, cubic⟩ ∧ len2 cubic (0, 0, 0) < (1 : ℝ) ^ 2 := by
  have hl : len2 cubic (0, 0, 0) = 0 := by simp [len2]
  refine ⟨?_, by rw [hl]; norm_num⟩
  rw [mem_points (k := ⟨1, 2, cubic⟩) cubic_good (by norm_num)]
  refine ⟨by dsimp only; rw [hl]; norm_num, fun h => absurd h ?_⟩
  intro h
  have e0 : o0 ⟨1, 2, cubic⟩ 0 0 = 0 := by simp [o0, o0p, n0]
  have e1 : exc ⟨1, 2, cubic⟩ 0 0 = 1 := by
    simp [exc, re, rl, rp, n0, Cst.rmin2, Cst.rmax2, Cst.c1r, cubic, Lat.of]
    norm_num
  have := h.2
  rw [e0, e1] at this
  norm_num at this

/-- A case in which the hypotheses of `shell_partial` hold: `Rmin = 1/2`. -/
example : (1, 0, 0) ∈ points ⟨1/2, 2, cubic⟩ ∧ (0, 0, 0) ∉ points ⟨1/2, 2, cubic⟩ := by
  have hl : ∀ m n o : ℤ, len2 cubic (m, n, o) = ((m ^ 2 + n ^ 2 + o ^ 2 : ℤ) : ℝ) := by
    intro m n o
    simp [len2, cubic, Lat.of, cos90]
  have hne : ∀ p, len2 cubic p ≠ ((1 : ℝ) / 2) ^ 2 := by
    rintro ⟨m, n, o⟩ h
    rw [hl] at h
    have h2 : ((4 * (m ^ 2 + n ^ 2 + o ^ 2) : ℤ) : ℝ) = ((1 : ℤ) : ℝ) := by
      push_cast at h ⊢; linarith
    have := Int.cast_injective h2
    omega
  constructor
  · rw [shell_partial ⟨1/2, 2, cubic⟩ cubic_good (by norm_num) (by norm_num) hne, hl]
    norm_num
  · rw [shell_partial ⟨1/2, 2, cubic⟩ cubic_good (by norm_num) (by norm_num) hne, hl]
    norm_num

end Pdffit.C18
