import Verif.Props.C91
import Verif.Props.C71
import Mathlib.Analysis.Normed.Ring.InfiniteSum
import Mathlib.Analysis.SpecificLimits.Normed
import Mathlib.Topology.Algebra.InfiniteSum.Order

/-!
# C92: the calculated PDF is that of the infinite crystal

The PDF of a crystal is a sum of Gaussian peaks, one for each atom in the central cell and each other atom of the infinite crystal. The program
leaves out peaks of distant atoms and the ends of all peaks.

* `C92_infinite_partial`: what it leaves out at a point are peaks whose centre is more than five widths away, if five widths and a step are
  at most 1 Å; the calculated curve differs from that of the infinite crystal by the sum of these tails at most.
* `C92_tail`: each of them is less than `exp (-25 / 2)`, 0.0004 %, of the height of its peak; `C92_sum`: the sums are finite.
* `C92_below_partial`: with positive scattering factors the curve is never above that of the infinite crystal.
* `C92_wide`: without the condition on the widths the claim is false.
-/

namespace Pdffit.C92
open Det Bonds Geom C24 C68

section
variable (D : Data) (ph : PPhase) (A : Set ℝ) (a b : PAtom) (T : ℤ × ℤ × ℤ) (ig : ℤ)

/-- The atoms are different, their distance is regarded (a set of distances is needed for Qbroad, with which widths increase without limit),
and they have a peak. -/
def Seen : Prop := (1 / 100 ≤ d2 ph a b T ∧ √(d2 ph a b T) ∈ A) ∧ Draws D ph a b T

open Classical in
/-- The whole peak at a grid point. -/
noncomputable def whole : ℝ := if Seen D ph A a b T then gaus D (√(d2 ph a b T)) (width D ph a b T) ig else 0

open Classical in
/-- The same more than five widths from the centre. -/
noncomputable def tail : ℝ :=
  if Seen D ph A a b T ∧ 5 * width D ph a b T < |D.r ig - √(d2 ph a b T)| then gaus D (√(d2 ph a b T)) (width D ph a b T) ig else 0

end

/-- Widths are positive, and five widths and a step at most 1 Å. -/
def Thin (D : Data) (ph : PPhase) (A : Set ℝ) : Prop := ∀ i j, i < ph.atom.length → j < ph.atom.length → ∀ T,
  Seen D ph A (ph.atm i) (ph.atm j) T → 0 < width D ph (ph.atm i) (ph.atm j) T ∧ 5 * width D ph (ph.atm i) (ph.atm j) T + D.deltar ≤ 1

theorem gaus_nonneg (D : Data) {d g : ℝ} (hg : 0 ≤ g) (ig : ℤ) : 0 ≤ gaus D d g ig := by
  unfold gaus
  have := Real.pi_pos
  positivity

section
variable {D : Data} (h : D.Ok) {ph : PPhase} {A : Set ℝ}

include h in
/-- A point that the program leaves out is more than five widths from the centre. -/
theorem out_low {x : ℝ} {ig : ℤ} (hi : ig < idx D x) : D.r ig < x := by
  have h1 := C71.nint_le ((x - D.rmin) / D.deltar)
  have h2 : ((ig + 1 : ℤ) : ℝ) ≤ (idx D x : ℝ) := by exact_mod_cast hi
  unfold idx at h2
  push_cast at h2
  have h3 : (ig : ℝ) < (x - D.rmin) / D.deltar := by linarith
  rw [lt_div_iff₀ h.step] at h3
  show (ig : ℝ) * D.deltar + D.rmin < x
  linarith

include h in
theorem out_high {x : ℝ} {ig : ℤ} (hi : idx D x < ig) : x < D.r ig := by
  have h1 := C71.nint_ge ((x - D.rmin) / D.deltar)
  have h2 : (idx D x : ℝ) ≤ ((ig - 1 : ℤ) : ℝ) := by
    have : idx D x ≤ ig - 1 := by omega
    exact_mod_cast this
  unfold idx at h2
  push_cast at h2
  have h3 : (x - D.rmin) / D.deltar < (ig : ℝ) := by linarith
  rw [div_lt_iff₀ h.step] at h3
  show x < (ig : ℝ) * D.deltar + D.rmin
  linarith

include h in
/-- A pair contributes its whole peak or nothing; the latter only far from the centre. -/
theorem split (hc : 0 ≤ D.rcmax) (hA : ∀ x, x ≤ D.rcmax + 1 → x ∈ A) (W : Thin D ph A) {i j : ℕ} (hi : i < ph.atom.length)
    (hj : j < ph.atom.length) (T : ℤ × ℤ × ℤ) (amp : ℝ) {ig : ℤ} (h1 : D.ncmin ≤ ig) (h2 : ig ≤ D.ncmax) (hs : 0 < ph.stepcut → D.r ig ≤ ph.stepcut) :
    term D ph (ph.atm i) (ph.atm j) amp T ig = amp * whole D ph A (ph.atm i) (ph.atm j) T ig ∨
      term D ph (ph.atm i) (ph.atm j) amp T ig = 0 ∧
        tail D ph A (ph.atm i) (ph.atm j) T ig = whole D ph A (ph.atm i) (ph.atm j) T ig := by
  classical
  unfold whole tail
  by_cases hS : Seen D ph A (ph.atm i) (ph.atm j) T
  · obtain ⟨w0, w1⟩ := W i j hi hj T hS
    rw [term_free h hc (le_max_right (√(d2 ph (ph.atm i) (ph.atm j) T)) (D.rcmax + 1)) (fun _ => w1) amp h1 h2, if_pos hS]
    unfold free
    have hs' : 0 < ph.stepcut → ig ≤ idx D ph.stepcut := fun h0 => by
      by_contra hlt
      have := out_high h (not_le.1 hlt)
      linarith [hs h0]
    by_cases c1 : idx D (√(d2 ph (ph.atm i) (ph.atm j) T) - 5 * width D ph (ph.atm i) (ph.atm j) T) ≤ ig
    · by_cases c2 : ig ≤ idx D (√(d2 ph (ph.atm i) (ph.atm j) T) + 5 * width D ph (ph.atm i) (ph.atm j) T)
      · left
        rw [if_pos ⟨⟨⟨hS.1.1, le_max_left _ _⟩, hS.2⟩, c1, c2, hs'⟩]
      · right
        have := out_high h (not_le.1 c2)
        rw [if_neg fun c => c2 c.2.2.1, if_pos ⟨hS, lt_of_lt_of_le (by linarith) (le_abs_self _)⟩]
        exact ⟨rfl, rfl⟩
    · right
      have := out_low h (not_le.1 c1)
      rw [if_neg fun c => c1 c.2.1, if_pos ⟨hS, lt_of_lt_of_le (by linarith) (neg_le_abs _)⟩]
      exact ⟨rfl, rfl⟩
  · right
    rw [if_neg hS, if_neg fun c => hS c.1, term_char, if_neg]
    · exact ⟨rfl, rfl⟩
    · rintro ⟨⟨⟨ha, hb⟩, hd⟩, -⟩
      refine hS ⟨⟨(le_max_left _ _).trans ha, hA _ ?_⟩, hd⟩
      refine (Real.sqrt_le_sqrt hb).trans ?_
      unfold Data.rmax2
      rw [Real.sqrt_sq (by linarith)]

theorem tail_nonneg (W : Thin D ph A) {i j : ℕ} (hi : i < ph.atom.length) (hj : j < ph.atom.length) (T : ℤ × ℤ × ℤ) (ig : ℤ) :
    0 ≤ tail D ph A (ph.atm i) (ph.atm j) T ig := by
  unfold tail
  split
  · rename_i hS
    exact gaus_nonneg D (W i j hi hj T hS.1).1.le ig
  · exact le_rfl

theorem whole_nonneg (W : Thin D ph A) {i j : ℕ} (hi : i < ph.atom.length) (hj : j < ph.atom.length) (T : ℤ × ℤ × ℤ) (ig : ℤ) :
    0 ≤ whole D ph A (ph.atm i) (ph.atm j) T ig := by
  unfold whole
  split
  · rename_i hS
    exact gaus_nonneg D (W i j hi hj T hS).1.le ig
  · exact le_rfl

theorem tail_le_whole (W : Thin D ph A) {i j : ℕ} (hi : i < ph.atom.length) (hj : j < ph.atom.length) (T : ℤ × ℤ × ℤ) (ig : ℤ) :
    tail D ph A (ph.atm i) (ph.atm j) T ig ≤ whole D ph A (ph.atm i) (ph.atm j) T ig := by
  have := whole_nonneg W hi hj T ig
  unfold tail
  split
  · rename_i hS
    unfold whole
    rw [if_pos hS.1]
  · exact this

/-- Each tail is less than `exp (-25 / 2)` of the height of the peak, `1 / (√(2 π) σ)`. -/
theorem C92_tail (W : Thin D ph A) {i j : ℕ} (hi : i < ph.atom.length) (hj : j < ph.atom.length) (T : ℤ × ℤ × ℤ) (ig : ℤ) :
    tail D ph A (ph.atm i) (ph.atm j) T ig ≤ Real.exp (-(25 / 2)) * (1 / (√(2 * Real.pi) * width D ph (ph.atm i) (ph.atm j) T)) ∨
      tail D ph A (ph.atm i) (ph.atm j) T ig = 0 := by
  unfold tail
  split
  · left
    rename_i hS
    obtain ⟨w0, -⟩ := W i j hi hj T hS.1
    have h5 := hS.2
    unfold gaus
    generalize √(d2 ph (ph.atm i) (ph.atm j) T) = d at *
    generalize width D ph (ph.atm i) (ph.atm j) T = w at *
    rw [mul_comm]
    refine mul_le_mul_of_nonneg_right (Real.exp_le_exp.2 ?_) (by have := Real.pi_pos; positivity)
    have e : D.rmin + ig * D.deltar - d = D.r ig - d := by unfold Data.r; ring
    rw [e]
    have h6 : 25 ≤ ((D.r ig - d) / w) ^ 2 := by
      rw [div_pow, le_div_iff₀ (by positivity), ← sq_abs (D.r ig - d)]
      nlinarith
    linarith
  · exact .inr rfl

/-! ## The sums are finite -/

theorem exists_dual (F : C19.Fine ph.toPhs) (k : Fin 3) : ∃ y : Fin 3 → ℝ, ∀ x : Fin 3 → ℝ, ph.toPhs.skal x y = x k := by
  have hd : (Matrix.of ph.toPhs.gten).det ≠ 0 := by
    rw [C91.det_vol F]
    exact pow_ne_zero 2 (C91.phase_vol_pos F).ne'
  refine ⟨(Matrix.of ph.toPhs.gten)⁻¹.mulVec (Pi.single k 1), fun x => ?_⟩
  have h1 : (Matrix.of ph.toPhs.gten).mulVec ((Matrix.of ph.toPhs.gten)⁻¹.mulVec (Pi.single k 1)) = Pi.single k 1 := by
    rw [Matrix.mulVec_mulVec, Matrix.mul_nonsing_inv _ (isUnit_iff_ne_zero.2 hd), Matrix.one_mulVec]
  generalize (Matrix.of ph.toPhs.gten)⁻¹.mulVec (Pi.single k 1) = y at *
  have h2 : ph.toPhs.skal x y = x ⬝ᵥ (Matrix.of ph.toPhs.gten).mulVec y := by
    unfold Phs.skal skalpro dotProduct Matrix.mulVec dotProduct
    refine Finset.sum_congr rfl fun i _ => ?_
    rw [Finset.mul_sum]
    refine Finset.sum_congr rfl fun j _ => ?_
    show _ = x i * (ph.toPhs.gten i j * y j)
    ring
  rw [h2, h1, dotProduct_single, mul_one]

/-- The length of a translation grows with its components. -/
theorem exists_tlen (F : C19.Fine ph.toPhs) : ∃ c : ℝ, 0 < c ∧ ∀ T : ℤ × ℤ × ℤ, c * (|T.1| + |T.2.1| + |T.2.2| : ℤ) ≤ tlen ph T := by
  choose y hy using exists_dual (ph := ph) F
  have hp := C19.nonneg F
  have hg := ph.toPhs.gten_symm
  have hk : ∀ (T : ℤ × ℤ × ℤ) (k : Fin 3), |((![T.1, T.2.1, T.2.2] k : ℤ) : ℝ)| ≤ tlen ph T * √(ph.toPhs.skal (y k) (y k)) := by
    intro T k
    have h1 := cauchy_abs _ hg hp (C19.tvec ph.toPhs T) (y k)
    have h2 : skalpro ph.toPhs.gten (C19.tvec ph.toPhs T) (y k) = C19.tvec ph.toPhs T k := hy k _
    rw [h2] at h1
    refine le_trans ?_ h1
    unfold C19.tvec
    rw [abs_mul]
    have : (1 : ℝ) ≤ |((ph.toPhs.icc k : ℕ) : ℝ)| := by
      rw [Nat.abs_cast]
      exact_mod_cast F.icc k
    exact le_mul_of_one_le_right (abs_nonneg _) this
  set M := √(ph.toPhs.skal (y 0) (y 0)) + √(ph.toPhs.skal (y 1) (y 1)) + √(ph.toPhs.skal (y 2) (y 2)) + 1 with hM
  have hM0 : 0 < M := by positivity
  refine ⟨1 / M, by positivity, fun T => ?_⟩
  have k0 := hk T 0
  have k1 := hk T 1
  have k2 := hk T 2
  have t0 : 0 ≤ tlen ph T := Real.sqrt_nonneg _
  rw [one_div, inv_mul_le_iff₀ hM0]
  push_cast
  simp only [Matrix.cons_val] at k0 k1 k2
  rw [hM]
  nlinarith

theorem summable_abs {c : ℝ} (hc : 0 < c) : Summable fun T : ℤ × ℤ × ℤ => Real.exp (-(c * (|T.1| + |T.2.1| + |T.2.2| : ℤ))) := by
  have h1 : Summable fun n : ℤ => Real.exp (-(c * (|n| : ℤ))) := by
    have hn : Summable fun n : ℕ => Real.exp (-(c * n)) := by
      have := summable_geometric_of_lt_one (Real.exp_pos (-c)).le (Real.exp_lt_one_iff.2 (by linarith))
      refine this.congr fun n => ?_
      rw [← Real.exp_nat_mul]
      congr 1
      ring
    refine Summable.of_nat_of_neg ?_ ?_
    · refine hn.congr fun n => ?_
      simp
    · refine hn.congr fun n => ?_
      simp
  have h2 := h1.mul_of_nonneg (h1.mul_of_nonneg h1 (fun _ => (Real.exp_pos _).le) fun _ => (Real.exp_pos _).le)
    (fun _ => (Real.exp_pos _).le) fun _ => mul_nonneg (Real.exp_pos _).le (Real.exp_pos _).le
  refine h2.congr fun T => ?_
  rw [← Real.exp_add, ← Real.exp_add]
  congr 1
  push_cast
  ring

/-- A peak far from its centre. -/
theorem gaus_far {d w : ℝ} {ig : ℤ} (w0 : 0 < w) (w1 : 5 * w ≤ 1) (hx : 1 ≤ |D.r ig - d|) :
    gaus D d w ig ≤ 2 * Real.exp (-|D.r ig - d|) := by
  unfold gaus
  have e : D.rmin + ig * D.deltar - d = D.r ig - d := by unfold Data.r; ring
  rw [e, ← sq_abs ((D.r ig - d) / w), abs_div, abs_of_pos w0]
  generalize |D.r ig - d| = x at *
  have hp : 1 ≤ √(2 * Real.pi) := by
    rw [Real.one_le_sqrt]
    linarith [Real.two_le_pi]
  set y := 1 / w with hy
  have hy5 : 5 ≤ y := by rw [hy, le_div_iff₀ w0]; linarith
  have e1 : x / w = x * y := by rw [hy]; ring
  have e2 : 1 / (√(2 * Real.pi) * w) ≤ y := by
    rw [hy]
    exact one_div_le_one_div_of_le w0 (le_mul_of_one_le_left w0.le hp)
  rw [e1]
  have e3 : y ≤ 2 * Real.exp (y ^ 2 / 4) := by
    have := Real.add_one_le_exp (y ^ 2 / 4)
    nlinarith [sq_nonneg (y - 1)]
  calc 1 / (√(2 * Real.pi) * w) * Real.exp (-(1 / 2) * (x * y) ^ 2) ≤ 2 * Real.exp (y ^ 2 / 4) * Real.exp (-(1 / 2) * (x * y) ^ 2) :=
        mul_le_mul_of_nonneg_right (e2.trans e3) (Real.exp_pos _).le
    _ = 2 * Real.exp (y ^ 2 / 4 + -(1 / 2) * (x * y) ^ 2) := by rw [mul_assoc, ← Real.exp_add]
    _ ≤ 2 * Real.exp (-x) := by
        refine mul_le_mul_of_nonneg_left (Real.exp_le_exp.2 ?_) zero_le_two
        have h1 : y ^ 2 ≤ (x * y) ^ 2 := by
          rw [mul_pow]
          exact le_mul_of_one_le_left (sq_nonneg _) (by nlinarith)
        have h2 : 25 * x ≤ (x * y) ^ 2 := by
          rw [mul_pow]
          have : 25 ≤ y ^ 2 := by nlinarith
          have : x ≤ x ^ 2 := by nlinarith
          nlinarith [sq_nonneg x]
        linarith

/-- The sum over the infinite crystal exists. -/
theorem C92_sum (F : C19.Fine ph.toPhs) (hd : 0 ≤ D.deltar) (W : Thin D ph A) {i j : ℕ} (hi : i < ph.atom.length) (hj : j < ph.atom.length)
    (ig : ℤ) : Summable (fun T => whole D ph A (ph.atm i) (ph.atm j) T ig) ∧ Summable fun T => tail D ph A (ph.atm i) (ph.atm j) T ig := by
  obtain ⟨c, hc, hT⟩ := exists_tlen F
  suffices hw : Summable (fun T => whole D ph A (ph.atm i) (ph.atm j) T ig) from
    ⟨hw, Summable.of_nonneg_of_le (fun T => tail_nonneg W hi hj T ig) (fun T => tail_le_whole W hi hj T ig) hw⟩
  set v := √(ph.toPhs.skal (fun k => (ph.atm i).pos k - (ph.atm j).pos k) fun k => (ph.atm i).pos k - (ph.atm j).pos k) with hv
  have hs := summable_abs hc
  refine Summable.of_norm_bounded_eventually (hs.mul_left (2 * Real.exp (|D.r ig| + v))) ?_
  have hf : ∀ᶠ T : ℤ × ℤ × ℤ in Filter.cofinite, Real.exp (-(c * (|T.1| + |T.2.1| + |T.2.2| : ℤ))) < Real.exp (-(|D.r ig| + v + 1)) :=
    (hs.tendsto_cofinite_zero).eventually (gt_mem_nhds (Real.exp_pos _))
  refine hf.mono fun T hlt => ?_
  rw [Real.exp_lt_exp] at hlt
  have h1 := hT T
  have h2 := (tri F i j T).1
  rw [← hv] at h2
  rw [Real.norm_of_nonneg (whole_nonneg W hi hj T ig)]
  unfold whole
  split
  · rename_i hS
    obtain ⟨w0, w1⟩ := W i j hi hj T hS
    change tlen ph T ≤ v + √(d2 ph (ph.atm i) (ph.atm j) T) at h2
    have h3 : √(d2 ph (ph.atm i) (ph.atm j) T) - |D.r ig| ≤ |D.r ig - √(d2 ph (ph.atm i) (ph.atm j) T)| := by
      have := neg_le_abs (D.r ig - √(d2 ph (ph.atm i) (ph.atm j) T))
      have := le_abs_self (D.r ig)
      linarith
    refine (gaus_far w0 (by linarith) (by linarith)).trans ?_
    rw [mul_assoc, ← Real.exp_add]
    refine mul_le_mul_of_nonneg_left (Real.exp_le_exp.2 ?_) zero_le_two
    linarith
  · positivity

/-! ## The curve -/

/-- Product of the scattering lengths of a pair in units of the average. -/
noncomputable def amp (ph : PPhase) (i j : ℕ) : ℝ := (ph.atm i).occ * ph.weight i * ((ph.atm j).occ * ph.weight j)

open Classical in
/-- Sum of all peaks of the infinite crystal. -/
noncomputable def peaks (D : Data) (ph : PPhase) (s : Sel) (A : Set ℝ) (ig : ℤ) : ℝ :=
  ∑ i ∈ Finset.range ph.atom.length, ∑ j ∈ Finset.range ph.atom.length,
    if Selected s i j then amp ph i j * ∑' T, whole D ph A (ph.atm i) (ph.atm j) T ig else 0

open Classical in
/-- Sum of the tails. -/
noncomputable def tails (D : Data) (ph : PPhase) (s : Sel) (A : Set ℝ) (ig : ℤ) : ℝ :=
  ∑ i ∈ Finset.range ph.atom.length, ∑ j ∈ Finset.range ph.atom.length,
    if Selected s i j then |amp ph i j| * ∑' T, tail D ph A (ph.atm i) (ph.atm j) T ig else 0

/-- The PDF of the infinite crystal. -/
noncomputable def ideal (D : Data) (ph : PPhase) (s : Sel) (A : Set ℝ) (ig : ℤ) : ℝ :=
  (peaks D ph s A ig / ph.np / D.r ig + C71.base ph (ract ph s / rtot ph) (D.r ig)) * envelope D ph (D.r ig)

include h in
theorem pair_tail (hc : 0 ≤ D.rcmax) (hA : ∀ x, x ≤ D.rcmax + 1 → x ∈ A) (F : C19.Fine ph.toPhs) (N : Near ph) (R : C91.Reach D ph) (W : Thin D ph A)
    {i j : ℕ} (hi : i < ph.atom.length) (hj : j < ph.atom.length) {ig : ℤ} (h1 : D.ncmin ≤ ig) (h2 : ig ≤ D.ncmax)
    (hs : 0 < ph.stepcut → D.r ig ≤ ph.stepcut) :
    |S D ph i j ig - amp ph i j * ∑' T, whole D ph A (ph.atm i) (ph.atm j) T ig| ≤
        |amp ph i j| * ∑' T, tail D ph A (ph.atm i) (ph.atm j) T ig ∧
      (0 ≤ amp ph i j → S D ph i j ig ≤ amp ph i j * ∑' T, whole D ph A (ph.atm i) (ph.atm j) T ig) := by
  obtain ⟨sw, st⟩ := C92_sum F h.step.le W hi hj ig
  have hf := C91.reach_support F N R hi hj (amp ph i j) ig
  have sf : Summable fun T => term D ph (ph.atm i) (ph.atm j) (amp ph i j) T ig := summable_of_hasFiniteSupport hf
  have e : S D ph i j ig = ∑' T, term D ph (ph.atm i) (ph.atm j) (amp ph i j) T ig := by
    rw [C91.S_reach R hi hj, tsum_eq_finsum hf]
    rfl
  rw [e, ← tsum_mul_left, ← tsum_mul_left]
  constructor
  · rw [← (sf.tsum_sub (sw.mul_left _))]
    rw [← Real.norm_eq_abs]
    refine tsum_of_norm_bounded (st.mul_left |amp ph i j|).hasSum fun T => ?_
    rw [Real.norm_eq_abs]
    rcases split h hc hA W hi hj T (amp ph i j) h1 h2 hs with e | ⟨e1, e2⟩
    · rw [e, sub_self, abs_zero]
      exact mul_nonneg (abs_nonneg _) (tail_nonneg W hi hj T ig)
    · rw [e1, e2, zero_sub, abs_neg, abs_mul, abs_of_nonneg (whole_nonneg W hi hj T ig)]
  · intro h0
    refine sf.tsum_le_tsum (fun T => ?_) (sw.mul_left _)
    rcases split h hc hA W hi hj T (amp ph i j) h1 h2 hs with e | ⟨e1, e2⟩
    · exact e.le
    · rw [e1]
      exact mul_nonneg h0 (whole_nonneg W hi hj T ig)

include h in
theorem sum_tail (hc : 0 ≤ D.rcmax) (hA : ∀ x, x ≤ D.rcmax + 1 → x ∈ A) (F : C19.Fine ph.toPhs) (N : Near ph) (R : C91.Reach D ph) (W : Thin D ph A)
    (s : Sel) {ig : ℤ} (h1 : D.ncmin ≤ ig) (h2 : ig ≤ D.ncmax) (hs : 0 < ph.stepcut → D.r ig ≤ ph.stepcut) :
    |pairSum D ph s ig - peaks D ph s A ig| ≤ tails D ph s A ig ∧
      ((∀ i j, i < ph.atom.length → j < ph.atom.length → 0 ≤ amp ph i j) → pairSum D ph s ig ≤ peaks D ph s A ig) := by
  classical
  rw [pairSum_full F N]
  unfold peaks tails
  constructor
  · rw [← Finset.sum_sub_distrib]
    refine (Finset.abs_sum_le_sum_abs _ _).trans (Finset.sum_le_sum fun i hi => ?_)
    rw [← Finset.sum_sub_distrib]
    refine (Finset.abs_sum_le_sum_abs _ _).trans (Finset.sum_le_sum fun j hj => ?_)
    rw [Finset.mem_range] at hi hj
    by_cases hS : Selected s i j
    · rw [if_pos ((selected_iff s i j).2 hS), if_pos hS, if_pos hS]
      exact (pair_tail h hc hA F N R W hi hj h1 h2 hs).1
    · rw [if_neg (fun c => hS ((selected_iff s i j).1 c)), if_neg hS, if_neg hS, sub_self, abs_zero]
  · intro h0
    refine Finset.sum_le_sum fun i hi => Finset.sum_le_sum fun j hj => ?_
    rw [Finset.mem_range] at hi hj
    by_cases hS : Selected s i j
    · rw [if_pos ((selected_iff s i j).2 hS), if_pos hS]
      exact (pair_tail h hc hA F N R W hi hj h1 h2 hs).2 (h0 i j hi hj)
    · rw [if_neg (fun c => hS ((selected_iff s i j).1 c)), if_neg hS]

theorem envelope_cut {r : ℝ} (hs : ¬(0 < ph.stepcut → r ≤ ph.stepcut)) : envelope D ph r = 0 := by
  rw [Classical.not_imp] at hs
  unfold envelope
  rw [if_pos hs.1, if_neg hs.2, mul_zero]

theorem ok_rcmax (h : D.Ok) (h0 : 0 ≤ D.rmin) : 0 ≤ D.rcmax := by linarith [rcmin_ge h, rcmin_le h, h.hi, rcmax_ge (D := D)]

end

section
variable {D : Data} (h : D.Ok) (h0 : 0 ≤ D.rmin) (hq : D.qmax ≤ 0) {A : Set ℝ} (hA : ∀ x, x ≤ D.rcmax + 1 → x ∈ A)
  {psel : List (Option (PPhase × Sel))} {f : ℤ → ℝ} (hf : determine D psel = .ok (some f))
  (hp : ∀ x, some x ∈ psel → C19.Fine x.1.toPhs ∧ Near x.1 ∧ C91.Reach D x.1 ∧ Thin D x.1 A)
include h h0 hq hA hf hp

/-- The calculated curve differs from that of the infinite crystal by the sum of the tails at most. -/
theorem C92_infinite_partial (i : ℤ) (h1 : D.ncmin ≤ i) (h2 : i ≤ D.ncmax) :
    |f i - ((psel.filterMap id).map fun x => D.dscale * x.1.pscale * ideal D x.1 x.2 A i).sum| ≤
      ((psel.filterMap id).map fun x =>
        |D.dscale * x.1.pscale| * (tails D x.1 x.2 A i / |x.1.np| / |D.r i|) * |envelope D x.1 (D.r i)|).sum := by
  rw [(determine_some h hf).2 i h1 h2]
  have hm : ∀ x ∈ psel.filterMap id, some x ∈ psel := fun x hx => by
    rw [List.mem_filterMap] at hx
    obtain ⟨y, hy, rfl⟩ := hx
    exact hy
  have key : ∀ x ∈ psel.filterMap id, |D.dscale * x.1.pscale * filt D (curve D x.1 x.2) i - D.dscale * x.1.pscale * ideal D x.1 x.2 A i| ≤
      |D.dscale * x.1.pscale| * (tails D x.1 x.2 A i / |x.1.np| / |D.r i|) * |envelope D x.1 (D.r i)| := by
    intro x hx
    obtain ⟨F, N, R, W⟩ := hp x (hm x hx)
    unfold filt
    rw [if_neg hq.not_gt, ← mul_sub, abs_mul, mul_assoc]
    refine mul_le_mul_of_nonneg_left ?_ (abs_nonneg _)
    unfold curve ideal C71.base
    rw [← sub_mul, abs_mul]
    by_cases hs : 0 < x.1.stepcut → D.r i ≤ x.1.stepcut
    · refine mul_le_mul_of_nonneg_right ?_ (abs_nonneg _)
      have := (sum_tail h (ok_rcmax h h0) hA F N R W x.2 h1 h2 hs).1
      have e : pairSum D x.1 x.2 i / x.1.np / D.r i - 4 * Real.pi * D.r i * x.1.rho0 * (ract x.1 x.2 / rtot x.1) -
          (peaks D x.1 x.2 A i / x.1.np / D.r i + -(4 * Real.pi * D.r i * x.1.rho0 * (ract x.1 x.2 / rtot x.1))) =
          (pairSum D x.1 x.2 i - peaks D x.1 x.2 A i) / x.1.np / D.r i := by ring
      rw [e, abs_div, abs_div]
      gcongr
    · rw [envelope_cut hs, abs_zero, mul_zero, mul_zero]
  clear hf hp hm
  generalize psel.filterMap id = l at *
  induction l with
  | nil => simp
  | cons x l ih =>
    simp only [List.map_cons, List.sum_cons]
    have e : ∀ a b c d : ℝ, a + b - (c + d) = (a - c) + (b - d) := fun _ _ _ _ => by ring
    rw [e]
    exact (abs_add_le _ _).trans (add_le_add (key x List.mem_cons_self) (ih fun y hy => key y (List.mem_cons_of_mem _ hy)))

/-- With positive scattering lengths and scales the curve is not above that of the infinite crystal. -/
theorem C92_below_partial (i : ℤ) (h1 : D.ncmin ≤ i) (h2 : i ≤ D.ncmax)
    (hs : ∀ x, some x ∈ psel → (∀ a ∈ x.1.atom, 0 ≤ a.occ ∧ 0 ≤ a.sf) ∧ 0 ≤ D.dscale * x.1.pscale) :
    f i ≤ ((psel.filterMap id).map fun x => D.dscale * x.1.pscale * ideal D x.1 x.2 A i).sum := by
  rw [(determine_some h hf).2 i h1 h2]
  refine List.sum_le_sum fun x hx => ?_
  rw [List.mem_filterMap] at hx
  obtain ⟨y, hy, rfl⟩ := hx
  obtain ⟨F, N, R, W⟩ := hp x hy
  obtain ⟨a1, a3⟩ := hs x hy
  unfold filt
  rw [if_neg hq.not_gt]
  refine mul_le_mul_of_nonneg_left ?_ a3
  unfold curve ideal C71.base
  have hr : 0 ≤ D.r i := by
    have : (0 : ℝ) ≤ i := by exact_mod_cast (ncmin_nonneg h).trans h1
    have := h.step
    unfold Data.r
    positivity
  by_cases hc : 0 < x.1.stepcut → D.r i ≤ x.1.stepcut
  · refine mul_le_mul_of_nonneg_right ?_ (C71.envelope_nonneg D x.1 hr)
    have hn : 0 ≤ x.1.np := List.sum_nonneg fun z hz => by
      rw [List.mem_map] at hz
      obtain ⟨a, ha, rfl⟩ := hz
      exact (a1 a ha).1
    have := (sum_tail h (ok_rcmax h h0) hA F N R W x.2 h1 h2 hc).2 fun i j hi hj =>
      mul_nonneg (C71.weight_nonneg a1 i hi) (C71.weight_nonneg a1 j hj)
    rw [sub_eq_add_neg]
    gcongr
  · rw [envelope_cut hc, mul_zero, mul_zero]

end

/-! ## Example -/

theorem iso_thin (lo up : ℝ) : Thin (span isoD lo up) (iso (1 / 200)) Set.univ := by
  intro i j hi hj T hS
  have hi : i < 1 := hi
  have hj : j < 1 := hj
  interval_cases i
  interval_cases j
  have hT : T ≠ 0 := by
    rintro rfl
    have := hS.1.1
    rw [iso_d2] at this
    norm_num at this
  rw [(iso_width _ (span isoD lo up) rfl T).2, if_neg hT, show (2 * (1 / 200) : ℝ) = (1 / 10) ^ 2 by norm_num, Real.sqrt_sq (by norm_num)]
  norm_num [isoD, span]

/-- The hypotheses are satisfied: U = 0.005, the range 1-6, all distances. -/
example : ∃ f, determine (span isoD 1 6) [some (iso (1 / 200), C60.noSel)] = .ok (some f) ∧ ∀ i, (span isoD 1 6).ncmin ≤ i → i ≤ (span isoD 1 6).ncmax →
    |f i - 2 * ideal (span isoD 1 6) (iso (1 / 200)) C60.noSel Set.univ i| ≤
      2 * (tails (span isoD 1 6) (iso (1 / 200)) C60.noSel Set.univ i / (span isoD 1 6).r i) := by
  have o := isoD_ok (lo := 1) (hi := 6) le_rfl (by norm_num)
  obtain ⟨f, e1, -⟩ := determine_of o (psel := [some (iso (1 / 200), C60.noSel)]) (by
    intro x hx
    simp only [List.mem_singleton, Option.some.injEq] at hx
    subst hx
    exact iso_good (by norm_num) o one_pos _)
  refine ⟨f, e1, fun i h1 h2 => ?_⟩
  have k := C92_infinite_partial o (show (0 : ℝ) ≤ 1 by norm_num) (le_refl (0 : ℝ)) (A := Set.univ) (fun _ _ => Set.mem_univ _) e1 (by
    intro x hx
    simp only [List.mem_singleton, Option.some.injEq] at hx
    subst hx
    exact ⟨iso_fine _, iso_near _, C91.reach_free _ (iso_fine _) (iso_near _) le_rfl, iso_thin 1 6⟩) i h1 h2
  have hr : 0 ≤ (span isoD 1 6).r i := by
    have : (0 : ℝ) ≤ i := by exact_mod_cast (ncmin_nonneg o).trans h1
    show 0 ≤ (i : ℝ) * (1 / 2) + 1
    positivity
  have he : envelope (span isoD 1 6) (iso (1 / 200)) ((span isoD 1 6).r i) = 1 := by
    unfold envelope
    rw [if_neg (by show ¬(0 : ℝ) < 0; exact lt_irrefl _), if_neg (by show ¬(0 : ℝ) < 0; exact lt_irrefl _),
      if_neg (by show ¬(0 : ℝ) < 0; exact lt_irrefl _)]
    norm_num
  simp only [List.filterMap_cons, List.filterMap_nil, id, List.map_cons, List.map_nil, List.sum_cons, List.sum_nil, add_zero, he, iso_np,
    abs_of_nonneg hr] at k
  rw [show (span isoD 1 6).dscale * (iso (1 / 200)).pscale = 2 from (one_mul _)] at k
  norm_num at k
  exact k

/-! ## Violation: broad peaks -/

theorem short (u : ℝ) (ig : ℤ) : pairSum (span isoD 1 (3 / 2)) (iso u) C60.noSel ig = 0 := by
  rw [pairSum_iso]
  refine finsum_eq_zero_of_forall_eq_zero fun T => ?_
  rw [term_char, if_neg]
  rintro ⟨⟨⟨h1, h2⟩, -⟩, -⟩
  have r := span_rc (D := isoD) (lo := 1) (hi := 3 / 2) le_rfl
  have h1 := (le_max_left _ _).trans h1
  unfold Data.rmax2 at h2
  rw [r.2, iso_d2] at h2
  rw [iso_d2] at h1
  have h3 : (T.1 ^ 2 + T.2.1 ^ 2 + T.2.2 ^ 2 : ℤ) < 1 := by
    have : ((T.1 ^ 2 + T.2.1 ^ 2 + T.2.2 ^ 2 : ℤ) : ℝ) < 1 := by push_cast; linarith
    exact_mod_cast this
  have h4 : 0 < (T.1 ^ 2 + T.2.1 ^ 2 + T.2.2 ^ 2 : ℤ) := by
    have : (0 : ℝ) < ((T.1 ^ 2 + T.2.1 ^ 2 + T.2.2 ^ 2 : ℤ) : ℝ) := by push_cast; linarith
    exact_mod_cast this
  omega

/-- The pairs not further apart than 3 Å. -/
theorem few (D : Data) (u : ℝ) : {T | Seen D (iso u) (Set.Iic 3) ((iso u).atm 0) ((iso u).atm 0) T}.Finite := by
  refine (Set.finite_Icc ((-1, -1, -1) : ℤ × ℤ × ℤ) (1, 1, 1)).subset fun T hT => ?_
  have h := hT.1.2
  rw [Set.mem_Iic, iso_d2, Real.sqrt_le_left (by norm_num)] at h
  have h3 : (T.1 ^ 2 + T.2.1 ^ 2 + T.2.2 ^ 2 : ℤ) ≤ 1 := by
    have : ((T.1 ^ 2 + T.2.1 ^ 2 + T.2.2 ^ 2 : ℤ) : ℝ) ≤ 1 := by push_cast; linarith
    exact_mod_cast this
  obtain ⟨x, y, z⟩ := T
  dsimp only at h3
  refine ⟨⟨?_, ?_, ?_⟩, ⟨?_, ?_, ?_⟩⟩ <;> simp only <;> nlinarith [sq_nonneg x, sq_nonneg y, sq_nonneg z]

/-- Violation: with U = 0.2 the neighbours at 3 Å are left out at r = 1.5, less than five widths away; the calculated curve differs from that of
the infinite crystal by more than the tails. Only the condition on the widths is not satisfied. -/
theorem C92_wide : ∃ (D : Data) (ph : PPhase) (s : Sel) (A : Set ℝ) (f : ℤ → ℝ) (i : ℤ), D.Ok ∧ 0 ≤ D.rmin ∧ D.qmax ≤ 0 ∧
    (∀ x, x ≤ D.rcmax + 1 → x ∈ A) ∧ determine D [some (ph, s)] = .ok (some f) ∧ C19.Fine ph.toPhs ∧ Near ph ∧ C91.Reach D ph ∧
    D.ncmin ≤ i ∧ i ≤ D.ncmax ∧
    |D.dscale * ph.pscale| * (tails D ph s A i / |ph.np| / |D.r i|) * |envelope D ph (D.r i)| < |f i - D.dscale * ph.pscale * ideal D ph s A i| := by
  classical
  have o := isoD_ok (lo := 1) (hi := 3 / 2) le_rfl (by norm_num)
  have r := span_rc (D := isoD) (lo := 1) (hi := 3 / 2) le_rfl
  obtain ⟨f, e1, e2⟩ := determine_of o (psel := [some (iso (1 / 5), C60.noSel)]) (by
    intro x hx
    simp only [List.mem_singleton, Option.some.injEq] at hx
    subst hx
    exact iso_good (by norm_num) o one_pos _)
  have n1 : (span isoD 1 (3 / 2)).nfmin = 0 := by rw [isoD_nf.1, show ((1 : ℝ) - 1) * 2 = ((0 : ℤ) : ℝ) by norm_num, nint_int]
  have n2 : (span isoD 1 (3 / 2)).nfmax = 1 := by rw [isoD_nf.2, show ((3 / 2 : ℝ) - 1) * 2 = ((1 : ℤ) : ℝ) by norm_num, nint_int]
  have c1 : (span isoD 1 (3 / 2)).ncmin ≤ 1 := (ncmin_le_nfmin o).trans (by omega)
  have c2 : 1 ≤ (span isoD 1 (3 / 2)).ncmax := le_trans (by omega) (nfmax_le_ncmax o)
  have hr : (span isoD 1 (3 / 2)).r 1 = 3 / 2 := by
    show ((1 : ℤ) : ℝ) * (1 / 2) + 1 = 3 / 2
    norm_num
  refine ⟨span isoD 1 (3 / 2), iso (1 / 5), C60.noSel, Set.Iic 3, f, 1, o, zero_le_one, le_rfl, ?_, e1, iso_fine _, iso_near _,
    C91.reach_free _ (iso_fine _) (iso_near _) le_rfl, c1, c2, ?_⟩
  · intro x hx
    rw [r.2] at hx
    exact hx.trans (by norm_num)
  have he : envelope (span isoD 1 (3 / 2)) (iso (1 / 5)) (3 / 2) = 1 := by
    unfold envelope
    rw [if_neg (by show ¬(0 : ℝ) < 0; exact lt_irrefl _), if_neg (by show ¬(0 : ℝ) < 0; exact lt_irrefl _),
      if_neg (by show ¬(0 : ℝ) < 0; exact lt_irrefl _)]
    norm_num
  have hq : ∀ c : ℤ → ℝ, filt (span isoD 1 (3 / 2)) c 1 = c 1 := fun c => if_neg (by show ¬(0 : ℝ) < 0; exact lt_irrefl _)
  have ha : amp (iso (1 / 5)) 0 0 = 1 := by
    unfold amp
    rw [iso_weight, show ((iso (1 / 5)).atm 0).occ = 1 from rfl]
    norm_num
  have hl : (iso (1 / 5)).atom.length = 1 := rfl
  have hS : Selected C60.noSel 0 0 := (selected_iff _ _ _).1 rfl
  have hpk : peaks (span isoD 1 (3 / 2)) (iso (1 / 5)) C60.noSel (Set.Iic 3) 1 =
      ∑' T, whole (span isoD 1 (3 / 2)) (iso (1 / 5)) (Set.Iic 3) ((iso (1 / 5)).atm 0) ((iso (1 / 5)).atm 0) T 1 := by
    unfold peaks
    rw [hl, Finset.sum_range_one, Finset.sum_range_one, if_pos hS, ha, one_mul]
  have htl : tails (span isoD 1 (3 / 2)) (iso (1 / 5)) C60.noSel (Set.Iic 3) 1 =
      ∑' T, tail (span isoD 1 (3 / 2)) (iso (1 / 5)) (Set.Iic 3) ((iso (1 / 5)).atm 0) ((iso (1 / 5)).atm 0) T 1 := by
    unfold tails
    rw [hl, Finset.sum_range_one, Finset.sum_range_one, if_pos hS, ha, abs_one, one_mul]
  have w0 : ∀ T, 0 ≤ width (span isoD 1 (3 / 2)) (iso (1 / 5)) ((iso (1 / 5)).atm 0) ((iso (1 / 5)).atm 0) T := fun T =>
    C71.width_nonneg _ (.inl le_rfl) _ _ T
  have hlt : ∑' T, tail (span isoD 1 (3 / 2)) (iso (1 / 5)) (Set.Iic 3) ((iso (1 / 5)).atm 0) ((iso (1 / 5)).atm 0) T 1 <
      ∑' T, whole (span isoD 1 (3 / 2)) (iso (1 / 5)) (Set.Iic 3) ((iso (1 / 5)).atm 0) ((iso (1 / 5)).atm 0) T 1 := by
    have fw : (Function.support fun T => whole (span isoD 1 (3 / 2)) (iso (1 / 5)) (Set.Iic 3) ((iso (1 / 5)).atm 0) ((iso (1 / 5)).atm 0) T 1).Finite :=
      (few (span isoD 1 (3 / 2)) (1 / 5)).subset fun T hT => by
        by_contra hn
        exact hT (if_neg hn)
    have ft : (Function.support fun T => tail (span isoD 1 (3 / 2)) (iso (1 / 5)) (Set.Iic 3) ((iso (1 / 5)).atm 0) ((iso (1 / 5)).atm 0) T 1).Finite :=
      (few (span isoD 1 (3 / 2)) (1 / 5)).subset fun T hT => by
        by_contra hn
        exact hT (if_neg fun c => hn c.1)
    have hT : ((1, 0, 0) : ℤ × ℤ × ℤ) ≠ 0 := by decide
    have w := iso_width (1 / 5) (span isoD 1 (3 / 2)) rfl (1, 0, 0)
    rw [if_neg hT] at w
    have e9 : d2 (iso (1 / 5)) ((iso (1 / 5)).atm 0) ((iso (1 / 5)).atm 0) (1, 0, 0) = 9 := by rw [iso_d2]; norm_num
    have e3 : √(9 : ℝ) = 3 := by rw [show (9 : ℝ) = 3 ^ 2 by norm_num, Real.sqrt_sq (by norm_num)]
    have hs : 3 / 5 < √(2 * (1 / 5) : ℝ) := Real.lt_sqrt_of_sq_lt (by norm_num)
    have seen : Seen (span isoD 1 (3 / 2)) (iso (1 / 5)) (Set.Iic 3) ((iso (1 / 5)).atm 0) ((iso (1 / 5)).atm 0) (1, 0, 0) := by
      refine ⟨⟨by rw [e9]; norm_num, by rw [e9, e3]; exact Set.mem_Iic.2 le_rfl⟩, ?_, by rw [w.1]; exact one_pos, by rw [w.2]; linarith⟩
      rw [iso_msd, if_neg hT]
      norm_num
    refine Summable.tsum_lt_tsum (i := (1, 0, 0)) (fun T => ?_) ?_ (summable_of_hasFiniteSupport ft) (summable_of_hasFiniteSupport fw)
    · unfold tail whole
      split
      · rename_i c
        rw [if_pos c.1]
      · split
        · exact gaus_nonneg _ (w0 T) 1
        · exact le_rfl
    · unfold tail whole
      rw [if_pos seen, if_neg, w.2]
      · unfold gaus
        have := Real.pi_pos
        positivity
      · rintro ⟨-, c⟩
        rw [w.2, hr, e9, e3] at c
        rw [abs_of_neg (by norm_num)] at c
        linarith
  have hfi := e2 1 c1 c2
  simp only [List.filterMap_cons, List.filterMap_nil, id, List.map_cons, List.map_nil, List.sum_cons, List.sum_nil, hq, add_zero] at hfi
  rw [hfi]
  unfold curve ideal C71.base
  rw [short, hr, he, iso_np, hpk, htl, show (span isoD 1 (3 / 2)).dscale * (iso (1 / 5)).pscale = 2 from (one_mul _)]
  generalize ∑' T, whole (span isoD 1 (3 / 2)) (iso (1 / 5)) (Set.Iic 3) ((iso (1 / 5)).atm 0) ((iso (1 / 5)).atm 0) T 1 = a at *
  generalize ∑' T, tail (span isoD 1 (3 / 2)) (iso (1 / 5)) (Set.Iic 3) ((iso (1 / 5)).atm 0) ((iso (1 / 5)).atm 0) T 1 = b at *
  generalize 4 * Real.pi * (3 / 2) * (iso (1 / 5)).rho0 * (ract (iso (1 / 5)) C60.noSel / rtot (iso (1 / 5))) = c at *
  refine lt_of_lt_of_le ?_ (neg_le_abs _)
  norm_num
  linarith

end Pdffit.C92
