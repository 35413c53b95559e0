import Verif.Lemmas.FGrid
import Mathlib.Analysis.Real.Pi.Bounds

/-!
# C86  The points of a data set in double arithmetic

C30 and C31 are about exact numbers. Here every operation is rounded as in IEEE 754 double arithmetic (without overflow and underflow).
-/

namespace Pdffit.C86
open FGrid Binary

/-- The points of a data set: `bin` points from `lo` to `hi`, which are doubles. -/
structure Points (lo hi : ℚ) (bin : ℕ) : Prop where
  dlo : Is53 lo
  dhi : Is53 hi
  lt : lo < hi
  two : 2 ≤ bin
  int : bin ≤ 2 ^ 31

/-- The arguments of a call are doubles. -/
def Doubles : Op → Prop
  | .range lo hi => Is53 lo ∧ Is53 hi
  | .setq q => Is53 q
  | .determine => True

/-- A data set after any calls. -/
def After (src : Src) (lo hi : ℚ) (bin : ℕ) (g : G) : Prop :=
  ∃ qmax l, (∀ o ∈ l, Doubles o) ∧ g = run rnd53 (load rnd53 src qmax lo hi bin) l

/-- What all calls preserve. -/
structure Inv (lo hi : ℚ) (bin : ℕ) (g : G) : Prop where
  rmin : g.rmin = lo
  rmax : g.rmax = hi
  num : g.bin = bin
  step : g.deltar = rnd53 (rnd53 (hi - lo) / ((bin - 1 : ℤ) : ℚ))
  dlo : Is53 g.rfmin
  dhi : Is53 g.rfmax
  flo : lo ≤ g.rfmin
  lt : g.rfmin < g.rfmax
  fhi : g.rfmax ≤ hi
  n0 : 0 ≤ g.nfmin
  n1 : g.nfmin ≤ g.nfmax
  n2 : g.nfmax < bin

theorem Inv.pos {lo hi : ℚ} {bin : ℕ} {g : G} (p : Points lo hi bin) (h : Inv lo hi bin g) : 0 < g.deltar := by
  rw [h.step]
  refine rnd53_pos (div_pos (rnd53_pos (by linarith [p.lt])) ?_)
  have := p.two
  exact_mod_cast (by omega : (0 : ℤ) < (bin : ℤ) - 1)

theorem Inv.quot {lo hi : ℚ} {bin : ℕ} {g : G} (p : Points lo hi bin) (h : Inv lo hi bin g) :
    |rnd53 (rnd53 (g.rmax - g.rmin) / g.deltar) - ((bin - 1 : ℤ) : ℚ)| < 1 / 2 := by
  rw [h.rmax, h.rmin, h.step]
  have h2 := p.two
  have h3 := p.int
  have hn : (0 : ℚ) < ((bin - 1 : ℤ) : ℚ) := by exact_mod_cast (by omega : (0 : ℤ) < (bin : ℤ) - 1)
  have hn' : ((bin - 1 : ℤ) : ℚ) ≤ 2 ^ 31 := by
    have : (bin : ℤ) - 1 ≤ 2 ^ 31 := by omega
    exact_mod_cast this
  refine lt_of_le_of_lt (part_err (rnd53_pos (by linarith [p.lt])) hn) ?_
  rw [div_lt_iff₀ (by norm_num)]
  refine lt_of_le_of_lt hn' ?_
  norm_num

theorem Inv.first {lo hi : ℚ} {bin : ℕ} {g : G} (h : Inv lo hi bin g) : g.index rnd53 lo = 0 := by
  unfold G.index
  rw [h.rmin, sub_self]
  have h0 : rnd53 0 = 0 := by unfold rnd53; simp
  rw [h0, zero_div, h0]
  exact nint_eq (by norm_num)

theorem Inv.last {lo hi : ℚ} {bin : ℕ} {g : G} (p : Points lo hi bin) (h : Inv lo hi bin g) : g.index rnd53 hi = bin - 1 := by
  have := nint_eq (h.quot p)
  rw [h.rmax] at this
  exact this

theorem inv_load (src : Src) (qmax : ℚ) {lo hi : ℚ} {bin : ℕ} (p : Points lo hi bin) : Inv lo hi bin (load rnd53 src qmax lo hi bin) := by
  have := p.two
  refine ⟨rfl, rfl, rfl, rfl, p.dlo, p.dhi, le_refl _, p.lt, le_refl _, le_refl _, ?_, ?_⟩ <;> unfold load <;> dsimp only <;> split_ifs <;> omega

theorem inv_step {lo hi : ℚ} {bin : ℕ} (p : Points lo hi bin) {g : G} (h : Inv lo hi bin g) (o : Op) (ho : Doubles o) :
    Inv lo hi bin (step rnd53 g o) := by
  cases o with
  | range a b =>
    show Inv lo hi bin ((g.range a b).getD g)
    unfold G.range
    split_ifs with hc
    · exact { h with dlo := ho.1, dhi := ho.2, flo := h.rmin ▸ hc.1, lt := hc.2.2.2, fhi := h.rmax ▸ hc.2.2.1 }
    · exact h
  | setq q => exact { h with }
  | determine =>
    have hd := h.pos p
    refine { h with n0 := ?_, n1 := g.index_mono hd h.lt.le, n2 := ?_ }
    · have := g.index_mono hd h.flo
      rw [h.first] at this
      exact this
    · have := g.index_mono hd h.fhi
      rw [h.last p] at this
      show g.index rnd53 g.rfmax < bin
      omega

theorem inv_after {src : Src} {lo hi : ℚ} {bin : ℕ} (p : Points lo hi bin) {g : G} (h : After src lo hi bin g) : Inv lo hi bin g := by
  obtain ⟨q, l, hl, rfl⟩ := h
  unfold run
  induction l using List.reverseRecOn with
  | nil => exact inv_load src q p
  | append_singleton l o ih =>
    rw [List.foldl_append]
    exact inv_step p (ih fun o ho => hl o (List.mem_append_left _ ho)) o (hl o (by simp))

/-- **C86** The indices of the fitted points are those of points of the data set, and the calculation covers them; it writes to no other elements than those
of its arrays, for any peak. -/
theorem C86_safe {src : Src} {lo hi : ℚ} {bin : ℕ} (p : Points lo hi bin) {g : G} (h : After src lo hi bin g) :
    0 ≤ g.nfmin ∧ g.nfmin ≤ g.nfmax ∧ g.nfmax < bin ∧
      0 ≤ g.ncmin rnd53 ∧ g.ncmin rnd53 ≤ g.index rnd53 g.rfmin ∧ g.index rnd53 g.rfmax ≤ g.ncmax rnd53 ∧
      ∀ a b i, g.ib rnd53 a ≤ i → i ≤ g.ie rnd53 b → g.ncmin rnd53 ≤ i ∧ i ≤ g.ncmax rnd53 := by
  have v := inv_after p h
  have hd := v.pos p
  have hext : 0 < g.qmax → 0 ≤ g.rext rnd53 := fun hq =>
    rnd53_nonneg (div_nonneg (rnd53_nonneg (by unfold G.mpi; norm_num)) hq.le)
  refine ⟨v.n0, v.n1, v.n2, ?_, g.index_mono hd ?_, g.index_mono hd ?_, ?_⟩
  · rw [← v.first]
    refine g.index_mono hd ?_
    unfold G.rcmin
    split_ifs
    · exact v.rmin ▸ le_max_left _ _
    · exact v.flo
  · unfold G.rcmin
    split_ifs with hq
    · refine max_le (v.rmin ▸ v.flo) ?_
      have := rnd53_mono (sub_le_self g.rfmin (hext hq))
      rwa [rnd53_fix v.dlo] at this
    · exact le_refl _
  · unfold G.rcmax
    split_ifs with hq
    · have := rnd53_mono (le_add_of_nonneg_right (a := g.rfmax) (hext hq))
      rwa [rnd53_fix v.dhi] at this
    · exact le_refl _
  · intro a b i h1 h2
    exact ⟨(g.index_mono hd (le_max_left _ _)).trans h1, h2.trans (g.index_mono hd (min_le_left _ _))⟩

/-- The margin of the calculation is 12π/qmax to the accuracy of doubles. -/
theorem margin (g : G) (hq : 0 < g.qmax) : |(g.rext rnd53 : ℝ) - 12 * Real.pi / g.qmax| ≤ 1 / 2 ^ 51 * (12 * Real.pi / g.qmax) := by
  obtain ⟨a, ha, e1⟩ := rnd53_rel (12 * G.mpi)
  obtain ⟨b, hb, e2⟩ := rnd53_rel (rnd53 (12 * G.mpi) / g.qmax)
  have hq' : (0 : ℝ) < g.qmax := by exact_mod_cast hq
  have ha' : |(a : ℝ)| ≤ 1 / 2 ^ 53 := by
    have : ((|a| : ℚ) : ℝ) ≤ ((1 / 2 ^ 53 : ℚ) : ℝ) := Rat.cast_le.2 ha
    push_cast at this
    exact this
  have hb' : |(b : ℝ)| ≤ 1 / 2 ^ 53 := by
    have : ((|b| : ℚ) : ℝ) ≤ ((1 / 2 ^ 53 : ℚ) : ℝ) := Rat.cast_le.2 hb
    push_cast at this
    exact this
  have e : (g.rext rnd53 : ℝ) - 12 * Real.pi / g.qmax = ((G.mpi : ℝ) * (1 + a) * (1 + b) - Real.pi) * (12 / g.qmax) := by
    unfold G.rext
    rw [e2, e1]
    push_cast
    field_simp
  rw [e, abs_mul, abs_of_pos (by positivity : (0 : ℝ) < 12 / g.qmax),
    show 1 / 2 ^ 51 * (12 * Real.pi / (g.qmax : ℝ)) = 1 / 2 ^ 51 * Real.pi * (12 / g.qmax) by ring]
  refine mul_le_mul_of_nonneg_right ?_ (by positivity)
  have h1 := Real.pi_gt_d20
  have h2 := Real.pi_lt_d20
  have hm : (G.mpi : ℝ) = 884279719003555 / 281474976710656 := by unfold G.mpi; norm_num
  have hab : |(a : ℝ) * b| ≤ 1 / 2 ^ 53 * (1 / 2 ^ 53) := by
    rw [abs_mul]; exact mul_le_mul ha' hb' (abs_nonneg _) (by norm_num)
  rw [abs_le] at ha' hb' hab ⊢
  rw [hm, show (884279719003555 / 281474976710656 : ℝ) * (1 + a) * (1 + b) =
    884279719003555 / 281474976710656 * (1 + a + b + a * b) by ring]
  constructor <;> norm_num at h1 h2 ha' hb' hab ⊢ <;> linarith

/-- **C86** With a positive qmax the calculation goes beyond the fitted range by 12π/qmax on both sides, but not below the first point, up to one part
in 2^50; otherwise it has the limits of the fitted range. -/
theorem C86_covers (g : G) :
    (0 < g.qmax → ∃ lo hi : ℝ, (g.rcmin rnd53 : ℝ) = max (g.rmin : ℝ) lo ∧ (g.rcmax rnd53 : ℝ) = hi ∧
      |lo - (g.rfmin - 12 * Real.pi / g.qmax)| ≤ 1 / 2 ^ 50 * (|(g.rfmin : ℝ)| + 12 * Real.pi / g.qmax) ∧
      |hi - (g.rfmax + 12 * Real.pi / g.qmax)| ≤ 1 / 2 ^ 50 * (|(g.rfmax : ℝ)| + 12 * Real.pi / g.qmax)) ∧
    (g.qmax ≤ 0 → g.rcmin rnd53 = g.rfmin ∧ g.rcmax rnd53 = g.rfmax) := by
  constructor
  · intro hq
    have hq' : (0 : ℝ) < g.qmax := by exact_mod_cast hq
    have hm := margin g hq
    set w := 12 * Real.pi / (g.qmax : ℝ) with hw
    have w0 : 0 < w := by have := Real.pi_pos; positivity
    have hx : ∀ x y : ℚ, ∀ z : ℝ, |(x : ℝ) - z| ≤ 1 / 2 ^ 51 * w → |z| ≤ |(y : ℝ)| + w → |(rnd53 x : ℝ) - z| ≤ 1 / 2 ^ 50 * (|(y : ℝ)| + w) := by
      intro x y z h1 h2
      have h3 : |(rnd53 x : ℝ) - x| ≤ 1 / 2 ^ 53 * |(x : ℝ)| := by
        have : ((|rnd53 x - x| : ℚ) : ℝ) ≤ ((|x| / 2 ^ 53 : ℚ) : ℝ) := Rat.cast_le.2 (by have := rnd53_err x; linarith)
        push_cast at this
        linarith
      have h4 : |(x : ℝ)| ≤ |(x : ℝ) - z| + |z| := by
        have := abs_add_le ((x : ℝ) - z) z
        rwa [sub_add_cancel] at this
      have h5 : |(rnd53 x : ℝ) - z| ≤ |(rnd53 x : ℝ) - x| + |(x : ℝ) - z| := abs_sub_le _ _ _
      norm_num at h1 h3 ⊢
      have h6 := abs_nonneg (y : ℝ)
      linarith
    refine ⟨(rnd53 (g.rfmin - g.rext rnd53) : ℚ), (rnd53 (g.rfmax + g.rext rnd53) : ℚ), ?_, ?_, hx _ _ _ ?_ ?_, hx _ _ _ ?_ ?_⟩
    · unfold G.rcmin
      rw [if_pos hq, Rat.cast_max]
    · unfold G.rcmax
      rw [if_pos hq]
    · push_cast
      rw [show (g.rfmin : ℝ) - g.rext rnd53 - (g.rfmin - w) = -(g.rext rnd53 - w) by ring, abs_neg]
      exact hm
    · have := abs_sub (g.rfmin : ℝ) w
      rwa [abs_of_pos w0] at this
    · push_cast
      rw [show (g.rfmax : ℝ) + g.rext rnd53 - (g.rfmax + w) = g.rext rnd53 - w by ring]
      exact hm
    · have := abs_add_le (g.rfmax : ℝ) w
      rwa [abs_of_pos w0] at this
  · intro hq
    unfold G.rcmin G.rcmax
    rw [if_neg (not_lt.2 hq), if_neg (not_lt.2 hq)]
    exact ⟨rfl, rfl⟩

example : ((load rnd53 .alloc 30 1 10 8).range 4 6).map (fun g => (g.rcmax rnd53, rnd53 (g.rfmin - g.rext rnd53))) =
    some (1021280873932679 / 140737488355328, 386094009620601 / 140737488355328) := by
  decide +kernel

/-- **C86** After a calculation over the whole range the list has all the points, whatever the rounding. -/
theorem C86_whole (src : Src) (qmax : ℚ) {lo hi : ℚ} {bin : ℕ} (p : Points lo hi bin) (g : G) (hg : g = (load rnd53 src qmax lo hi bin).determine rnd53) :
    g.getR rnd53 = (List.range bin).map (fun i : ℕ => g.point rnd53 i) ∧ g.nobs = bin := by
  have v := inv_load src qmax p
  have h1 : g.nfmin = 0 := by rw [hg]; exact v.first
  have h2 : g.nfmax = bin - 1 := by rw [hg]; exact v.last p
  have := p.two
  constructor
  · unfold G.getR
    rw [h1, h2, if_neg (by omega)]
    have : ((bin : ℤ) - 1 - 0 + 1).toNat = bin := by omega
    rw [this]
    simp
  · unfold G.nobs
    rw [h1, h2]
    omega

/-- **C86** The point of an index is as near as it can be, up to 1% of the step. -/
theorem C86_near {src : Src} {lo hi : ℚ} {bin : ℕ} (p : Points lo hi bin) {g : G} (h : After src lo hi bin g) {r : ℚ} (h1 : lo ≤ r) (h2 : r ≤ hi) :
    |lo + g.index rnd53 r * g.deltar - r| ≤ 51 / 100 * g.deltar := by
  have v := inv_after p h
  have hd := v.pos p
  obtain ⟨a, ha, e1⟩ := rnd53_rel (r - lo)
  obtain ⟨b, hb, e2⟩ := rnd53_rel (rnd53 (r - lo) / g.deltar)
  set y := (r - lo) / g.deltar with hy
  have hr : r = lo + y * g.deltar := by rw [hy]; field_simp; ring
  have hq : rnd53 (rnd53 (r - lo) / g.deltar) = y * (1 + ((1 + a) * (1 + b) - 1)) := by
    rw [e2, e1, hy]; ring
  have hab := mul_err ha hb
  have hy0 : 0 ≤ y := div_nonneg (by linarith) hd.le
  set q := rnd53 (rnd53 (r - lo) / g.deltar) with hqd
  have hqb : q ≤ 2 ^ 32 := by
    have hm : q ≤ rnd53 (rnd53 (g.rmax - g.rmin) / g.deltar) := by
      rw [hqd, v.rmax, v.rmin]
      refine rnd53_mono ?_
      have := rnd53_mono (sub_le_sub_right h2 lo)
      gcongr
    have hl := (abs_lt.1 (v.quot p)).2
    have hn' : ((bin - 1 : ℤ) : ℚ) ≤ 2 ^ 31 := by
      have := p.int
      have : (bin : ℤ) - 1 ≤ 2 ^ 31 := by omega
      exact_mod_cast this
    have : (2 : ℚ) ^ 31 + 1 / 2 ≤ 2 ^ 32 := by norm_num
    linarith
  rw [abs_le] at hab
  have hy1 : y ≤ 2 ^ 33 := by
    norm_num at hab hqb ⊢
    nlinarith
  have hqy : |q - y| ≤ 1 / 100 := by
    rw [hq, abs_le]
    norm_num at hab hy1 ⊢
    constructor <;> nlinarith
  have hn := nint_near q
  have hi : g.index rnd53 r = nint q := by rw [hqd]; unfold G.index; rw [v.rmin]
  rw [hi]
  conv_lhs => rw [hr]
  have e : lo + (nint q : ℚ) * g.deltar - (lo + y * g.deltar) = ((nint q : ℚ) - q + (q - y)) * g.deltar := by ring
  rw [e, abs_mul, abs_of_pos hd]
  refine mul_le_mul_of_nonneg_right ?_ hd.le
  refine (abs_add_le _ _).trans ?_
  linarith

section Fine
variable {src : Src} {lo hi : ℚ} {bin : ℕ} {g : G}

/-- **C86** (partial: the step is not below the resolution of the doubles near the first point) The listed points are strictly increasing. -/
theorem C86_increasing_partial (p : Points lo hi bin) (h : After src lo hi bin g) (hm : |lo| ≤ 2 ^ 50 * g.deltar) {i j : ℤ} (h0 : 0 ≤ i) (h1 : i < j)
    (h2 : j < bin) : g.point rnd53 i < g.point rnd53 j := by
  have v := inv_after p h
  have hd := v.pos p
  have := p.int
  refine lt_of_le_of_ne (g.point_mono hd h1.le) fun e => ?_
  have e1 := g.index_point hd h0 (by omega) (v.rmin ▸ hm)
  have e2 := g.index_point hd (k := j) (by omega) (by omega) (v.rmin ▸ hm)
  rw [e, e2] at e1
  omega

/-- **C86** (partial, as above) `pdfrange` with two of the listed points is accepted unless the second one is the last point and greater than the last point of the data,
and then exactly the points between them are used. -/
theorem C86_select_partial (p : Points lo hi bin) (h : After src lo hi bin g) (hm : |lo| ≤ 2 ^ 50 * g.deltar) {i j : ℤ} (h0 : 0 ≤ i) (h1 : i < j)
    (h2 : j < bin) (hacc : j + 1 < bin ∨ g.point rnd53 j ≤ hi) :
    ∃ g', g.range (g.point rnd53 i) (g.point rnd53 j) = some g' ∧ (g'.determine rnd53).nfmin = i ∧ (g'.determine rnd53).nfmax = j ∧
      (g'.determine rnd53).nobs = (j - i + 1).toNat ∧
      (g'.determine rnd53).getR rnd53 = (List.range (j - i + 1).toNat).map fun n : ℕ => g.point rnd53 (i + n) := by
  have v := inv_after p h
  have hd := v.pos p
  have := p.int
  have e1 := g.index_point hd h0 (by omega) (v.rmin ▸ hm)
  have e2 := g.index_point hd (k := j) (by omega) (by omega) (v.rmin ▸ hm)
  have hlt := C86_increasing_partial p h hm h0 h1 h2
  have hhi : ∀ k : ℤ, 0 ≤ k → k + 1 < bin → g.point rnd53 k ≤ hi := by
    intro k hk0 hk
    by_contra hc
    have := g.index_mono hd (not_le.1 hc).le
    rw [v.last p, g.index_point hd hk0 (by omega) (v.rmin ▸ hm)] at this
    omega
  have hlo : lo ≤ g.point rnd53 i := by
    rcases h0.eq_or_lt with rfl | hi0
    · unfold G.point
      have h0 : rnd53 0 = 0 := by unfold rnd53; simp
      rw [Int.cast_zero, zero_mul, h0, zero_add, v.rmin, rnd53_fix p.dlo]
    · by_contra hc
      have := g.index_mono hd (not_le.1 hc).le
      rw [e1, v.first] at this
      omega
  have hj : g.point rnd53 j ≤ hi := hacc.elim (hhi j (by omega)) id
  refine ⟨_, if_pos ⟨v.rmin ▸ hlo, v.rmax ▸ hhi i h0 (by omega), v.rmax ▸ hj, hlt⟩, e1, e2, ?_, ?_⟩
  · show (g.index rnd53 (g.point rnd53 j) - g.index rnd53 (g.point rnd53 i) + 1).toNat = _
    rw [e1, e2]
  · unfold G.getR
    have f1 : ({ g with rfmin := g.point rnd53 i, rfmax := g.point rnd53 j : G }.determine rnd53).nfmin = i := e1
    have f2 : ({ g with rfmin := g.point rnd53 i, rfmax := g.point rnd53 j : G }.determine rnd53).nfmax = j := e2
    rw [f1, f2, if_neg (by omega)]
    rfl

end Fine

/-- **C86** Before the first calculation `getR` of new data has all points or all but one. -/
theorem C86_before_partial {src : Src} (qmax : ℚ) {lo hi : ℚ} {bin : ℕ} (p : Points lo hi bin) :
    let n := ((load rnd53 src qmax lo hi bin).getR rnd53).length
    n = bin ∨ n = bin - 1 := by
  intro n
  have v := inv_load src qmax p
  have hq := abs_lt.1 (v.quot p)
  have h2 := p.two
  have h0 : (1 : ℚ) ≤ ((bin - 1 : ℤ) : ℚ) := by exact_mod_cast (by omega : (1 : ℤ) ≤ (bin : ℤ) - 1)
  have hn : n = ((load rnd53 src qmax lo hi bin).getR rnd53).length := rfl
  unfold G.getR at hn
  split_ifs at hn with hc
  · rw [List.length_map, List.length_range] at hn
    set q := rnd53 (rnd53 ((load rnd53 src qmax lo hi bin).rmax - (load rnd53 src qmax lo hi bin).rmin) / (load rnd53 src qmax lo hi bin).deltar)
    have ht : trunc q = ⌊q⌋ := if_pos (by linarith)
    have t1 : (bin : ℤ) - 2 ≤ ⌊q⌋ := Int.le_floor.2 (by push_cast at hq ⊢; linarith)
    have t2 : ⌊q⌋ < bin := Int.floor_lt.2 (by push_cast at hq ⊢; linarith)
    omega
  · rw [List.length_map, List.length_range] at hn
    have : src = .text := by
      by_contra hs
      exact hc (by unfold load; simp [hs])
    rw [this] at hn
    unfold load at hn
    simp only [if_true] at hn
    omega

/-- **C86 is violated**: `alloc` with 8 points from 1 to 10, then `getR()` has 7 points. With exact numbers it has all points. -/
theorem C86_lost_point : ((load rnd53 .alloc 0 1 10 8).getR rnd53).length = 7 ∧ ((load id .alloc 0 1 10 8).getR id).length = 8 := by
  constructor <;> decide +kernel

/-- **C86 is violated**: 148 points from 0 to 5. The last point of `getR()` after a calculation is greater than 5, and `pdfrange` with the first and the last point of the
list is rejected. -/
theorem C86_last_rejected :
    let g := (load rnd53 .alloc 0 0 5 148).determine rnd53
    (g.getR rnd53).getLast? = some (g.point rnd53 147) ∧ 5 < g.point rnd53 147 ∧ g.range (g.point rnd53 0) (g.point rnd53 147) = none ∧
      (g.range (g.point rnd53 0) (g.point rnd53 146)).isSome = true := by
  decide +kernel

/-- The bound on the first point is needed: near 2^53 the points of a list are the same. -/
theorem C86_coarse :
    let g := (load rnd53 .alloc 0 9007199254740992 9007199254740994 5).determine rnd53
    (g.getR rnd53).length = 5 ∧ g.point rnd53 0 = g.point rnd53 1 ∧ g.deltar = 1 / 2 := by
  decide +kernel

/-- The points of the second violation satisfy the conditions. -/
theorem points_148 : Points 0 5 148 :=
  ⟨⟨0, 0, by norm_num, by norm_num⟩, ⟨5, 0, by norm_num, by rw [pow2_eq]; norm_num⟩, by norm_num, by norm_num, by norm_num⟩

example : Points 1 10 8 :=
  ⟨⟨1, 0, by norm_num, by rw [pow2_eq]; norm_num⟩, ⟨10, 0, by norm_num, by rw [pow2_eq]; norm_num⟩, by norm_num, by norm_num, by norm_num⟩
example : After .alloc 0 5 148 ((load rnd53 .alloc 0 0 5 148).determine rnd53) := ⟨0, [.determine], by simp [Doubles], rfl⟩
example : ∃ g', (load rnd53 .alloc 0 0 5 148).range ((load rnd53 .alloc 0 0 5 148).point rnd53 3) ((load rnd53 .alloc 0 0 5 148).point rnd53 7) = some g' ∧
    (g'.determine rnd53).nfmin = 3 ∧ (g'.determine rnd53).nfmax = 7 := by
  obtain ⟨g', h1, h2, h3, -⟩ := C86_select_partial points_148 (g := load rnd53 .alloc 0 0 5 148) (src := .alloc) ⟨0, [], by simp, rfl⟩
    (by rw [abs_zero]; exact mul_nonneg (by norm_num) ((inv_load .alloc 0 points_148).pos points_148).le) (i := 3) (j := 7) (by norm_num) (by norm_num) (by norm_num)
    (.inl (by norm_num))
  exact ⟨g', h1, h2, h3⟩

end Pdffit.C86
