import Verif.Props.C43
import Verif.Props.C68

/-!
# C71: between the peaks the calculated PDF is the base line

Observable content: after `calc`, `getpdf_fit` at a point that is further than five widths and half a step from every distance between selected
atoms is `-4π r ρ₀` times the data scale, the phase scale, the share of the selected pairs and the damping and shape envelopes, summed over the
selected phases (`C71_base`); with all atoms selected the share is 1 (`C71_total`), in particular in front of the first peak (`C71_short`); with
scattering factors, occupancies and scales that are not negative the curve is nowhere below the base line (`C71_above`). All of this without
termination ripples (Qmax 0), which reach everywhere.

The share of the selected pairs should be the average of the products of their scattering lengths and occupancies. It is with equal occupancies
(`C71_share_partial`); otherwise it is not (`C71_occupancy`), because pdf.cc 211-227 leave the occupancies out of the sums for the base line although
the peaks have them (pdf.cc 327).
-/

namespace Pdffit.C71
open Det C24 C68

/-! ## Grid points and peaks -/

theorem nint_ge (x : ℝ) : x - 1 / 2 ≤ nint x := by
  unfold nint
  split
  · have := Int.lt_floor_add_one (x + 1 / 2); linarith
  · exact Int.le_ceil _

theorem nint_le (x : ℝ) : nint x ≤ x + 1 / 2 := by
  unfold nint
  split
  · exact Int.floor_le _
  · have := Int.ceil_lt_add_one (x - 1 / 2); linarith

/-- A peak is drawn at grid points at most half a step further than five widths from its centre. -/
theorem reach {D : Data} (h : D.Ok) {ph : PPhase} {d g : ℝ} {i : ℤ} (h1 : ib D d g ≤ i) (h2 : i ≤ ie D ph d g) :
    |D.r i - d| ≤ 5 * g + D.deltar / 2 := by
  have hs := h.step
  have a1 : ((ib D d g : ℤ) : ℝ) ≤ i := by exact_mod_cast h1
  have a2 : (i : ℝ) ≤ ((ie D ph d g : ℤ) : ℝ) := by exact_mod_cast h2
  have b1 := (nint_ge _).trans a1
  have b2 := a2.trans (nint_le _)
  have c1 : (max D.rcmin (d - 5 * g) - D.rmin) / D.deltar ≤ i + 1 / 2 := by linarith
  have c2 := sub_le_iff_le_add.2 b2
  rw [div_le_iff₀ hs] at c1
  rw [le_div_iff₀ hs] at c2
  have d1 := le_max_right D.rcmin (d - 5 * g)
  have d2 : (if 0 < ph.stepcut then min (min D.rcmax (d + 5 * g)) ph.stepcut else min D.rcmax (d + 5 * g)) ≤ d + 5 * g := by
    split
    · exact (min_le_left _ _).trans (min_le_right _ _)
    · exact min_le_right _ _
  unfold Data.r
  rw [abs_le]
  constructor <;> nlinarith

theorem height_zero {D : Data} (h : D.Ok) {ph : PPhase} {a b : ℕ} {T : ℤ × ℤ × ℤ} {i : ℤ}
    (far : 1 / 100 ≤ d2 ph (ph.atm a) (ph.atm b) T → 5 * width D ph (ph.atm a) (ph.atm b) T + D.deltar / 2 <
      |D.r i - √(d2 ph (ph.atm a) (ph.atm b) T)|) : height D ph a b (eventOf D ph ((a, b), T)) i = 0 := by
  unfold eventOf
  dsimp only
  by_cases hp : (D.rmin2 ≤ d2 ph (ph.atm a) (ph.atm b) T ∧ d2 ph (ph.atm a) (ph.atm b) T ≤ D.rmax2) ∧ Draws D ph (ph.atm a) (ph.atm b) T
  · rw [event_peak hp.1.1 hp.1.2 hp.2]
    unfold height
    dsimp only
    refine if_neg fun hc => ?_
    exact (reach h hc.1 hc.2).not_gt (far ((le_max_left _ _).trans hp.1.1))
  · rcases event_none hp with e | e <;> rw [e] <;> rfl

theorem mem_halfPairs {n : ℕ} {x : ℕ × ℕ} (h : x ∈ halfPairs n) : x.1 < n ∧ x.2 < n := by
  unfold halfPairs at h
  rw [List.mem_flatMap] at h
  obtain ⟨i, hi, hx⟩ := h
  rw [List.mem_map] at hx
  obtain ⟨j, hj, rfl⟩ := hx
  rw [List.mem_range] at hi
  rw [List.mem_range'_1] at hj
  exact ⟨hi, by show j < n; omega⟩

/-- No distance of two selected atoms is within five widths and half a step of the grid point. Atoms closer than 0.1 Å are on the same site. -/
def Far (D : Data) (ph : PPhase) (s : Sel) (i : ℤ) : Prop :=
  ∀ a b, a < ph.atom.length → b < ph.atom.length → skip s a b = false → ∀ T, 1 / 100 ≤ d2 ph (ph.atm a) (ph.atm b) T →
    5 * width D ph (ph.atm a) (ph.atm b) T + D.deltar / 2 < |D.r i - √(d2 ph (ph.atm a) (ph.atm b) T)|

theorem pairSum_far {D : Data} (h : D.Ok) {ph : PPhase} {s : Sel} {i : ℤ} (far : Far D ph s i) : pairSum D ph s i = 0 := by
  unfold pairSum
  refine List.sum_eq_zero fun y hy => ?_
  rw [List.mem_map] at hy
  obtain ⟨⟨⟨a, b⟩, T⟩, hx, rfl⟩ := hy
  unfold visited at hx
  rw [List.mem_flatMap] at hx
  obtain ⟨p, hp, hT⟩ := hx
  rw [List.mem_filter] at hp
  rw [List.mem_map] at hT
  obtain ⟨T', -, hT⟩ := hT
  have e1 : p = (a, b) := congrArg Prod.fst hT
  subst e1
  have hm := mem_halfPairs hp.1
  exact height_zero h fun hd => far a b hm.1 hm.2 (by simpa using hp.2) T hd

/-- The base line of a phase: the number density times the share of the selected pairs. -/
noncomputable def base (ph : PPhase) (share r : ℝ) : ℝ := -(4 * Real.pi * r * ph.rho0 * share)

theorem curve_far {D : Data} (h : D.Ok) {ph : PPhase} {s : Sel} {i : ℤ} (far : Far D ph s i) :
    curve D ph s i = base ph (ract ph s / rtot ph) (D.r i) * envelope D ph (D.r i) := by
  unfold curve base
  rw [pairSum_far h far]
  ring

/-- At a grid point far from all distances of selected atoms the calculated curve is the base line. -/
theorem C71_base {D : Data} (h : D.Ok) (hq : D.qmax ≤ 0) {psel : List (Option (PPhase × Sel))} {f : ℤ → ℝ}
    (hf : determine D psel = .ok (some f)) {i : ℤ} (h1 : D.ncmin ≤ i) (h2 : i ≤ D.ncmax)
    (far : ∀ x, some x ∈ psel → Far D x.1 x.2 i) : f i =
      ((psel.filterMap id).map fun x => D.dscale * x.1.pscale * (base x.1 (ract x.1 x.2 / rtot x.1) (D.r i) * envelope D x.1 (D.r i))).sum := by
  rw [(determine_some h hf).2 i h1 h2]
  congr 1
  refine List.map_congr_left fun x hx => ?_
  rw [List.mem_filterMap] at hx
  obtain ⟨y, hy, rfl⟩ := hx
  unfold filt
  rw [if_neg hq.not_gt, curve_far h (far x hy)]

theorem ract_all (ph : PPhase) {s : Sel} (hs : ∀ a b, a < ph.atom.length → b < ph.atom.length → skip s a b = false) : ract ph s = rtot ph := by
  unfold ract rtot
  rw [List.filter_eq_self.2 fun x hx => by
    have := mem_halfPairs hx
    rw [hs _ _ this.1 this.2]; rfl]

/-- When nothing is deselected the slope is the number density. -/
theorem C71_total {D : Data} (h : D.Ok) (hq : D.qmax ≤ 0) {psel : List (Option (PPhase × Sel))} {f : ℤ → ℝ}
    (hf : determine D psel = .ok (some f)) {i : ℤ} (h1 : D.ncmin ≤ i) (h2 : i ≤ D.ncmax)
    (all : ∀ x, some x ∈ psel → ∀ a b, a < x.1.atom.length → b < x.1.atom.length → skip x.2 a b = false)
    (far : ∀ x, some x ∈ psel → Far D x.1 x.2 i) : f i =
      ((psel.filterMap id).map fun x => -(4 * Real.pi * D.r i * (D.dscale * x.1.pscale * x.1.rho0 * envelope D x.1 (D.r i)))).sum := by
  rw [C71_base h hq hf h1 h2 far]
  congr 1
  refine List.map_congr_left fun x hx => ?_
  rw [List.mem_filterMap] at hx
  obtain ⟨y, hy, rfl⟩ := hx
  have hr : rtot x.1 ≠ 0 := fun h0 => (determine_some h hf).1 x hy (.inr (.inr (.inr (.inr (.inl h0)))))
  unfold base
  rw [ract_all x.1 (all x hy), div_self hr]
  ring

/-- In particular in front of the first peak. -/
theorem C71_short {D : Data} (h : D.Ok) (hq : D.qmax ≤ 0) {psel : List (Option (PPhase × Sel))} {f : ℤ → ℝ}
    (hf : determine D psel = .ok (some f)) {i : ℤ} (h1 : D.ncmin ≤ i) (h2 : i ≤ D.ncmax)
    (all : ∀ x, some x ∈ psel → ∀ a b, a < x.1.atom.length → b < x.1.atom.length → skip x.2 a b = false)
    (hd : ∀ x, some x ∈ psel → ∀ a b, a < x.1.atom.length → b < x.1.atom.length → ∀ T, 1 / 100 ≤ d2 x.1 (x.1.atm a) (x.1.atm b) T →
      D.r i + 5 * width D x.1 (x.1.atm a) (x.1.atm b) T + D.deltar / 2 < √(d2 x.1 (x.1.atm a) (x.1.atm b) T)) : f i =
      ((psel.filterMap id).map fun x => -(4 * Real.pi * D.r i * (D.dscale * x.1.pscale * x.1.rho0 * envelope D x.1 (D.r i)))).sum := by
  refine C71_total h hq hf h1 h2 all fun x hx a b ha hb _ T hT => ?_
  have := hd x hx a b ha hb T hT
  rw [abs_sub_comm]
  refine lt_of_lt_of_le ?_ (le_abs_self _)
  linarith

/-! ## Peaks point upwards -/

theorem weight_nonneg {ph : PPhase} (hs : ∀ a ∈ ph.atom, 0 ≤ a.occ ∧ 0 ≤ a.sf) (i : ℕ) (hi : i < ph.atom.length) :
    0 ≤ (ph.atm i).occ * ph.weight i := by
  have hm : ∀ j, j < ph.atom.length → ph.atm j ∈ ph.atom := fun j hj => by
    unfold PPhase.atm
    rw [List.getD_eq_getElem?_getD, List.getElem?_eq_getElem hj]
    exact List.getElem_mem hj
  have h1 := hs _ (hm i hi)
  have h2 : 0 ≤ ph.bavg := by
    unfold PPhase.bavg PPhase.np
    refine div_nonneg (List.sum_nonneg ?_) (List.sum_nonneg ?_)
    · intro x hx
      rw [List.mem_map] at hx
      obtain ⟨a, ha, rfl⟩ := hx
      exact mul_nonneg (hs a ha).1 (hs a ha).2
    · intro x hx
      rw [List.mem_map] at hx
      obtain ⟨a, ha, rfl⟩ := hx
      exact (hs a ha).1
  unfold PPhase.weight
  exact mul_nonneg h1.1 (div_nonneg h1.2 h2)

theorem width_nonneg (D : Data) {ph : PPhase} (hw : ph.rcut ≤ 0 ∨ 0 ≤ ph.sratio) (a b : PAtom) (T : ℤ × ℤ × ℤ) : 0 ≤ width D ph a b T := by
  unfold width sigma
  have h0 := Real.sqrt_nonneg (ph.msd a b (dd ph a b T))
  have h1 := Real.sqrt_nonneg (corfact D ph (d2 ph a b T))
  split
  · rename_i hlt
    rcases hw with hw | hw
    · exact absurd (hw.trans (Real.sqrt_nonneg _)) hlt.not_ge
    · exact mul_nonneg (mul_nonneg h0 h1) hw
  · exact mul_nonneg h0 h1

theorem pairSum_nonneg (D : Data) {ph : PPhase} (s : Sel) (hs : ∀ a ∈ ph.atom, 0 ≤ a.occ ∧ 0 ≤ a.sf) (hw : ph.rcut ≤ 0 ∨ 0 ≤ ph.sratio)
    (i : ℤ) : 0 ≤ pairSum D ph s i := by
  unfold pairSum
  refine List.sum_nonneg fun y hy => ?_
  rw [List.mem_map] at hy
  obtain ⟨⟨⟨a, b⟩, T⟩, hx, rfl⟩ := hy
  unfold visited at hx
  rw [List.mem_flatMap] at hx
  obtain ⟨p, hp, hT⟩ := hx
  rw [List.mem_filter] at hp
  rw [List.mem_map] at hT
  obtain ⟨T', -, hT⟩ := hT
  have e1 : p = (a, b) := congrArg Prod.fst hT
  subst e1
  have hm := mem_halfPairs hp.1
  unfold eventOf
  dsimp only
  by_cases hc : (D.rmin2 ≤ d2 ph (ph.atm a) (ph.atm b) T ∧ d2 ph (ph.atm a) (ph.atm b) T ≤ D.rmax2) ∧ Draws D ph (ph.atm a) (ph.atm b) T
  · rw [event_peak hc.1.1 hc.1.2 hc.2]
    unfold height
    dsimp only
    split
    · have hg : 0 ≤ gaus D (√(d2 ph (ph.atm a) (ph.atm b) T)) (width D ph (ph.atm a) (ph.atm b) T) i := by
        unfold gaus
        have := Real.pi_pos
        have := width_nonneg D hw (ph.atm a) (ph.atm b) T
        positivity
      have ha : 0 ≤ ampl ph a b := by
        unfold ampl
        rw [mul_assoc]
        exact mul_nonneg (weight_nonneg hs a hm.1) (weight_nonneg hs b hm.2)
      have hh : 0 ≤ half a b := by unfold half; split <;> norm_num
      positivity
    · exact le_rfl
  · rcases event_none hc with e | e <;> rw [e] <;> exact le_rfl

theorem envelope_nonneg (D : Data) (ph : PPhase) {r : ℝ} (hr : 0 ≤ r) : 0 ≤ envelope D ph r := by
  unfold envelope
  refine mul_nonneg (mul_nonneg ?_ ?_) ?_
  · split
    · exact (Real.exp_pos _).le
    · exact zero_le_one
  · split
    · rename_i hd
      exact (C43.bounds _ _ hr hd).1
    · exact zero_le_one
  · split
    · split <;> norm_num
    · exact zero_le_one

/-- With positive scattering factors the curve is nowhere below the base line. -/
theorem C71_above {D : Data} (h : D.Ok) (hq : D.qmax ≤ 0) {psel : List (Option (PPhase × Sel))} {f : ℤ → ℝ}
    (hf : determine D psel = .ok (some f)) {i : ℤ} (h1 : D.ncmin ≤ i) (h2 : i ≤ D.ncmax) (hr : 0 ≤ D.r i)
    (hs : ∀ x, some x ∈ psel → (∀ a ∈ x.1.atom, 0 ≤ a.occ ∧ 0 ≤ a.sf) ∧ (x.1.rcut ≤ 0 ∨ 0 ≤ x.1.sratio) ∧ 0 ≤ D.dscale * x.1.pscale) :
    ((psel.filterMap id).map fun x => D.dscale * x.1.pscale * (base x.1 (ract x.1 x.2 / rtot x.1) (D.r i) * envelope D x.1 (D.r i))).sum ≤ f i := by
  rw [(determine_some h hf).2 i h1 h2]
  refine List.sum_le_sum fun x hx => ?_
  rw [List.mem_filterMap] at hx
  obtain ⟨y, hy, rfl⟩ := hx
  obtain ⟨a1, a2, a3⟩ := hs x hy
  unfold filt
  rw [if_neg hq.not_gt]
  refine mul_le_mul_of_nonneg_left ?_ a3
  unfold curve base
  refine mul_le_mul_of_nonneg_right ?_ (envelope_nonneg D x.1 hr)
  have hn : 0 ≤ x.1.np := List.sum_nonneg fun z hz => by
    rw [List.mem_map] at hz
    obtain ⟨a, ha, rfl⟩ := hz
    exact (a1 a ha).1
  have : 0 ≤ pairSum D x.1 x.2 i / x.1.np / D.r i := div_nonneg (div_nonneg (pairSum_nonneg D x.2 a1 a2 i) hn) hr
  linarith

/-! ## The share of the selected pairs -/

open Classical in
/-- The share of the selected pairs in the scattering: average of the products of scattering factors over the pairs. -/
noncomputable def share (ph : PPhase) (s : Sel) : ℝ :=
  (∑ a ∈ Finset.range ph.atom.length, ∑ b ∈ Finset.range ph.atom.length,
    if Selected s a b then (ph.atm a).occ * (ph.atm a).sf * ((ph.atm b).occ * (ph.atm b).sf) else 0) /
  (∑ a ∈ Finset.range ph.atom.length, (ph.atm a).occ * (ph.atm a).sf) ^ 2

open Classical in
/-- (partial) It is what the program uses if all atoms have the same occupancy. -/
theorem C71_share_partial (ph : PPhase) (s : Sel) {c : ℝ} (hc : c ≠ 0) (ho : ∀ a ∈ ph.atom, a.occ = c) (hb : ph.bavg ≠ 0) :
    ract ph s / rtot ph = share ph s := by
  have hm : ∀ j ∈ Finset.range ph.atom.length, (ph.atm j).occ = c := fun j hj => ho _ (by
    rw [Finset.mem_range] at hj
    unfold PPhase.atm
    rw [List.getD_eq_getElem?_getD, List.getElem?_eq_getElem hj]
    exact List.getElem_mem hj)
  have e1 : ract ph s * (c * ph.bavg) ^ 2 = ∑ a ∈ Finset.range ph.atom.length, ∑ b ∈ Finset.range ph.atom.length,
      if Selected s a b then (ph.atm a).occ * (ph.atm a).sf * ((ph.atm b).occ * (ph.atm b).sf) else 0 := by
    rw [ract_double, Finset.sum_mul]
    refine Finset.sum_congr rfl fun a ha => ?_
    rw [Finset.sum_mul]
    refine Finset.sum_congr rfl fun b hb' => ?_
    rw [hm a ha, hm b hb']
    unfold PPhase.weight
    split
    · field_simp
    · rw [zero_mul]
  have e2 : rtot ph * (c * ph.bavg) ^ 2 = (∑ a ∈ Finset.range ph.atom.length, (ph.atm a).occ * (ph.atm a).sf) ^ 2 := by
    rw [rtot_double, sq (∑ a ∈ _, _), Finset.sum_mul_sum, Finset.sum_mul]
    refine Finset.sum_congr rfl fun a ha => ?_
    rw [Finset.sum_mul]
    refine Finset.sum_congr rfl fun b hb' => ?_
    rw [hm a ha, hm b hb']
    unfold PPhase.weight
    field_simp
  unfold share
  rw [← e1, ← e2, mul_div_mul_right _ _ (pow_ne_zero _ (mul_ne_zero hc hb))]

/-! ## Violation: occupancies are left out of the share -/

/-- A fully and a half occupied site with equal scattering factors. -/
noncomputable def mixed : PPhase := { demo with
  atom := [⟨![0, 0, 0], 1, ![1 / 100, 1 / 100, 1 / 100, 0, 0, 0], 1⟩, ⟨![1 / 2, 1 / 2, 1 / 2], 1 / 2, ![1 / 50, 1 / 50, 1 / 50, 0, 0, 0], 1⟩] }

/-- Only the first atom is selected. -/
def first : Sel := ⟨fun i => decide (i = 1), fun i => decide (i = 1)⟩

theorem mixed_np : mixed.np = 3 / 2 := by norm_num [PPhase.np, mixed]
theorem mixed_bavg : mixed.bavg = 1 := by
  have : mixed.bavg = (1 * 1 + (1 / 2 * 1 + 0)) / mixed.np := rfl
  rw [this, mixed_np]; norm_num
theorem mixed_weight {i : ℕ} (h : i < 2) : mixed.weight i = 1 := by
  unfold PPhase.weight
  rw [mixed_bavg]
  interval_cases i <;> exact div_one _
theorem mixed_ncv : mixed.ncv = 27 := (show mixed.ncv = (iso 0).ncv from rfl).trans (iso_ncv 0)

theorem mixed_rtot : rtot mixed = 4 := by
  rw [rtot_double]
  have : mixed.atom.length = 2 := rfl
  rw [this, Finset.sum_range_succ, Finset.sum_range_one, Finset.sum_range_succ, Finset.sum_range_one, Finset.sum_range_succ, Finset.sum_range_one,
    mixed_weight (by norm_num : 0 < 2), mixed_weight (by norm_num : 1 < 2)]
  norm_num

theorem sel_first (a b : ℕ) (ha : a < 2) (hb : b < 2) : Selected first a b ↔ a = 0 ∧ b = 0 := by
  unfold Selected first
  interval_cases a <;> interval_cases b <;> simp

theorem mixed_ract : ract mixed first = 1 := by
  rw [ract_double]
  have : mixed.atom.length = 2 := rfl
  rw [this, Finset.sum_range_succ, Finset.sum_range_one, Finset.sum_range_succ, Finset.sum_range_one, Finset.sum_range_succ, Finset.sum_range_one,
    mixed_weight (by norm_num : 0 < 2), mixed_weight (by norm_num : 1 < 2), if_pos, if_neg, if_neg, if_neg]
  · norm_num
  all_goals rw [sel_first _ _ (by norm_num) (by norm_num)]; norm_num

theorem mixed_share : share mixed first = 4 / 9 := by
  unfold share
  have : mixed.atom.length = 2 := rfl
  rw [this, Finset.sum_range_succ, Finset.sum_range_one, Finset.sum_range_succ, Finset.sum_range_one, Finset.sum_range_succ, Finset.sum_range_one,
    Finset.sum_range_succ, Finset.sum_range_one, if_pos, if_neg, if_neg, if_neg]
  · show (1 * 1 * (1 * 1) + 0 + (0 + 0)) / (1 * 1 + 1 / 2 * 1) ^ 2 = (4 / 9 : ℝ)
    norm_num
  all_goals rw [sel_first _ _ (by norm_num) (by norm_num)]; norm_num

theorem mixed_good {D : Data} (h : D.Ok) (h1 : 0 < D.rmin) (s : Sel) : ¬Bad D mixed s := by
  have ha : ∀ i, (∀ k, 0 ≤ (mixed.atm i).u k) ∧ (mixed.atm i).u 3 = 0 ∧ (mixed.atm i).u 4 = 0 ∧ (mixed.atm i).u 5 = 0 := by
    intro i
    match i with
    | 0 => exact ⟨fun k => by fin_cases k <;> norm_num [mixed, PPhase.atm], rfl, rfl, rfl⟩
    | 1 => exact ⟨fun k => by fin_cases k <;> norm_num [mixed, PPhase.atm], rfl, rfl, rfl⟩
    | n + 2 => exact ⟨fun k => le_refl (0 : ℝ), rfl, rfl, rfl⟩
  rintro (⟨x, -, h⟩ | h | h | h | h | ⟨i, h2, -, h3⟩)
  · exact event_ne_nan _ _ _ _ _ (ha _) (ha _) le_rfl h
  · rw [mixed_np] at h; norm_num at h
  · rw [mixed_ncv] at h; norm_num at h
  · rw [mixed_bavg] at h; norm_num at h
  · rw [mixed_rtot] at h; norm_num at h
  · have h0 := (ncmin_nonneg h).trans h2
    have h0 : (0 : ℝ) ≤ i := by exact_mod_cast h0
    have := h.step
    unfold Data.r at h3
    have : 0 ≤ (i : ℝ) * D.deltar := by positivity
    linarith

/-- The first grid point, r = 1, is far from the distances 3, 3√2, … of the first atom and its images. -/
theorem mixed_far : Far (span isoD 1 3) mixed first 0 := by
  intro a b ha hb hs T hd
  have ha : a < 2 := ha
  have hb : b < 2 := hb
  obtain ⟨rfl, rfl⟩ := (sel_first a b ha hb).1 ((selected_iff first a b).1 hs)
  have e1 : d2 mixed (mixed.atm 0) (mixed.atm 0) T = 9 * ((T.1 : ℝ) ^ 2 + (T.2.1 : ℝ) ^ 2 + (T.2.2 : ℝ) ^ 2) := iso_d2 (1 / 100) T
  have e2 : width (span isoD 1 3) mixed (mixed.atm 0) (mixed.atm 0) T = if T = 0 then 0 else √(2 * (1 / 100)) := (iso_width (1 / 100) (span isoD 1 3) rfl T).2
  have hT : T ≠ 0 := by
    rintro rfl
    rw [e1] at hd
    norm_num at hd
  rw [e1, e2, if_neg hT]
  have h3 : (1 : ℝ) ≤ (T.1 : ℝ) ^ 2 + (T.2.1 : ℝ) ^ 2 + (T.2.2 : ℝ) ^ 2 := by
    have : (0 : ℝ) < ((T.1 ^ 2 + T.2.1 ^ 2 + T.2.2 ^ 2 : ℤ) : ℝ) := by push_cast; linarith [norm_pos hT]
    have : (1 : ℤ) ≤ T.1 ^ 2 + T.2.1 ^ 2 + T.2.2 ^ 2 := by exact_mod_cast this
    have : ((1 : ℤ) : ℝ) ≤ ((T.1 ^ 2 + T.2.1 ^ 2 + T.2.2 ^ 2 : ℤ) : ℝ) := by exact_mod_cast this
    push_cast at this
    exact this
  have h4 : (3 : ℝ) ≤ √(9 * ((T.1 : ℝ) ^ 2 + (T.2.1 : ℝ) ^ 2 + (T.2.2 : ℝ) ^ 2)) := Real.le_sqrt_of_sq_le (by linarith)
  have h5 : √(2 * (1 / 100) : ℝ) ≤ 3 / 20 := by rw [Real.sqrt_le_left (by norm_num)]; norm_num
  have h6 : (span isoD 1 3).r 0 = 1 := by
    show ((0 : ℤ) : ℝ) * (1 / 2) + 1 = 1
    norm_num
  have h7 : (span isoD 1 3).deltar = 1 / 2 := rfl
  rw [h6, h7, abs_sub_comm]
  refine lt_of_lt_of_le ?_ (le_abs_self _)
  linarith

/-- Violation: the base line of the partial PDF of the fully occupied site is not that of its share. -/
theorem C71_occupancy : ∃ f, determine (span isoD 1 3) [some (mixed, first)] = .ok (some f) ∧ Far (span isoD 1 3) mixed first 0 ∧
    (span isoD 1 3).nfmin ≤ 0 ∧ 0 ≤ (span isoD 1 3).nfmax ∧
    f 0 = (span isoD 1 3).dscale * mixed.pscale * base mixed (1 / 4) ((span isoD 1 3).r 0) ∧ share mixed first = 4 / 9 ∧
    f 0 ≠ (span isoD 1 3).dscale * mixed.pscale * base mixed (share mixed first) ((span isoD 1 3).r 0) := by
  have o := isoD_ok (lo := 1) (hi := 3) le_rfl (by norm_num)
  obtain ⟨f, e1, -⟩ := determine_of o (psel := [some (mixed, first)]) (by
    intro x hx
    simp only [List.mem_singleton, Option.some.injEq] at hx
    subst hx
    exact mixed_good o one_pos _)
  have n : ∀ (x : ℝ) (n : ℤ), x = n → nint x = n := fun x n e => by rw [e, nint_int]
  have a1 : (span isoD 1 3).nfmin ≤ 0 := by rw [isoD_nf.1, n _ 0 (by norm_num)]
  have a2 : 0 ≤ (span isoD 1 3).nfmax := by rw [isoD_nf.2, n _ 4 (by norm_num)]; norm_num
  have key := C71_base o (by exact le_refl (0 : ℝ)) e1 ((ncmin_le_nfmin o).trans a1) (a2.trans (nfmax_le_ncmax o)) (fun x hx => by
    simp only [List.mem_singleton, Option.some.injEq] at hx
    subst hx
    exact mixed_far)
  have henv : envelope (span isoD 1 3) mixed ((span isoD 1 3).r 0) = 1 := by
    unfold envelope
    rw [if_neg (show ¬0 < (span isoD 1 3).qdamp from lt_irrefl (0 : ℝ)), if_neg (show ¬0 < mixed.spdiameter from lt_irrefl (0 : ℝ)),
      if_neg (show ¬0 < mixed.stepcut from lt_irrefl (0 : ℝ))]
    norm_num
  simp only [List.filterMap_cons, List.filterMap_nil, id, List.map_cons, List.map_nil, List.sum_cons, List.sum_nil, henv, mixed_ract, mixed_rtot,
    mul_one, add_zero] at key
  refine ⟨f, e1, mixed_far, a1, a2, key, mixed_share, ?_⟩
  rw [key, mixed_share]
  have h6 : (span isoD 1 3).r 0 = 1 := by
    show ((0 : ℤ) : ℝ) * (1 / 2) + 1 = 1
    norm_num
  have h7 : mixed.rho0 = 1 / 18 := by unfold PPhase.rho0; rw [mixed_np, mixed_ncv]; norm_num
  rw [h6, show (span isoD 1 3).dscale = 1 from rfl, show mixed.pscale = 2 from rfl]
  unfold base
  rw [h7]
  have := Real.pi_pos
  intro he
  linarith

/-! ## Examples -/

/-- The cubic structure of C68 with one atom: at r = 1 the curve is the base line with the number density 1/27 and the phase scale. -/
theorem iso_base : ∃ f, determine (span isoD 1 3) [some (iso (1 / 200), C60.noSel)] = .ok (some f) ∧
    f 0 = -(4 * Real.pi * 1 * (1 * 2 * (1 / 27) * 1)) := by
  have o := isoD_ok (lo := 1) (hi := 3) le_rfl (by norm_num)
  obtain ⟨f, e1, -⟩ := determine_of o (psel := [some (iso (1 / 200), C60.noSel)]) (by
    intro x hx
    simp only [List.mem_singleton, Option.some.injEq] at hx
    subst hx
    exact iso_good (by norm_num) o one_pos _)
  have h6 : (span isoD 1 3).r 0 = 1 := by
    show ((0 : ℤ) : ℝ) * (1 / 2) + 1 = 1
    norm_num
  have nf := isoD_nf (lo := 1) (hi := 3)
  have n1 : (span isoD 1 3).nfmin = 0 := by rw [nf.1, show ((1 : ℝ) - 1) * 2 = ((0 : ℤ) : ℝ) by norm_num, nint_int]
  have n2 : (span isoD 1 3).nfmax = 4 := by rw [nf.2, show ((3 : ℝ) - 1) * 2 = ((4 : ℤ) : ℝ) by norm_num, nint_int]
  refine ⟨f, e1, ?_⟩
  have := C71_short o (le_refl (0 : ℝ)) e1 (i := 0) ((ncmin_le_nfmin o).trans n1.le) (by
      have := nfmax_le_ncmax o
      omega) (by
      intro x hx
      simp only [List.mem_singleton, Option.some.injEq] at hx
      subst hx
      exact fun a b _ _ => rfl) (by
      intro x hx
      simp only [List.mem_singleton, Option.some.injEq] at hx
      subst hx
      intro a b ha hb T hd
      have ha : a < 1 := ha
      have hb : b < 1 := hb
      interval_cases a
      interval_cases b
      dsimp only at hd ⊢
      rw [iso_d2] at hd ⊢
      have hT : T ≠ 0 := by
        rintro rfl
        norm_num at hd
      rw [(iso_width _ (span isoD 1 3) rfl T).2, if_neg hT, h6]
      have h3 : (1 : ℝ) ≤ (T.1 : ℝ) ^ 2 + (T.2.1 : ℝ) ^ 2 + (T.2.2 : ℝ) ^ 2 := by
        have : (0 : ℝ) < ((T.1 ^ 2 + T.2.1 ^ 2 + T.2.2 ^ 2 : ℤ) : ℝ) := by push_cast; linarith [norm_pos hT]
        have : (1 : ℤ) ≤ T.1 ^ 2 + T.2.1 ^ 2 + T.2.2 ^ 2 := by exact_mod_cast this
        have : ((1 : ℤ) : ℝ) ≤ ((T.1 ^ 2 + T.2.1 ^ 2 + T.2.2 ^ 2 : ℤ) : ℝ) := by exact_mod_cast this
        push_cast at this
        exact this
      have h4 : (3 : ℝ) ≤ √(9 * ((T.1 : ℝ) ^ 2 + (T.2.1 : ℝ) ^ 2 + (T.2.2 : ℝ) ^ 2)) := Real.le_sqrt_of_sq_le (by linarith)
      have h5 : √(2 * (1 / 200) : ℝ) ≤ 1 / 10 := by rw [Real.sqrt_le_left (by norm_num)]; norm_num
      have h7 : (span isoD 1 3).deltar = 1 / 2 := rfl
      rw [h7]
      linarith)
  rw [this, h6]
  have e4 : envelope (span isoD 1 3) (iso (1 / 200)) 1 = 1 := by
    unfold envelope
    rw [if_neg (show ¬0 < (span isoD 1 3).qdamp from lt_irrefl (0 : ℝ)), if_neg (show ¬0 < (iso (1 / 200)).spdiameter from lt_irrefl (0 : ℝ)),
      if_neg (show ¬0 < (iso (1 / 200)).stepcut from lt_irrefl (0 : ℝ))]
    norm_num
  have e5 : (iso (1 / 200)).rho0 = 1 / 27 := by
    unfold PPhase.rho0
    rw [iso_np, iso_ncv]
  simp only [List.filterMap_cons, List.filterMap_nil, id, List.map_cons, List.map_nil, List.sum_cons, List.sum_nil, e4, e5, add_zero]
  rfl

/-- The hypotheses of `C71_above` for two atoms of different occupancies, of which one is selected. -/
example : (∃ f, determine (span isoD 1 3) [some (mixed, first)] = .ok (some f)) ∧ (∀ a ∈ mixed.atom, 0 ≤ a.occ ∧ 0 ≤ a.sf) ∧
    mixed.rcut ≤ 0 ∧ 0 ≤ (span isoD 1 3).dscale * mixed.pscale := by
  refine ⟨C71_occupancy.imp fun f h => h.1, ?_, le_refl (0 : ℝ), ?_⟩
  · simp [mixed]
  · show (0 : ℝ) ≤ 1 * 2
    norm_num

end Pdffit.C71
