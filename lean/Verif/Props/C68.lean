import Verif.Props.C60
import Verif.Lemmas.DerivVar

/-!
# C68: the calculated curve at a point does not depend on the range in which it is calculated

Without a Qmax cutoff the value of the curve at a distance is a property of the structure and of the instrument parameters; the range
given to `pdfrange`, or to `alloc`, only selects where it is calculated. `C68_range_partial` proves it when no peak is
wider than the margin: five standard deviations and one step are at most 1 Å for every pair up to 1 Å behind the ranges.
`C68_pdfrange_partial` is the same for a data set and two calls of `pdfrange`.

The claim does not hold without the condition: pairs are collected only up to 1 Å outside of the range (pdf.cc 173-175), while a peak
is drawn up to five standard deviations from its centre (pdf.cc 331-339), and the comment at `extendCalculationRange` (pdf.cc 819) says
that the range should be extended further. `C68_range_matters`: with an isotropic displacement parameter of 0.05 the value at
r = 1.5 changes when the upper end of the range is moved from 1.5 to 3.
-/

namespace Pdffit.C68
open Det Bonds Geom C24

/-- The data set with another fit range. -/
def span (D : Data) (lo hi : ℝ) : Data := { D with rfmin := lo, rfmax := hi }

/-- Distance of an atom from a translated atom, squared. -/
noncomputable def d2 (ph : PPhase) (a b : PAtom) (T : ℤ × ℤ × ℤ) : ℝ := ph.toPhs.skal (dd ph a b T) (dd ph a b T)

/-- Width of the peak of a pair. -/
noncomputable def width (D : Data) (ph : PPhase) (a b : PAtom) (T : ℤ × ℤ × ℤ) : ℝ :=
  sigma D ph (d2 ph a b T) (ph.msd a b (dd ph a b T))

/-- Peaks of pairs not further apart than `R` are not wider than the margin of 1 Å with which pairs are collected. -/
def Narrow (D : Data) (ph : PPhase) (R : ℝ) : Prop := ∀ i j, i < ph.atom.length → j < ph.atom.length → ∀ T,
  √(d2 ph (ph.atm i) (ph.atm j) T) ≤ R → 5 * width D ph (ph.atm i) (ph.atm j) T + D.deltar ≤ 1

/-! ## Contribution of one pair -/

/-- The pair has a peak, apart from the limits of the range. -/
def Draws (D : Data) (ph : PPhase) (a b : PAtom) (T : ℤ × ℤ × ℤ) : Prop :=
  0 < ph.msd a b (dd ph a b T) ∧ 0 < corfact D ph (d2 ph a b T) ∧ width D ph a b T ≠ 0

theorem event_peak {D : Data} {ph : PPhase} {a b : PAtom} {T : ℤ × ℤ × ℤ} (h1 : D.rmin2 ≤ d2 ph a b T) (h2 : d2 ph a b T ≤ D.rmax2)
    (h : Draws D ph a b T) : event D ph a b T = .peak (√(d2 ph a b T)) (width D ph a b T) := by
  unfold Draws width d2 at *
  unfold event
  dsimp only
  rw [if_neg (by rw [not_or, not_lt, not_lt]; exact ⟨h1, h2⟩), if_neg h.1.not_gt, if_neg (Real.sqrt_pos.2 h.1).not_ge,
    if_neg h.2.1.not_ge, if_neg h.2.2]

theorem event_none {D : Data} {ph : PPhase} {a b : PAtom} {T : ℤ × ℤ × ℤ}
    (h : ¬((D.rmin2 ≤ d2 ph a b T ∧ d2 ph a b T ≤ D.rmax2) ∧ Draws D ph a b T)) :
    event D ph a b T = .skip ∨ event D ph a b T = .nan := by
  unfold event
  dsimp only
  split_ifs with h1 h2 h3 h4 h5
  · exact .inl rfl
  · exact .inr rfl
  · exact .inl rfl
  · exact .inl rfl
  · exact .inr rfl
  · rw [not_or, not_lt, not_lt] at h1
    exact absurd ⟨h1, Real.sqrt_pos.1 (not_le.1 h3), not_le.1 h4, h5⟩ h

open Classical in
theorem term_char (D : Data) (ph : PPhase) (a b : PAtom) (amp : ℝ) (T : ℤ × ℤ × ℤ) (ig : ℤ) : term D ph a b amp T ig =
    if ((D.rmin2 ≤ d2 ph a b T ∧ d2 ph a b T ≤ D.rmax2) ∧ Draws D ph a b T) ∧ ib D (√(d2 ph a b T)) (width D ph a b T) ≤ ig ∧
        ig ≤ ie D ph (√(d2 ph a b T)) (width D ph a b T)
      then amp * gaus D (√(d2 ph a b T)) (width D ph a b T) ig else 0 := by
  unfold term
  by_cases h : (D.rmin2 ≤ d2 ph a b T ∧ d2 ph a b T ≤ D.rmax2) ∧ Draws D ph a b T
  · rw [event_peak h.1.1 h.1.2 h.2]
    dsimp only
    exact if_congr (by rw [and_iff_right h]) rfl rfl
  · rw [if_neg fun h' => h h'.1]
    rcases event_none h with e | e <;> rw [e]

/-- Index of the grid point nearest to a distance. -/
noncomputable def idx (D : Data) (x : ℝ) : ℤ := nint ((x - D.rmin) / D.deltar)

open Classical in
/-- The contribution of a pair not further apart than `R`, without limits of a range. -/
noncomputable def free (D : Data) (ph : PPhase) (R : ℝ) (a b : PAtom) (amp : ℝ) (T : ℤ × ℤ × ℤ) (ig : ℤ) : ℝ :=
  if ((1 / 100 ≤ d2 ph a b T ∧ √(d2 ph a b T) ≤ R) ∧ Draws D ph a b T) ∧ idx D (√(d2 ph a b T) - 5 * width D ph a b T) ≤ ig ∧
      ig ≤ idx D (√(d2 ph a b T) + 5 * width D ph a b T) ∧ (0 < ph.stepcut → ig ≤ idx D ph.stepcut)
    then amp * gaus D (√(d2 ph a b T)) (width D ph a b T) ig else 0

theorem nint_add_one {x : ℝ} (h : 0 ≤ x) : nint (x + 1) = nint x + 1 := by
  unfold nint
  rw [if_pos h, if_pos (by linarith), show x + 1 + 1 / 2 = x + 1 / 2 + 1 by ring, Int.floor_add_one]

theorem nint_sub_one {x : ℝ} (h : 0 ≤ x) : nint (x - 1) < nint x := by
  unfold nint
  rw [if_pos h]
  split
  · rw [show x - 1 + 1 / 2 = x + 1 / 2 - 1 by ring, Int.floor_sub_one]
    omega
  · have h1 := Int.ceil_lt_add_one (x - 1 - 1 / 2)
    have h2 := Int.lt_floor_add_one (x + 1 / 2)
    have : ((⌈x - 1 - 1 / 2⌉ : ℤ) : ℝ) < ((⌊x + 1 / 2⌋ + 1 : ℤ) : ℝ) := by push_cast; linarith
    have h3 : ⌈x - 1 - 1 / 2⌉ ≤ 0 := Int.ceil_le.2 (by push_cast; linarith)
    rcases lt_or_ge x (1 / 2) with hx | hx
    · have h4 : ⌈x - 1 - 1 / 2⌉ ≤ -1 := Int.ceil_le.2 (by push_cast; linarith)
      have h5 : 0 ≤ ⌊x + 1 / 2⌋ := Int.floor_nonneg.2 (by linarith)
      omega
    · have h5 : 1 ≤ ⌊x + 1 / 2⌋ := Int.le_floor.2 (by push_cast; linarith)
      omega

section
variable {D : Data} (h : D.Ok)
include h

theorem idx_max (x y : ℝ) (ig : ℤ) : idx D (max x y) ≤ ig ↔ idx D x ≤ ig ∧ idx D y ≤ ig := by
  have : Monotone (idx D) := fun a b hab => idx_mono h hab
  rw [this.map_max, max_le_iff]

theorem idx_min (x y : ℝ) (ig : ℤ) : ig ≤ idx D (min x y) ↔ ig ≤ idx D x ∧ ig ≤ idx D y := by
  have : Monotone (idx D) := fun a b hab => idx_mono h hab
  rw [this.map_min, le_min_iff]

theorem ib_le (d g : ℝ) {ig : ℤ} (hi : D.ncmin ≤ ig) : ib D d g ≤ ig ↔ idx D (d - 5 * g) ≤ ig := by
  show idx D (max D.rcmin (d - 5 * g)) ≤ ig ↔ _
  rw [idx_max h, and_iff_right (show idx D D.rcmin ≤ ig from hi)]

theorem le_ie (ph : PPhase) (d g : ℝ) {ig : ℤ} (hi : ig ≤ D.ncmax) :
    ig ≤ ie D ph d g ↔ ig ≤ idx D (d + 5 * g) ∧ (0 < ph.stepcut → ig ≤ idx D ph.stepcut) := by
  show ig ≤ idx D (if 0 < ph.stepcut then min (min D.rcmax (d + 5 * g)) ph.stepcut else min D.rcmax (d + 5 * g)) ↔ _
  split
  · rename_i hs
    rw [idx_min h, idx_min h, and_iff_right (show ig ≤ idx D D.rcmax from hi)]
    simp [hs]
  · rename_i hs
    rw [idx_min h, and_iff_right (show ig ≤ idx D D.rcmax from hi)]
    simp [hs]

/-- A peak that starts more than a step behind the range does not reach it. -/
theorem beyond {x : ℝ} (hx : D.rcmax + D.deltar ≤ x) : D.ncmax < idx D x := by
  have h0 : 0 ≤ (D.rcmax - D.rmin) / D.deltar :=
    div_nonneg (by linarith [rcmin_ge h, rcmin_le h, h.hi, rcmax_ge (D := D)]) h.step.le
  have h1 := idx_mono h hx
  have h2 : (D.rcmax + D.deltar - D.rmin) / D.deltar = (D.rcmax - D.rmin) / D.deltar + 1 := by
    have := h.step.ne'
    field_simp
    ring
  rw [h2, nint_add_one h0] at h1
  unfold idx Data.ncmax
  omega

/-- A peak that ends more than a step before the range does not reach it. -/
theorem before {x : ℝ} (hx : x ≤ D.rcmin - D.deltar) : idx D x < D.ncmin := by
  have h0 : 0 ≤ (D.rcmin - D.rmin) / D.deltar := div_nonneg (by linarith [rcmin_ge h]) h.step.le
  have h1 := idx_mono h hx
  have h2 : (D.rcmin - D.deltar - D.rmin) / D.deltar = (D.rcmin - D.rmin) / D.deltar - 1 := by
    have := h.step.ne'
    field_simp
    ring
  rw [h2] at h1
  have h3 := nint_sub_one h0
  unfold idx Data.ncmin
  omega

/-- Inside of the range the contribution of a narrow peak is the one without limits. -/
theorem term_free {ph : PPhase} {R : ℝ} (hc : 0 ≤ D.rcmax) (hR : D.rcmax + 1 ≤ R) {a b : PAtom} {T : ℤ × ℤ × ℤ}
    (hw : √(d2 ph a b T) ≤ R → 5 * width D ph a b T + D.deltar ≤ 1) (amp : ℝ) {ig : ℤ} (h1 : D.ncmin ≤ ig) (h2 : ig ≤ D.ncmax) :
    term D ph a b amp T ig = free D ph R a b amp T ig := by
  classical
  rw [term_char]
  unfold free
  refine if_congr ?_ rfl rfl
  rw [ib_le h _ _ h1, le_ie h _ _ _ h2]
  constructor
  · rintro ⟨⟨⟨ha, hb⟩, hd⟩, hi⟩
    refine ⟨⟨⟨(le_max_left _ _).trans ha, ?_⟩, hd⟩, hi⟩
    refine (Real.sqrt_le_sqrt hb).trans ?_
    unfold Data.rmax2
    rw [Real.sqrt_sq (by linarith)]
    exact hR
  · rintro ⟨⟨⟨ha, hb⟩, hd⟩, hi⟩
    refine ⟨⟨⟨?_, ?_⟩, hd⟩, hi⟩
    · unfold Data.rmin2
      refine max_le ha ?_
      split
      · have : 0 ≤ (D.rcmin - 1) ^ 2 := sq_nonneg _
        linarith
      · rename_i hn
        rw [mul_one, ← Real.le_sqrt (not_lt.1 hn)]
        by_contra hlt
        have hw := hw hb
        have := before h (x := √(d2 ph a b T) + 5 * width D ph a b T) (by linarith)
        have := hi.2.1
        omega
        linarith
    · unfold Data.rmax2
      rw [← Real.sqrt_le_left (by linarith)]
      by_contra hlt
      have hw := hw hb
      have := beyond h (x := √(d2 ph a b T) - 5 * width D ph a b T) (by linarith)
      have := hi.1
      omega

end

/-! ## The sum over the translations -/

/-- The translations kept by a step cut. -/
def kept (ph : PPhase) : Set (ℤ × ℤ × ℤ) := {T | 0 < ph.stepcut → tlen ph T < ph.stepcut + circumDiameter ph.toPhs}

section
variable {D : Data} {ph : PPhase} (F : C19.Fine ph.toPhs) (N : Near ph)

include F N in
/-- For a pair within the limits of distance only the step cut matters. -/
theorem ball_kept {i j : ℕ} (hi : i < ph.atom.length) (hj : j < ph.atom.length) {T : ℤ × ℤ × ℤ}
    (he : event D ph (ph.atm i) (ph.atm j) T ≠ .skip) : T ∈ ball D ph ↔ T ∈ kept ph := by
  have h3 := Real.sqrt_le_sqrt (event_range he).2
  have h4 := (tri F i j T).1
  have h5 := N i j hi hj
  show tlen ph T < (if 0 < ph.stepcut then min _ _ else _) ↔ (0 < ph.stepcut → _)
  split
  · rename_i hs
    rw [lt_min_iff]
    exact ⟨fun x _ => x.2, fun x => ⟨by linarith, x hs⟩⟩
  · rename_i hs
    exact ⟨fun _ x => absurd x hs, fun _ => by linarith⟩

include F N in
theorem S_kept {i j : ℕ} (hi : i < ph.atom.length) (hj : j < ph.atom.length) (ig : ℤ) : S D ph i j ig =
    ∑ᶠ T ∈ kept ph, term D ph (ph.atm i) (ph.atm j) ((ph.atm i).occ * ph.weight i * ((ph.atm j).occ * ph.weight j)) T ig := by
  classical
  unfold S
  refine finsum_congr fun T => ?_
  rw [finsum_eq_if, finsum_eq_if]
  by_cases he : event D ph (ph.atm i) (ph.atm j) T = .skip
  · have h0 : ∀ amp, term D ph (ph.atm i) (ph.atm j) amp T ig = 0 := fun amp => by unfold term; rw [he]
    rw [h0, ite_self, ite_self]
  · exact if_congr (ball_kept F N hi hj he) rfl rfl

end

section
variable {D : Data} (hq : D.qmax ≤ 0) {lo hi lo' hi' : ℝ} (h : (span D lo hi).Ok) (h' : (span D lo' hi').Ok) (h0 : 0 ≤ D.rmin)

include hq in
theorem span_rc : (span D lo hi).rcmin = lo ∧ (span D lo hi).rcmax = hi :=
  ⟨if_neg (not_lt.2 hq), if_neg (not_lt.2 hq)⟩

include hq h h' h0

theorem pairSum_range {ph : PPhase} (F : C19.Fine ph.toPhs) (N : Near ph) (W : Narrow D ph (max hi hi' + 1)) (s : Sel) {ig : ℤ}
    (h1 : (span D lo hi).ncmin ≤ ig) (h2 : ig ≤ (span D lo hi).ncmax) (h1' : (span D lo' hi').ncmin ≤ ig)
    (h2' : ig ≤ (span D lo' hi').ncmax) : pairSum (span D lo hi) ph s ig = pairSum (span D lo' hi') ph s ig := by
  rw [pairSum_full F N, pairSum_full F N]
  refine Finset.sum_congr rfl fun i mi => Finset.sum_congr rfl fun j mj => if_congr Iff.rfl ?_ rfl
  rw [Finset.mem_range] at mi mj
  rw [S_kept F N mi mj, S_kept F N mi mj]
  refine finsum_congr fun T => finsum_congr fun _ => ?_
  have r := span_rc (lo := lo) (hi := hi) hq
  have r' := span_rc (lo := lo') (hi := hi') hq
  have c : D.rmin ≤ lo ∧ lo ≤ hi := ⟨h.lo, h.hi⟩
  have c' : D.rmin ≤ lo' ∧ lo' ≤ hi' := ⟨h'.lo, h'.hi⟩
  rw [term_free h (R := max hi hi' + 1) (by rw [r.2]; linarith) (by rw [r.2]; linarith [le_max_left hi hi']) (W i j mi mj T) _ h1 h2,
    term_free h' (R := max hi hi' + 1) (by rw [r'.2]; linarith) (by rw [r'.2]; linarith [le_max_right hi hi']) (W i j mi mj T) _ h1' h2']
  rfl

/-- Two calculations for the same grid and different ranges give the same values where the ranges overlap. -/
theorem C68_range_partial (psel : List (Option (PPhase × Sel)))
    (hp : ∀ x, some x ∈ psel → C19.Fine x.1.toPhs ∧ Near x.1 ∧ Narrow D x.1 (max hi hi' + 1)) {f f' : ℤ → ℝ}
    (hf : determine (span D lo hi) psel = .ok (some f)) (hf' : determine (span D lo' hi') psel = .ok (some f')) (i : ℤ)
    (h1 : (span D lo hi).nfmin ≤ i) (h2 : i ≤ (span D lo hi).nfmax) (h1' : (span D lo' hi').nfmin ≤ i)
    (h2' : i ≤ (span D lo' hi').nfmax) : f i = f' i := by
  have e1 := (ncmin_le_nfmin h).trans h1
  have e2 := h2.trans (nfmax_le_ncmax h)
  have e1' := (ncmin_le_nfmin h').trans h1'
  have e2' := h2'.trans (nfmax_le_ncmax h')
  rw [(determine_some h hf).2 i e1 e2, (determine_some h' hf').2 i e1' e2']
  congr 1
  refine List.map_congr_left fun x hx => ?_
  rw [List.mem_filterMap] at hx
  obtain ⟨y, hy, rfl⟩ := hx
  obtain ⟨F, N, W⟩ := hp x hy
  have q : ∀ l u, ¬0 < (span D l u).qmax := fun _ _ => not_lt.2 hq
  unfold filt
  rw [if_neg (q _ _), if_neg (q _ _)]
  unfold curve
  rw [pairSum_range hq h h' h0 F N W x.2 e1 e2 e1' e2']
  rfl

end

/-- Two calls of `pdfrange` on a data set without Qmax cutoff: the curves agree where both are calculated. -/
theorem C68_pdfrange_partial (d d1 d2 : DSet) (lo hi lo' hi' : ℝ) (hd : 0 < d.D.deltar) (h0 : 0 ≤ d.D.rmin) (hq : d.D.qmax ≤ 0)
    (e1 : d.range lo hi = .ok d1) (e2 : d1.range lo' hi' = .ok d2) (psel : List (Option (PPhase × Sel)))
    (hp : ∀ x, some x ∈ psel → C19.Fine x.1.toPhs ∧ Near x.1 ∧ Narrow d.D x.1 (max hi hi' + 1)) {f f' : ℤ → ℝ}
    (hf : determine d1.D psel = .ok (some f)) (hf' : determine d2.D psel = .ok (some f')) (i : ℤ)
    (h1 : d1.D.nfmin ≤ i ∧ i ≤ d1.D.nfmax) (h2 : d2.D.nfmin ≤ i ∧ i ≤ d2.D.nfmax) : f i = f' i := by
  unfold DSet.range at e1 e2
  split at e1
  · rename_i c
    simp only [Res.ok.injEq] at e1
    subst e1
    split at e2
    · rename_i c'
      simp only [Res.ok.injEq] at e2
      subst e2
      exact C68_range_partial (D := d.D) (lo := lo) (hi := hi) (lo' := lo') (hi' := hi') hq ⟨hd, c.1, c.2.2.2.le⟩ ⟨hd, c'.1, c'.2.2.2.le⟩ h0 psel hp hf hf' i h1.1 h1.2 h2.1 h2.2
    · cases e2
  · cases e1

/-! ## Concrete structures -/

/-- One atom in a cubic cell with the isotropic displacement parameter `u`. -/
noncomputable def iso (u : ℝ) : PPhase := { demo with atom := [⟨![0, 0, 0], 1, ![u, u, u, 0, 0, 0], 1⟩] }

/-- The grid of the example: 1, 1.5, 2, ... -/
noncomputable def isoD : Data := ⟨1, 1 / 2, 1, 10, 0, 0, 0, 1⟩

theorem iso90 (u : ℝ) (k : Fin 3) : (iso u).cell.win k = 90 := by fin_cases k <;> rfl
theorem iso3 (u : ℝ) (k : Fin 3) : (iso u).cell.a0 k = 3 := by fin_cases k <;> rfl

theorem iso_orth (u : ℝ) : Deriv.Orth (iso u).cell :=
  ⟨fun k => by rw [iso90, C45.cosd90], fun k => by rw [iso90, C45.sind90], fun k => by rw [iso3]; norm_num⟩

theorem iso_fine (u : ℝ) : C19.Fine (iso u).toPhs where
  acc := by
    have hv : voll (iso u).toPhs.cell = 1 := by
      unfold voll
      simp only [show ∀ k, (iso u).toPhs.cell.win k = 90 from iso90 u, C45.cosd90]; norm_num
    refine ⟨_, if_neg ?_⟩
    rw [hv, not_le]
    unfold eps; norm_num
  edge := fun k => by rw [show (iso u).toPhs.cell.a0 k = 3 from iso3 u k]; norm_num
  angle := fun k => by rw [show (iso u).toPhs.cell.win k = 90 from iso90 u k]; norm_num
  small := by
    intro i j _
    left
    rw [show ∀ k, (iso u).toPhs.cell.win k = 90 from iso90 u, C45.cosd90, mul_zero]
  icc := fun k => by fin_cases k <;> exact one_pos

theorem iso_near (u : ℝ) : Near (iso u) := near_of _ (iso_fine u) fun i j hi hj k => by
  have hi : i < 1 := hi
  have hj : j < 1 := hj
  interval_cases i; interval_cases j; fin_cases k <;> norm_num [iso, PPhase.atm]

theorem iso_d2 (u : ℝ) (T : ℤ × ℤ × ℤ) : d2 (iso u) ((iso u).atm 0) ((iso u).atm 0) T = 9 * ((T.1 : ℝ) ^ 2 + (T.2.1 : ℝ) ^ 2 + (T.2.2 : ℝ) ^ 2) := by
  unfold d2
  rw [Deriv.skal_orth (iso_orth u)]
  unfold Deriv.sq3
  simp only [iso3, dd]
  simp [iso, demo]
  ring

theorem norm_pos {T : ℤ × ℤ × ℤ} (h : T ≠ 0) : 0 < 9 * ((T.1 : ℝ) ^ 2 + (T.2.1 : ℝ) ^ 2 + (T.2.2 : ℝ) ^ 2) := by
  have : (0 : ℤ) < T.1 ^ 2 + T.2.1 ^ 2 + T.2.2 ^ 2 := by
    by_contra hn
    apply h
    have h1 := sq_nonneg T.1
    have h2 := sq_nonneg T.2.1
    have h3 := sq_nonneg T.2.2
    have e1 : T.1 = 0 := by rw [← sq_eq_zero_iff]; omega
    have e2 : T.2.1 = 0 := by rw [← sq_eq_zero_iff]; omega
    have e3 : T.2.2 = 0 := by rw [← sq_eq_zero_iff]; omega
    exact Prod.ext e1 (Prod.ext e2 e3)
  have : (0 : ℝ) < ((T.1 ^ 2 + T.2.1 ^ 2 + T.2.2 ^ 2 : ℤ) : ℝ) := by exact_mod_cast this
  push_cast at this
  linarith

theorem iso_msd (u : ℝ) (T : ℤ × ℤ × ℤ) : (iso u).msd ((iso u).atm 0) ((iso u).atm 0) (dd (iso u) ((iso u).atm 0) ((iso u).atm 0) T) =
    if T = 0 then 0 else 2 * u := by
  have h := Deriv.msd_orth (iso_orth u) ((0, 0), T) (by
    have := iso_d2 u T
    unfold d2 at this
    show 0 ≤ (iso u).toPhs.skal _ _
    refine le_of_le_of_eq ?_ this.symm
    positivity)
  refine h.trans ?_
  have e : Deriv.dist2 (iso u) ((0, 0), T) = 9 * ((T.1 : ℝ) ^ 2 + (T.2.1 : ℝ) ^ 2 + (T.2.2 : ℝ) ^ 2) := iso_d2 u T
  have q : Deriv.quad (fun k => ((iso u).atm 0).u k + ((iso u).atm 0).u k) (Deriv.cart (iso u) ((0, 0), T)) =
      2 * u * Deriv.dist2 (iso u) ((0, 0), T) := by
    rw [Deriv.dist2_orth (iso_orth u)]
    unfold Deriv.quad Deriv.sq3
    simp [iso, PPhase.atm]
    ring
  show Deriv.quad (fun k => ((iso u).atm 0).u k + ((iso u).atm 0).u k) (Deriv.cart (iso u) ((0, 0), T)) / _ = _
  rw [q]
  split
  · rename_i h0
    subst h0
    rw [e]
    simp
  · rename_i h0
    refine mul_div_cancel_right₀ _ ?_
    rw [e]
    exact (norm_pos h0).ne'

theorem iso_width (u : ℝ) (D : Data) (hD : D.qbroad = 0) (T : ℤ × ℤ × ℤ) :
    corfact D (iso u) (d2 (iso u) ((iso u).atm 0) ((iso u).atm 0) T) = 1 ∧
    width D (iso u) ((iso u).atm 0) ((iso u).atm 0) T = if T = 0 then 0 else √(2 * u) := by
  have hc : corfact D (iso u) (d2 (iso u) ((iso u).atm 0) ((iso u).atm 0) T) = 1 := by
    unfold corfact
    rw [hD, show (iso u).delta2 = 0 from rfl, show (iso u).delta1 = 0 from rfl]
    simp
  refine ⟨hc, ?_⟩
  unfold width sigma
  rw [hc, iso_msd, if_neg (by rw [show (iso u).rcut = 0 from rfl]; exact not_lt.2 (Real.sqrt_nonneg _)), Real.sqrt_one, mul_one]
  split <;> simp

theorem iso_np (u : ℝ) : (iso u).np = 1 := by norm_num [PPhase.np, iso]
theorem iso_bavg (u : ℝ) : (iso u).bavg = 1 := by
  have : (iso u).bavg = (1 * 1 + 0) / (iso u).np := rfl
  rw [this, iso_np]; norm_num
theorem iso_weight (u : ℝ) : (iso u).weight 0 = 1 := by
  show 1 / (iso u).bavg = 1
  rw [iso_bavg]; norm_num
theorem iso_rtot (u : ℝ) : rtot (iso u) = 1 := by
  have : halfPairs (iso u).atom.length = [(0, 0)] := rfl
  unfold rtot
  rw [this]
  simp [iso_weight, half]
theorem iso_ncv (u : ℝ) : (iso u).ncv = 27 := by
  unfold PPhase.ncv
  rw [Deriv.vol_orth (iso_orth u)]
  simp only [iso3]
  simp [iso, demo]
  norm_num

/-- The example gives numbers. -/
theorem iso_good {u : ℝ} (hu : 0 ≤ u) {D : Data} (h : D.Ok) (h1 : 0 < D.rmin) (s : Sel) : ¬Bad D (iso u) s := by
  have ha : ∀ i, (∀ k, 0 ≤ ((iso u).atm i).u k) ∧ ((iso u).atm i).u 3 = 0 ∧ ((iso u).atm i).u 4 = 0 ∧ ((iso u).atm i).u 5 = 0 := by
    intro i
    match i with
    | 0 => exact ⟨fun k => by fin_cases k <;> simp [iso, PPhase.atm, hu], rfl, rfl, rfl⟩
    | n + 1 => exact ⟨fun k => le_refl (0 : ℝ), rfl, rfl, rfl⟩
  rintro (⟨x, -, h⟩ | h | h | h | h | ⟨i, h2, -, h3⟩)
  · exact event_ne_nan _ _ _ _ _ (ha _) (ha _) le_rfl h
  · rw [iso_np] at h; norm_num at h
  · rw [iso_ncv] at h; norm_num at h
  · rw [iso_bavg] at h; norm_num at h
  · rw [iso_rtot] at h; norm_num at h
  · have h0 := (ncmin_nonneg h).trans h2
    have h0 : (0 : ℝ) ≤ i := by exact_mod_cast h0
    have := h.step
    unfold Data.r at h3
    have : 0 ≤ (i : ℝ) * D.deltar := by positivity
    linarith

theorem isoD_ok {lo hi : ℝ} (h1 : 1 ≤ lo) (h2 : lo ≤ hi) : (span isoD lo hi).Ok := ⟨by norm_num [span, isoD], h1, h2⟩

theorem isoD_nf {lo hi : ℝ} : (span isoD lo hi).nfmin = nint ((lo - 1) * 2) ∧ (span isoD lo hi).nfmax = nint ((hi - 1) * 2) := by
  constructor
  · show nint ((lo - 1) / (1 / 2)) = _
    congr 1; ring
  · show nint ((hi - 1) / (1 / 2)) = _
    congr 1; ring

theorem iso_narrow {R : ℝ} : Narrow isoD (iso (1 / 200)) R := by
  intro i j hi hj T _
  have hi : i < 1 := hi
  have hj : j < 1 := hj
  interval_cases i
  interval_cases j
  rw [(iso_width _ isoD rfl T).2]
  split
  · norm_num [isoD]
  · rw [show (2 * (1 / 200) : ℝ) = (1 / 10) ^ 2 by norm_num, Real.sqrt_sq (by norm_num)]
    norm_num [isoD]

/-- The hypotheses are satisfied: U = 0.005, the ranges 1-6 and 3-10, grid point 8, that is r = 5. -/
example : ∃ f f', determine (span isoD 1 6) [some (iso (1 / 200), C60.noSel)] = .ok (some f) ∧
    determine (span isoD 3 10) [some (iso (1 / 200), C60.noSel)] = .ok (some f') ∧ f 8 = f' 8 := by
  have o := isoD_ok (lo := 1) (hi := 6) le_rfl (by norm_num)
  have o' := isoD_ok (lo := 3) (hi := 10) (by norm_num) (by norm_num)
  obtain ⟨f, e1, -⟩ := determine_of o (psel := [some (iso (1 / 200), C60.noSel)]) (by
    intro x hx
    simp only [List.mem_singleton, Option.some.injEq] at hx
    subst hx
    exact iso_good (by norm_num) o one_pos _)
  obtain ⟨f', e1', -⟩ := determine_of o' (psel := [some (iso (1 / 200), C60.noSel)]) (by
    intro x hx
    simp only [List.mem_singleton, Option.some.injEq] at hx
    subst hx
    exact iso_good (by norm_num) o' one_pos _)
  have n : ∀ (x : ℝ) (n : ℤ), x = n → nint x = n := fun x n e => by rw [e, nint_int]
  refine ⟨f, f', e1, e1', C68_range_partial le_rfl o o' zero_le_one _ (fun x hx => ?_) e1 e1' 8 ?_ ?_ ?_ ?_⟩
  · simp only [List.mem_singleton, Option.some.injEq] at hx
    subst hx
    exact ⟨iso_fine _, iso_near _, iso_narrow⟩
  · rw [isoD_nf.1, n _ 0 (by norm_num)]; norm_num
  · rw [isoD_nf.2, n _ 10 (by norm_num)]; norm_num
  · rw [isoD_nf.1, n _ 4 (by norm_num)]; norm_num
  · rw [isoD_nf.2, n _ 18 (by norm_num)]; norm_num

/-! ## Violation: broad peaks -/

theorem pairSum_iso (u : ℝ) (D : Data) (ig : ℤ) : pairSum D (iso u) C60.noSel ig =
    ∑ᶠ T, term D (iso u) ((iso u).atm 0) ((iso u).atm 0) 1 T ig := by
  have hl : (iso u).atom.length = 1 := rfl
  rw [pairSum_full (iso_fine u) (iso_near u), hl, Finset.sum_range_one, Finset.sum_range_one, if_pos (show skip C60.noSel 0 0 = false from rfl),
    C60.S_all D (iso_fine u) (iso_near u) le_rfl (by rw [hl]; exact one_pos) (by rw [hl]; exact one_pos)]
  rw [iso_weight, show ((iso u).atm 0).occ = 1 from rfl]
  norm_num

/-- No pair is within 1 Å of the range 1-1.5. -/
theorem iso_short (ig : ℤ) : pairSum (span isoD 1 (3 / 2)) (iso (1 / 20)) C60.noSel ig = 0 := by
  rw [pairSum_iso]
  refine finsum_eq_zero_of_forall_eq_zero fun T => ?_
  rw [term_char, if_neg]
  rintro ⟨⟨⟨h1, h2⟩, -⟩, -⟩
  have r := span_rc (D := isoD) (lo := 1) (hi := 3 / 2) le_rfl
  have h1 := (le_max_left _ _).trans h1
  unfold Data.rmax2 at h2
  rw [r.2, iso_d2] at h2
  rw [iso_d2] at h1
  have h3 : (T.1 ^ 2 + T.2.1 ^ 2 + T.2.2 ^ 2 : ℤ) < 1 := by
    have : ((T.1 ^ 2 + T.2.1 ^ 2 + T.2.2 ^ 2 : ℤ) : ℝ) < 1 := by push_cast; linarith
    exact_mod_cast this
  have h4 : 0 < (T.1 ^ 2 + T.2.1 ^ 2 + T.2.2 ^ 2 : ℤ) := by
    have : (0 : ℝ) < ((T.1 ^ 2 + T.2.1 ^ 2 + T.2.2 ^ 2 : ℤ) : ℝ) := by push_cast; linarith
    exact_mod_cast this
  omega

/-- With the range 1-3 the neighbours at 3 Å contribute at r = 1.5. -/
theorem iso_long : 0 < pairSum (span isoD 1 3) (iso (1 / 20)) C60.noSel 1 := by
  have o := isoD_ok (lo := 1) (hi := 3) le_rfl (by norm_num)
  have r := span_rc (D := isoD) (lo := 1) (hi := 3) le_rfl
  have hl : 0 < (iso (1 / 20)).atom.length := one_pos
  rw [pairSum_iso]
  have hT : ((1, 0, 0) : ℤ × ℤ × ℤ) ≠ 0 := by decide
  have w := iso_width (1 / 20) (span isoD 1 3) rfl (1, 0, 0)
  rw [if_neg hT] at w
  have e : √(d2 (iso (1 / 20)) ((iso (1 / 20)).atm 0) ((iso (1 / 20)).atm 0) (1, 0, 0)) = 3 := by
    rw [iso_d2, show (9 * (((1 : ℤ) : ℝ) ^ 2 + ((0 : ℤ) : ℝ) ^ 2 + ((0 : ℤ) : ℝ) ^ 2) : ℝ) = 3 ^ 2 by norm_num, Real.sqrt_sq (by norm_num)]
  have hs : 0 < √(2 * (1 / 20) : ℝ) := Real.sqrt_pos.2 (by norm_num)
  have hs1 : (31 / 100 : ℝ) ≤ √(2 * (1 / 20) : ℝ) := Real.le_sqrt_of_sq_le (by norm_num)
  have hs2 : √(2 * (1 / 20) : ℝ) ≤ 1 := Real.sqrt_le_one.2 (by norm_num)
  have n : ∀ (x : ℝ) (n : ℤ), x = n → nint x = n := fun x n e => by rw [e, nint_int]
  refine lt_of_lt_of_le ?_ (single_le_finsum (1, 0, 0) (C60.term_support _ (iso_fine _) (iso_near _) le_rfl hl hl 1 1)
    fun T => C60.term_nonneg _ _ zero_le_one le_rfl T 1)
  rw [term_char, if_pos]
  · rw [w.2, one_mul]
    unfold gaus
    have := Real.pi_pos
    positivity
  · rw [e, w.2]
    refine ⟨⟨⟨?_, ?_⟩, ?_, ?_, ?_⟩, ?_, ?_⟩
    · unfold Data.rmin2
      rw [r.1, iso_d2]
      norm_num
    · unfold Data.rmax2
      rw [r.2, iso_d2]
      norm_num
    · rw [iso_msd, if_neg hT]; norm_num
    · rw [w.1]; exact one_pos
    · rw [w.2]; exact hs.ne'
    · refine (nint_mono (y := 1) ?_).trans (n 1 1 (by norm_num)).le
      rw [r.1]
      show (max 1 (3 - 5 * √(2 * (1 / 20))) - 1) / (1 / 2) ≤ 1
      have : max 1 (3 - 5 * √(2 * (1 / 20) : ℝ)) ≤ 3 / 2 := max_le (by norm_num) (by linarith)
      linarith
    · refine (n 1 1 (by norm_num)).ge.trans (nint_mono ?_)
      rw [if_neg (by exact lt_irrefl (0 : ℝ)), r.2]
      show 1 ≤ (min 3 (3 + 5 * √(2 * (1 / 20))) - 1) / (1 / 2)
      rw [min_eq_left (by linarith)]
      norm_num

/-- Violation: U = 0.05. The value at r = 1.5 (grid point 1, which is in both ranges) is different when the curve is calculated for
1-1.5 and for 1-3. -/
theorem C68_range_matters : ∃ f f', determine (span isoD 1 (3 / 2)) [some (iso (1 / 20), C60.noSel)] = .ok (some f) ∧
    determine (span isoD 1 3) [some (iso (1 / 20), C60.noSel)] = .ok (some f') ∧
    ((span isoD 1 (3 / 2)).nfmin ≤ 1 ∧ 1 ≤ (span isoD 1 (3 / 2)).nfmax) ∧
    ((span isoD 1 3).nfmin ≤ 1 ∧ 1 ≤ (span isoD 1 3).nfmax) ∧ isoD.r 1 = 3 / 2 ∧ f 1 < f' 1 := by
  have o := isoD_ok (lo := 1) (hi := 3 / 2) le_rfl (by norm_num)
  have o' := isoD_ok (lo := 1) (hi := 3) le_rfl (by norm_num)
  obtain ⟨f, e1, e2⟩ := determine_of o (psel := [some (iso (1 / 20), C60.noSel)]) (by
    intro x hx
    simp only [List.mem_singleton, Option.some.injEq] at hx
    subst hx
    exact iso_good (by norm_num) o one_pos _)
  obtain ⟨f', e1', e2'⟩ := determine_of o' (psel := [some (iso (1 / 20), C60.noSel)]) (by
    intro x hx
    simp only [List.mem_singleton, Option.some.injEq] at hx
    subst hx
    exact iso_good (by norm_num) o' one_pos _)
  have n : ∀ (x : ℝ) (n : ℤ), x = n → nint x = n := fun x n e => by rw [e, nint_int]
  have a1 : (span isoD 1 (3 / 2)).nfmin ≤ 1 := by rw [isoD_nf.1, n _ 0 (by norm_num)]; norm_num
  have a2 : 1 ≤ (span isoD 1 (3 / 2)).nfmax := by rw [isoD_nf.2, n _ 1 (by norm_num)]
  have b1 : (span isoD 1 3).nfmin ≤ 1 := by rw [isoD_nf.1, n _ 0 (by norm_num)]; norm_num
  have b2 : 1 ≤ (span isoD 1 3).nfmax := by rw [isoD_nf.2, n _ 4 (by norm_num)]; norm_num
  refine ⟨f, f', e1, e1', ⟨a1, a2⟩, ⟨b1, b2⟩, by norm_num [Data.r, isoD], ?_⟩
  rw [e2 1 ((ncmin_le_nfmin o).trans a1) (a2.trans (nfmax_le_ncmax o)), e2' 1 ((ncmin_le_nfmin o').trans b1) (b2.trans (nfmax_le_ncmax o'))]
  have hq : ∀ (hi : ℝ) (c : ℤ → ℝ), filt (span isoD 1 hi) c 1 = c 1 := fun hi c => if_neg (lt_irrefl (0 : ℝ))
  have henv : ∀ (hi x : ℝ), envelope (span isoD 1 hi) (iso (1 / 20)) x = 1 := by
    intro hi x
    unfold envelope
    rw [if_neg (show ¬0 < (span isoD 1 hi).qdamp from lt_irrefl (0 : ℝ)),
      if_neg (show ¬0 < (iso (1 / 20)).spdiameter from lt_irrefl (0 : ℝ)),
      if_neg (show ¬0 < (iso (1 / 20)).stepcut from lt_irrefl (0 : ℝ))]
    norm_num
  have hr : ∀ hi, (span isoD 1 hi).r 1 = 3 / 2 := fun hi => by
    show ((1 : ℤ) : ℝ) * (1 / 2) + 1 = 3 / 2
    norm_num
  have hd : ∀ hi, (span isoD 1 hi).dscale = 1 := fun hi => rfl
  simp only [List.filterMap_cons, List.filterMap_nil, id, List.map_cons, List.map_nil, List.sum_cons, List.sum_nil, hq, hd]
  unfold curve
  rw [henv, henv, hr, hr, iso_short, iso_np, show (iso (1 / 20)).pscale = 2 from rfl]
  have := iso_long
  linarith

/-- The same at the level of the commands: `alloc` with 19 points from 1 to 10, then `pdfrange` with 1-1.5 and with 1-3. -/
example : ∃ d d1 d2, alloc 0 0 1 10 19 = .ok d ∧ d.D = isoD ∧ d.range 1 (3 / 2) = .ok d1 ∧ d1.D = span isoD 1 (3 / 2) ∧
    d1.range 1 3 = .ok d2 ∧ d2.D = span isoD 1 3 := by
  have h : alloc 0 0 1 10 19 = .ok ⟨isoD, 10, 19, List.replicate 19 0, List.replicate 19 1⟩ := by
    unfold alloc
    rw [if_neg (by norm_num), if_neg (by norm_num), if_neg (by norm_num), if_neg (by norm_num)]
    norm_num [isoD]
    rfl
  refine ⟨_, _, _, h, rfl, if_pos ?_, rfl, if_pos ?_, rfl⟩ <;> norm_num [isoD]

end Pdffit.C68
