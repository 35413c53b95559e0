import Verif.Props.C92
import Mathlib.Algebra.BigOperators.Field

/-!
# C93: the unit of length

The calculation has no unit: a structure and a data set can be given in Å or in nm. With all lengths multiplied by `l` (cell edges, `delta1`,
`rcut`, `stepcut`, `spdiameter`, `r` values), squares of lengths (displacement parameters, `delta2`) by `l^2` and the values in reciprocal space
(Qmax, Qdamp, Qbroad) divided by `l`, the PDF is divided by `l^2` at every point.

* `C93_units_partial`: this is so, if no peak is wider than 1 in either unit and no atoms are closer than 0.1 in either unit.
* `C93_unit_matters`: pairs closer than 0.1 are left out (pdf.cc 175), so that the same crystal in another unit has a different PDF.
-/

namespace Pdffit.C93
open Det Bonds Geom Pdffit.Parser C24 C68

/-- The data set in a unit that is smaller by the factor `l`. -/
noncomputable def sData (l : ℝ) (D : Data) : Data where
  rmin := l * D.rmin
  deltar := l * D.deltar
  rfmin := l * D.rfmin
  rfmax := l * D.rfmax
  qmax := D.qmax / l
  qdamp := D.qdamp / l
  qbroad := D.qbroad / l
  dscale := D.dscale

/-- An atom in the smaller unit. -/
def sAtom (l : ℝ) (a : PAtom) : PAtom := { a with u := fun k => l ^ 2 * a.u k }

/-- A phase in the smaller unit. -/
def sPhase (l : ℝ) (ph : PPhase) : PPhase where
  cell := ⟨fun k => l * ph.cell.a0 k, ph.cell.win⟩
  icc := ph.icc
  atom := ph.atom.map (sAtom l)
  delta2 := l ^ 2 * ph.delta2
  delta1 := l * ph.delta1
  rcut := l * ph.rcut
  sratio := ph.sratio
  stepcut := l * ph.stepcut
  spdiameter := l * ph.spdiameter
  pscale := ph.pscale

/-- No two atoms are closer than 0.1, unless they are at the same place. -/
def Apart (ph : PPhase) : Prop := ∀ i j, i < ph.atom.length → j < ph.atom.length → ∀ T,
  d2 ph (ph.atm i) (ph.atm j) T = 0 ∨ 1 / 100 ≤ d2 ph (ph.atm i) (ph.atm j) T

/-- What is needed of a phase in each of the two units: a good cell, an exhaustive search, narrow peaks, and no atoms too close. -/
structure Fits (D : Data) (ph : PPhase) (R : ℝ) : Prop where
  fine : C19.Fine ph.toPhs
  near : Near ph
  reach : C91.Reach D ph
  narrow : Narrow D ph R
  apart : Apart ph

section
variable {l : ℝ} (hl : 0 < l)
include hl

/-! ## The range -/

section
variable (D : Data)

theorem sqmax : 0 < (sData l D).qmax ↔ 0 < D.qmax := div_pos_iff_of_pos_right hl

omit hl in
theorem sext : 6 * 2 * Real.pi / (sData l D).qmax = l * (6 * 2 * Real.pi / D.qmax) := by
  show 6 * 2 * Real.pi / (D.qmax / l) = _
  rw [div_div_eq_mul_div]
  ring

theorem srcmin : (sData l D).rcmin = l * D.rcmin := by
  unfold Data.rcmin
  rw [sext]
  by_cases h : 0 < D.qmax
  · rw [if_pos ((sqmax hl D).2 h), if_pos h, mul_max_of_nonneg _ _ hl.le, mul_sub]
    rfl
  · rw [if_neg fun c => h ((sqmax hl D).1 c), if_neg h]
    rfl

theorem srcmax : (sData l D).rcmax = l * D.rcmax := by
  unfold Data.rcmax
  rw [sext]
  by_cases h : 0 < D.qmax
  · rw [if_pos ((sqmax hl D).2 h), if_pos h, mul_add]
    rfl
  · rw [if_neg fun c => h ((sqmax hl D).1 c), if_neg h]
    rfl

theorem sidx (x : ℝ) : idx (sData l D) (l * x) = idx D x := by
  show nint ((l * x - l * D.rmin) / (l * D.deltar)) = nint ((x - D.rmin) / D.deltar)
  rw [← mul_sub, mul_div_mul_left _ _ hl.ne']

theorem sncmin : (sData l D).ncmin = D.ncmin := by
  show idx (sData l D) (sData l D).rcmin = _
  rw [srcmin hl, sidx hl]
  rfl

theorem sncmax : (sData l D).ncmax = D.ncmax := by
  show idx (sData l D) (sData l D).rcmax = _
  rw [srcmax hl, sidx hl]
  rfl

omit hl in
theorem sr (i : ℤ) : (sData l D).r i = l * D.r i := by
  show (i : ℝ) * (l * D.deltar) + l * D.rmin = l * (i * D.deltar + D.rmin)
  ring

theorem sgaus (d g : ℝ) (ig : ℤ) : gaus (sData l D) (l * d) (l * g) ig = gaus D d g ig / l := by
  unfold gaus
  have e : ((sData l D).rmin + ig * (sData l D).deltar - l * d) / (l * g) = (D.rmin + ig * D.deltar - d) / g := by
    rw [← mul_div_mul_left _ g hl.ne']
    congr 1
    show l * D.rmin + ig * (l * D.deltar) - l * d = _
    ring
  rw [e, show √(2 * Real.pi) * (l * g) = √(2 * Real.pi) * g * l by ring, ← div_div]
  ring

theorem sok (h : D.Ok) : (sData l D).Ok :=
  ⟨mul_pos hl h.step, mul_le_mul_of_nonneg_left h.lo hl.le, mul_le_mul_of_nonneg_left h.hi hl.le⟩

/-- The Qmax cutoff has no unit. -/
theorem sfilt (c : ℤ → ℝ) (i : ℤ) : filt (sData l D) c i = filt D c i := by
  have hq : ∀ n, Qmax.loQ (sData l D).deltar (sData l D).qmax n = Qmax.loQ D.deltar D.qmax n := by
    intro n
    unfold Qmax.loQ Qmax.dQ
    congr 1
    show D.qmax / l / (2 * Real.pi / ((Qmax.padlen n - 1) * (l * D.deltar))) = _
    rw [show ((Qmax.padlen n : ℝ) - 1) * (l * D.deltar) = l * ((Qmax.padlen n - 1) * D.deltar) by ring, div_mul_eq_div_div_swap,
      div_div_div_cancel_right₀ hl.ne']
  have hn : nclen (sData l D) = nclen D := by
    unfold nclen
    rw [sncmin hl, sncmax hl]
  unfold filt Qmax.applyQmaxCutoff Qmax.filtered Qmax.hiQ
  rw [hn, sncmin hl, hq]
  exact if_congr (sqmax hl D) rfl rfl

end

/-! ## One pair -/

section
variable {ph : PPhase}

omit hl in
theorem slen : (sPhase l ph).atom.length = ph.atom.length := by simp [sPhase]

omit hl in
theorem satm {i : ℕ} (hi : i < ph.atom.length) : (sPhase l ph).atm i = sAtom l (ph.atm i) := by
  unfold PPhase.atm
  simp [sPhase, List.getD_eq_getElem?_getD, List.getElem?_eq_getElem hi]

omit hl in
theorem sdd (a b : PAtom) (T : ℤ × ℤ × ℤ) : dd (sPhase l ph) (sAtom l a) (sAtom l b) T = dd ph a b T := rfl

variable (F : C19.Fine ph.toPhs) (F' : C19.Fine (sPhase l ph).toPhs)
include F F'

omit hl in
theorem sgten (i j : Fin 3) : (sPhase l ph).toPhs.gten i j = l ^ 2 * ph.toPhs.gten i j := by
  rw [C60.gten_cos F', C60.gten_cos F]
  show l * ph.cell.a0 i * (l * ph.cell.a0 j) * C60.cosm ph.cell.win i j = _
  ring

omit hl in
theorem sskal (v : Fin 3 → ℝ) : (sPhase l ph).toPhs.skal v v = l ^ 2 * ph.toPhs.skal v v := by
  unfold Phs.skal skalpro
  rw [Finset.mul_sum]
  refine Finset.sum_congr rfl fun i _ => ?_
  rw [Finset.mul_sum]
  refine Finset.sum_congr rfl fun j _ => ?_
  rw [sgten F F']
  ring

omit hl in
theorem sd2 (a b : PAtom) (T : ℤ × ℤ × ℤ) : d2 (sPhase l ph) (sAtom l a) (sAtom l b) T = l ^ 2 * d2 ph a b T :=
  sskal F F' _

theorem sdist (a b : PAtom) (T : ℤ × ℤ × ℤ) : √(d2 (sPhase l ph) (sAtom l a) (sAtom l b) T) = l * √(d2 ph a b T) := by
  rw [sd2 F F', Real.sqrt_mul (sq_nonneg l), Real.sqrt_sq hl.le]

omit hl F F' in
theorem svol : vol (sPhase l ph).cell = l ^ 3 * vol ph.cell := by
  show √(voll ph.cell) * (l * ph.cell.a0 0) * (l * ph.cell.a0 1) * (l * ph.cell.a0 2) = l ^ 3 * (√(voll ph.cell) * ph.cell.a0 0 * ph.cell.a0 1 * ph.cell.a0 2)
  ring

omit F F' in
theorem srec (i : Fin 3) : recEdge (sPhase l ph).cell i = recEdge ph.cell i / l := by
  unfold recEdge
  rw [svol, div_div, show (sPhase l ph).cell.a0 (i + 1) * (sPhase l ph).cell.a0 (i + 2) * bsind ((sPhase l ph).cell.win i) =
    l ^ 2 * (ph.cell.a0 (i + 1) * ph.cell.a0 (i + 2) * bsind (ph.cell.win i)) from by
      show l * ph.cell.a0 (i + 1) * (l * ph.cell.a0 (i + 2)) * bsind (ph.cell.win i) = _
      ring, show l ^ 3 * vol ph.cell = l ^ 2 * (vol ph.cell * l) by ring, mul_div_mul_left _ _ (pow_pos hl 2).ne']

theorem smsd (a b : PAtom) (v : Fin 3 → ℝ) : (sPhase l ph).msd (sAtom l a) (sAtom l b) v = l ^ 2 * ph.msd a b v := by
  rw [Axes.msd_sum, Axes.msd_sum, sskal F F', Real.sqrt_mul (sq_nonneg l), Real.sqrt_sq hl.le, Finset.mul_sum _ _ (l ^ 2)]
  generalize √(ph.toPhs.skal v v) = n
  have hr : ∀ i, ∑ k, (sPhase l ph).toPhs.gten i k * (v k / (l * n)) = l * ∑ k, ph.toPhs.gten i k * (v k / n) := by
    intro i
    rw [Finset.mul_sum]
    refine Finset.sum_congr rfl fun k _ => ?_
    rw [sgten F F', div_mul_eq_div_div_swap]
    field_simp
  refine Finset.sum_congr rfl fun i _ => ?_
  rw [Finset.mul_sum _ _ (l ^ 2)]
  refine Finset.sum_congr rfl fun j _ => ?_
  rw [hr, hr, srec hl, srec hl]
  show (l ^ 2 * a.u (Axes.uix i j) + l ^ 2 * b.u (Axes.uix i j)) * _ * _ = _
  field_simp

variable (D : Data)

omit F F' in
theorem scorf (x : ℝ) : corfact (sData l D) (sPhase l ph) (l ^ 2 * x) = corfact D ph x := by
  unfold corfact
  rw [Real.sqrt_mul (sq_nonneg l), Real.sqrt_sq hl.le]
  show 1 - l ^ 2 * ph.delta2 / (l ^ 2 * x) - l * ph.delta1 / (l * √x) + (D.qbroad / l) ^ 2 * (l ^ 2 * x) = _
  rw [mul_div_mul_left _ _ (pow_pos hl 2).ne', mul_div_mul_left _ _ hl.ne', div_pow]
  have : D.qbroad ^ 2 / l ^ 2 * (l ^ 2 * x) = D.qbroad ^ 2 * x := by field_simp
  rw [this]

theorem swidth (a b : PAtom) (T : ℤ × ℤ × ℤ) : width (sData l D) (sPhase l ph) (sAtom l a) (sAtom l b) T = l * width D ph a b T := by
  unfold width
  rw [sd2 F F', sdd, smsd hl F F']
  unfold sigma
  rw [scorf hl, Real.sqrt_mul (sq_nonneg l), Real.sqrt_mul (sq_nonneg l), Real.sqrt_sq hl.le]
  have e : l * √(d2 ph a b T) < (sPhase l ph).rcut ↔ √(d2 ph a b T) < ph.rcut := mul_lt_mul_iff_right₀ hl
  split_ifs with h1 h2 h2
  · show _ * ph.sratio = _
    ring
  · exact absurd (e.1 h1) h2
  · exact absurd (e.2 h2) h1
  · ring

theorem sdraws (a b : PAtom) (T : ℤ × ℤ × ℤ) : Draws (sData l D) (sPhase l ph) (sAtom l a) (sAtom l b) T ↔ Draws D ph a b T := by
  unfold Draws
  rw [swidth hl F F', sd2 F F', scorf hl, sdd, smsd hl F F', mul_pos_iff_of_pos_left (pow_pos hl 2), mul_ne_zero_iff, and_iff_right hl.ne']

/-- The contribution of a pair is divided by `l`. -/
theorem sfree {R : ℝ} {i j : ℕ} (hi : i < ph.atom.length) (hj : j < ph.atom.length) (A : Apart ph) (A' : Apart (sPhase l ph))
    (amp : ℝ) (T : ℤ × ℤ × ℤ) (ig : ℤ) :
    free (sData l D) (sPhase l ph) (l * R) (sAtom l (ph.atm i)) (sAtom l (ph.atm j)) amp T ig = free D ph R (ph.atm i) (ph.atm j) amp T ig / l := by
  classical
  have hs : 0 < (sPhase l ph).stepcut ↔ 0 < ph.stepcut := mul_pos_iff_of_pos_left hl
  have hst : idx (sData l D) (sPhase l ph).stepcut = idx D ph.stepcut := sidx hl D _
  have h1 := A i j hi hj T
  have h2 := A' i j (by rwa [slen]) (by rwa [slen]) T
  rw [satm hi, satm hj, sd2 F F'] at h2
  have hd : 1 / 100 ≤ l ^ 2 * d2 ph (ph.atm i) (ph.atm j) T ↔ 1 / 100 ≤ d2 ph (ph.atm i) (ph.atm j) T := by
    have hl2 := pow_pos hl 2
    constructor
    · intro h
      rcases h1 with e | e
      · rw [e] at h
        norm_num at h
      · exact e
    · intro h
      rcases h2 with e | e
      · rw [mul_eq_zero] at e
        rcases e with e | e
        · exact absurd e hl2.ne'
        · rw [e] at h
          norm_num at h
      · exact e
  unfold free
  rw [sdist hl F F', sd2 F F', swidth hl F F', sgaus hl, hst,
    show l * √(d2 ph (ph.atm i) (ph.atm j) T) - 5 * (l * width D ph (ph.atm i) (ph.atm j) T) =
      l * (√(d2 ph (ph.atm i) (ph.atm j) T) - 5 * width D ph (ph.atm i) (ph.atm j) T) by ring,
    show l * √(d2 ph (ph.atm i) (ph.atm j) T) + 5 * (l * width D ph (ph.atm i) (ph.atm j) T) =
      l * (√(d2 ph (ph.atm i) (ph.atm j) T) + 5 * width D ph (ph.atm i) (ph.atm j) T) by ring, sidx hl, sidx hl, ite_div, zero_div, mul_div_assoc]
  exact if_congr (by rw [hd, hs, sdraws hl F F', mul_le_mul_iff_right₀ hl]) rfl rfl

end

/-! ## The phase -/

section
variable {ph : PPhase}

omit hl in
theorem snp : (sPhase l ph).np = ph.np := by simp [PPhase.np, sPhase, Function.comp_def, sAtom]

omit hl in
theorem sbavg : (sPhase l ph).bavg = ph.bavg := by
  unfold PPhase.bavg
  rw [snp]
  simp [sPhase, Function.comp_def, sAtom]

omit hl in
theorem sweight {i : ℕ} (hi : i < ph.atom.length) : (sPhase l ph).weight i = ph.weight i := by
  unfold PPhase.weight
  rw [sbavg, satm hi]
  rfl

omit hl in
theorem srho : (sPhase l ph).rho0 = ph.rho0 / l ^ 3 := by
  unfold PPhase.rho0 PPhase.ncv
  rw [snp, svol, div_div]
  congr 1
  show ((ph.icc 0 * ph.icc 1 * ph.icc 2 : ℕ) : ℝ) * (l ^ 3 * vol ph.cell) = (ph.icc 0 * ph.icc 1 * ph.icc 2 : ℕ) * vol ph.cell * l ^ 3
  ring

omit hl in
theorem srtot : rtot (sPhase l ph) = rtot ph := by
  rw [rtot_double, rtot_double, slen]
  refine Finset.sum_congr rfl fun i mi => Finset.sum_congr rfl fun j mj => ?_
  rw [Finset.mem_range] at mi mj
  rw [sweight mi, sweight mj]

omit hl in
theorem sract (s : Sel) : ract (sPhase l ph) s = ract ph s := by
  classical
  rw [ract_double, ract_double, slen]
  refine Finset.sum_congr rfl fun i mi => Finset.sum_congr rfl fun j mj => ?_
  rw [Finset.mem_range] at mi mj
  rw [sweight mi, sweight mj]

theorem senv (D : Data) (r : ℝ) : envelope (sData l D) (sPhase l ph) (l * r) = envelope D ph r := by
  unfold envelope Shape.sphereEnvelope
  have e1 : l * r * (sData l D).qdamp = r * D.qdamp := by
    show l * r * (D.qdamp / l) = _
    field_simp
  have e2 : l * r / (sPhase l ph).spdiameter = r / ph.spdiameter := mul_div_mul_left _ _ hl.ne'
  have c1 : 0 < (sData l D).qdamp ↔ 0 < D.qdamp := div_pos_iff_of_pos_right hl
  have c2 : 0 < (sPhase l ph).spdiameter ↔ 0 < ph.spdiameter := mul_pos_iff_of_pos_left hl
  have c3 : 0 < (sPhase l ph).stepcut ↔ 0 < ph.stepcut := mul_pos_iff_of_pos_left hl
  have c4 : l * r ≤ (sPhase l ph).stepcut ↔ r ≤ ph.stepcut := mul_le_mul_iff_right₀ hl
  simp only [e1, e2, c1, c2, c3, c4]

variable {D : Data} (h : D.Ok) (h0 : 0 ≤ D.rmin) {R : ℝ} (hR : D.rcmax + 1 ≤ R) (hR' : l * D.rcmax + 1 ≤ l * R) (W : Fits D ph R)
  (W' : Fits (sData l D) (sPhase l ph) (l * R))
include h h0 hR hR' W W'

theorem ssum (s : Sel) {ig : ℤ} (h1 : D.ncmin ≤ ig) (h2 : ig ≤ D.ncmax) : pairSum (sData l D) (sPhase l ph) s ig = pairSum D ph s ig / l := by
  rw [pairSum_full W.fine W.near, pairSum_full W'.fine W'.near, slen, Finset.sum_div]
  refine Finset.sum_congr rfl fun i mi => ?_
  rw [Finset.sum_div]
  refine Finset.sum_congr rfl fun j mj => ?_
  rw [Finset.mem_range] at mi mj
  rw [ite_div, zero_div]
  refine if_congr Iff.rfl ?_ rfl
  have mi' : i < (sPhase l ph).atom.length := by rwa [slen]
  have mj' : j < (sPhase l ph).atom.length := by rwa [slen]
  rw [C91.S_reach W.reach mi mj, C91.S_reach W'.reach mi' mj', satm mi, satm mj, sweight mi, sweight mj, div_eq_mul_inv, finsum_mul]
  refine finsum_congr fun T => ?_
  have hc := C92.ok_rcmax h h0
  have hc' : 0 ≤ (sData l D).rcmax := by rw [srcmax hl]; exact mul_nonneg hl.le hc
  have n' := W'.narrow i j mi' mj' T
  rw [satm mi, satm mj] at n'
  rw [term_free h hc hR (W.narrow i j mi mj T) _ h1 h2, term_free (sok hl D h) hc' (by rw [srcmax hl]; exact hR') n' _ (by rwa [sncmin hl])
    (by rwa [sncmax hl]), sfree hl W.fine W'.fine D mi mj W.apart W'.apart, div_eq_mul_inv]
  rfl

theorem scurve (s : Sel) {ig : ℤ} (h1 : D.ncmin ≤ ig) (h2 : ig ≤ D.ncmax) : curve (sData l D) (sPhase l ph) s ig = 1 / l ^ 2 * curve D ph s ig := by
  unfold curve
  rw [ssum hl h h0 hR hR' W W' s h1 h2, snp, sr, srho, sract, srtot, senv hl]
  have e1 : pairSum D ph s ig / l / ph.np / (l * D.r ig) = 1 / l ^ 2 * (pairSum D ph s ig / ph.np / D.r ig) := by
    rw [div_div, div_div, div_div, one_div_mul_eq_div, div_div]
    congr 1
    ring
  have e2 : 4 * Real.pi * (l * D.r ig) * (ph.rho0 / l ^ 3) * (ract ph s / rtot ph) =
      1 / l ^ 2 * (4 * Real.pi * D.r ig * ph.rho0 * (ract ph s / rtot ph)) := by
    have e : l * (1 / l ^ 3) = 1 / l ^ 2 := by field_simp
    linear_combination 4 * Real.pi * D.r ig * ph.rho0 * (ract ph s / rtot ph) * e
  rw [e1, e2]
  ring

end

/-- In a unit smaller by the factor `l` the PDF is divided by `l^2`. -/
theorem C93_units_partial {D : Data} (h : D.Ok) (h0 : 0 ≤ D.rmin) {R : ℝ} (hR : D.rcmax + 1 ≤ R) (hR' : l * D.rcmax + 1 ≤ l * R)
    (psel : List (Option (PPhase × Sel)))
    (hp : ∀ x, some x ∈ psel → Fits D x.1 R ∧ Fits (sData l D) (sPhase l x.1) (l * R)) {f f' : ℤ → ℝ}
    (hf : determine D psel = .ok (some f))
    (hf' : determine (sData l D) (psel.map fun o => o.map fun x => (sPhase l x.1, x.2)) = .ok (some f')) (i : ℤ)
    (h1 : D.nfmin ≤ i) (h2 : i ≤ D.nfmax) : (sData l D).r i = l * D.r i ∧ f' i = f i / l ^ 2 := by
  have e1 := (ncmin_le_nfmin h).trans h1
  have e2 := h2.trans (nfmax_le_ncmax h)
  refine ⟨sr D i, ?_⟩
  rw [(determine_some h hf).2 i e1 e2, (determine_some (sok hl D h) hf').2 i (by rwa [sncmin hl]) (by rwa [sncmax hl])]
  have em : (psel.map fun o => o.map fun x : PPhase × Sel => (sPhase l x.1, x.2)).filterMap id =
      (psel.filterMap id).map fun x => (sPhase l x.1, x.2) := by
    rw [List.filterMap_map, List.map_filterMap]
    rfl
  rw [em, List.map_map, div_eq_mul_inv, ← List.sum_map_mul_right]
  congr 1
  refine List.map_congr_left fun x hx => ?_
  rw [List.mem_filterMap] at hx
  obtain ⟨y, hy, rfl⟩ := hx
  obtain ⟨W, W'⟩ := hp x hy
  have e : filt D (curve (sData l D) (sPhase l x.1) x.2) i = filt D (fun j => 1 / l ^ 2 * curve D x.1 x.2 j) i :=
    filt_congr h (fun j a b => scurve hl h h0 hR hR' W W' x.2 a b) i e1 e2
  show D.dscale * x.1.pscale * filt (sData l D) (curve (sData l D) (sPhase l x.1) x.2) i = _
  rw [sfilt hl, e, filt_smul h]
  ring

end

/-! ## Example -/

section
variable {l : ℝ} (hl : 0 < l)
include hl

omit hl in
theorem cell_fine {c : Cell} (h : ∃ m, lattice c = .ok m) : ∃ m, lattice ⟨fun k => l * c.a0 k, c.win⟩ = .ok m := by
  unfold lattice at h ⊢
  by_cases hv : voll c ≤ eps
  · rw [if_pos hv] at h
    obtain ⟨m, hm⟩ := h
    cases hm
  · exact ⟨_, if_neg hv⟩

/-- The cell in the smaller unit is good if none of its products of edges is dropped as small. -/
theorem sfine {ph : PPhase} (F : C19.Fine ph.toPhs) (hs : C45.NoSmall (fun k => l * ph.cell.a0 k) ph.cell.win) :
    C19.Fine (sPhase l ph).toPhs :=
  ⟨cell_fine F.acc, fun k => mul_pos hl (F.edge k), F.angle, hs, F.icc⟩

variable (u : ℝ)

theorem sfine_iso : C19.Fine (sPhase l (iso u)).toPhs := sfine hl (iso_fine u) (by
  intro i j _
  left
  rw [show ∀ k, (iso u).cell.win k = 90 from iso90 u, C45.cosd90, mul_zero])

theorem snear_iso : Near (sPhase l (iso u)) := near_of _ (sfine_iso hl u) fun i j hi hj k => by
  rw [slen] at hi hj
  have hi : i < 1 := hi
  have hj : j < 1 := hj
  interval_cases i; interval_cases j; fin_cases k <;> norm_num [sPhase, sAtom, iso, PPhase.atm]

theorem sgood_iso {u : ℝ} (hu : 0 ≤ u) {D : Data} (h : D.Ok) (h1 : 0 < D.rmin) (s : Sel) : ¬Bad D (sPhase l (iso u)) s := by
  have ha : ∀ i, (∀ k, 0 ≤ ((sPhase l (iso u)).atm i).u k) ∧ ((sPhase l (iso u)).atm i).u 3 = 0 ∧ ((sPhase l (iso u)).atm i).u 4 = 0 ∧
      ((sPhase l (iso u)).atm i).u 5 = 0 := by
    intro i
    match i with
    | 0 => exact ⟨fun k => by fin_cases k <;> simp [sPhase, sAtom, iso, PPhase.atm] <;> positivity, mul_zero _, mul_zero _, mul_zero _⟩
    | n + 1 => exact ⟨fun k => le_refl (0 : ℝ), rfl, rfl, rfl⟩
  rintro (⟨x, -, h⟩ | h | h | h | h | ⟨i, h2, -, h3⟩)
  · exact event_ne_nan _ _ _ _ _ (ha _) (ha _) (mul_zero l).le h
  · rw [snp, iso_np] at h; norm_num at h
  · have := mul_pos (show (0 : ℝ) < ((sPhase l (iso u)).icc 0 * (sPhase l (iso u)).icc 1 * (sPhase l (iso u)).icc 2 : ℕ) from by
      exact_mod_cast one_pos) (C91.phase_vol_pos (sfine_iso hl u))
    exact this.ne' h
  · rw [sbavg, iso_bavg] at h; norm_num at h
  · rw [srtot, iso_rtot] at h; norm_num at h
  · have h0 := (ncmin_nonneg h).trans h2
    have h0 : (0 : ℝ) ≤ i := by exact_mod_cast h0
    have := h.step
    unfold Data.r at h3
    have : 0 ≤ (i : ℝ) * D.deltar := by positivity
    linarith

end

theorem snarrow_iso {l : ℝ} (hl : 0 < l) (h1 : l ≤ 1) {lo up R' : ℝ} : Narrow (sData l (span isoD lo up)) (sPhase l (iso (1 / 200))) R' := by
  intro i j hi hj T _
  rw [slen] at hi hj
  rw [satm hi, satm hj, swidth hl (iso_fine _) (sfine_iso hl _)]
  have := iso_narrow (R := √(d2 (iso (1 / 200)) ((iso (1 / 200)).atm i) ((iso (1 / 200)).atm j) T)) i j hi hj T le_rfl
  have e : width (span isoD lo up) (iso (1 / 200)) ((iso (1 / 200)).atm i) ((iso (1 / 200)).atm j) T =
    width isoD (iso (1 / 200)) ((iso (1 / 200)).atm i) ((iso (1 / 200)).atm j) T := rfl
  rw [e]
  show 5 * (l * _) + l * isoD.deltar ≤ 1
  nlinarith

theorem sPhase_one (ph : PPhase) : sPhase 1 ph = ph := by
  have e : sAtom 1 = id := by
    funext a
    simp [sAtom]
  unfold sPhase
  rw [e, List.map_id]
  simp

theorem sapart_iso {l : ℝ} (hl : 1 / 30 ≤ l) : Apart (sPhase l (iso (1 / 200))) := by
  have hl0 : 0 < l := by linarith
  intro i j hi hj T
  rw [slen] at hi hj
  rw [satm hi, satm hj, sd2 (iso_fine _) (sfine_iso hl0 _)]
  have hi : i < 1 := hi
  have hj : j < 1 := hj
  interval_cases i
  interval_cases j
  rw [iso_d2]
  by_cases hT : T = 0
  · left
    subst hT
    norm_num
  · right
    have h := norm_pos hT
    have h1 : (1 : ℝ) ≤ (T.1 : ℝ) ^ 2 + (T.2.1 : ℝ) ^ 2 + (T.2.2 : ℝ) ^ 2 := by
      have : (0 : ℝ) < ((T.1 ^ 2 + T.2.1 ^ 2 + T.2.2 ^ 2 : ℤ) : ℝ) := by push_cast; linarith
      have : (1 : ℤ) ≤ T.1 ^ 2 + T.2.1 ^ 2 + T.2.2 ^ 2 := by exact_mod_cast this
      have : ((1 : ℤ) : ℝ) ≤ ((T.1 ^ 2 + T.2.1 ^ 2 + T.2.2 ^ 2 : ℤ) : ℝ) := by exact_mod_cast this
      push_cast at this
      exact this
    have h2 : (1 / 30) ^ 2 ≤ l ^ 2 := pow_le_pow_left₀ (by norm_num) hl 2
    nlinarith

/-- The hypotheses are satisfied: the example of C68 in Å and in nm, range 1-6 Å. -/
example : ∃ f f', determine (span isoD 1 6) [some (iso (1 / 200), C60.noSel)] = .ok (some f) ∧
    determine (sData (1 / 10) (span isoD 1 6)) [some (sPhase (1 / 10) (iso (1 / 200)), C60.noSel)] = .ok (some f') ∧ f' 4 = 100 * f 4 := by
  have hl : (0 : ℝ) < 1 / 10 := by norm_num
  have o := isoD_ok (lo := 1) (hi := 6) le_rfl (by norm_num)
  have r := span_rc (D := isoD) (lo := 1) (hi := 6) le_rfl
  obtain ⟨f, e1, -⟩ := determine_of o (psel := [some (iso (1 / 200), C60.noSel)]) (by
    intro x hx
    simp only [List.mem_singleton, Option.some.injEq] at hx
    subst hx
    exact iso_good (by norm_num) o one_pos _)
  obtain ⟨f', e1', -⟩ := determine_of (sok hl _ o) (psel := [some (sPhase (1 / 10) (iso (1 / 200)), C60.noSel)]) (by
    intro x hx
    simp only [List.mem_singleton, Option.some.injEq] at hx
    subst hx
    exact sgood_iso hl (by norm_num) (sok hl _ o) (mul_pos hl one_pos) _)
  refine ⟨f, f', e1, e1', ?_⟩
  have n : ∀ (x : ℝ) (n : ℤ), x = n → nint x = n := fun x n e => by rw [e, nint_int]
  have k := (C93_units_partial hl o zero_le_one (R := 16) (by rw [r.2]; norm_num) (by rw [r.2]; norm_num)
    [some (iso (1 / 200), C60.noSel)] (by
      intro x hx
      simp only [List.mem_singleton, Option.some.injEq] at hx
      subst hx
      have a : Apart (iso (1 / 200)) := by
        have := sapart_iso (l := 1) (by norm_num)
        rwa [sPhase_one] at this
      exact ⟨⟨iso_fine _, iso_near _, C91.reach_free _ (iso_fine _) (iso_near _) le_rfl, iso_narrow, a⟩,
        ⟨sfine_iso hl _, snear_iso hl _, C91.reach_free _ (sfine_iso hl _) (snear_iso hl _) (mul_zero _).le, snarrow_iso hl (by norm_num),
          sapart_iso (by norm_num)⟩⟩) e1 e1' 4 (by rw [isoD_nf.1, n _ 0 (by norm_num)]; norm_num)
      (by rw [isoD_nf.2, n _ 10 (by norm_num)]; norm_num)).2
  rw [k]
  norm_num
  ring

/-! ## Violation: atoms closer than 0.1 -/

/-- The neighbours at 3 Å contribute at r = 3. -/
theorem iso_three : 0 < pairSum (span isoD 3 3) (iso (1 / 200)) C60.noSel 4 := by
  have o := isoD_ok (lo := 3) (hi := 3) (by norm_num) le_rfl
  have r := span_rc (D := isoD) (lo := 3) (hi := 3) le_rfl
  have hl : 0 < (iso (1 / 200)).atom.length := one_pos
  rw [pairSum_iso]
  have hT : ((1, 0, 0) : ℤ × ℤ × ℤ) ≠ 0 := by decide
  have w := iso_width (1 / 200) (span isoD 3 3) rfl (1, 0, 0)
  rw [if_neg hT] at w
  have e : √(d2 (iso (1 / 200)) ((iso (1 / 200)).atm 0) ((iso (1 / 200)).atm 0) (1, 0, 0)) = 3 := by
    rw [iso_d2, show (9 * (((1 : ℤ) : ℝ) ^ 2 + ((0 : ℤ) : ℝ) ^ 2 + ((0 : ℤ) : ℝ) ^ 2) : ℝ) = 3 ^ 2 by norm_num, Real.sqrt_sq (by norm_num)]
  have hs : 0 < √(2 * (1 / 200) : ℝ) := Real.sqrt_pos.2 (by norm_num)
  have n : ∀ (x : ℝ) (n : ℤ), x = n → nint x = n := fun x n e => by rw [e, nint_int]
  refine lt_of_lt_of_le ?_ (single_le_finsum (1, 0, 0) (C60.term_support _ (iso_fine _) (iso_near _) le_rfl hl hl 1 4)
    fun T => C60.term_nonneg _ _ zero_le_one le_rfl T 4)
  rw [term_char, if_pos]
  · rw [w.2, one_mul]
    unfold gaus
    have := Real.pi_pos
    positivity
  · rw [e, w.2]
    refine ⟨⟨⟨?_, ?_⟩, ?_, ?_, ?_⟩, ?_, ?_⟩
    · unfold Data.rmin2
      rw [r.1, iso_d2]
      norm_num
    · unfold Data.rmax2
      rw [r.2, iso_d2]
      norm_num
    · rw [iso_msd, if_neg hT]; norm_num
    · rw [w.1]; exact one_pos
    · rw [w.2]; exact hs.ne'
    · refine (nint_mono (y := 4) ?_).trans (n 4 4 (by norm_num)).le
      rw [r.1]
      show (max 3 (3 - 5 * √(2 * (1 / 200))) - 1) / (1 / 2) ≤ 4
      rw [max_eq_left (by linarith)]
      norm_num
    · refine (n 4 4 (by norm_num)).ge.trans (nint_mono ?_)
      rw [if_neg (by exact lt_irrefl (0 : ℝ)), r.2]
      show 4 ≤ (min 3 (3 + 5 * √(2 * (1 / 200))) - 1) / (1 / 2)
      rw [min_eq_left (by linarith)]
      norm_num

/-- With the cell edge 0.05 they are left out, and no other atom contributes. -/
theorem small_three : pairSum (sData (1 / 60) (span isoD 3 3)) (sPhase (1 / 60) (iso (1 / 200))) C60.noSel 4 = 0 := by
  have hl : (0 : ℝ) < 1 / 60 := by norm_num
  have F := iso_fine (1 / 200)
  have F' := sfine_iso hl (1 / 200)
  have o := isoD_ok (lo := 3) (hi := 3) (by norm_num) le_rfl
  have len : (sPhase (1 / 60) (iso (1 / 200))).atom.length = 1 := rfl
  rw [pairSum_full F' (snear_iso hl _), len, Finset.sum_range_one, Finset.sum_range_one]
  split
  swap
  · rfl
  rw [C60.S_all _ F' (snear_iso hl _) (mul_zero _).le (by rw [len]; exact one_pos) (by rw [len]; exact one_pos)]
  refine finsum_eq_zero_of_forall_eq_zero fun T => ?_
  have h1 : (0 : ℕ) < (iso (1 / 200)).atom.length := one_pos
  rw [term_char, if_neg]
  rintro ⟨⟨⟨ha, -⟩, -⟩, hb, -⟩
  rw [satm h1, sd2 F F', iso_d2] at ha
  have ha := (le_max_left _ _).trans ha
  have hT : T ≠ 0 := by
    rintro rfl
    norm_num at ha
  rw [satm h1, sdist hl F F', swidth hl F F', (iso_width _ (span isoD 3 3) rfl T).2, if_neg hT] at hb
  have hd : (6 : ℝ) ≤ √(d2 (iso (1 / 200)) ((iso (1 / 200)).atm 0) ((iso (1 / 200)).atm 0) T) := by
    refine Real.le_sqrt_of_sq_le ?_
    rw [iso_d2]
    linarith
  have hw : √(2 * (1 / 200) : ℝ) = 1 / 10 := by
    rw [show (2 * (1 / 200) : ℝ) = (1 / 10) ^ 2 by norm_num, Real.sqrt_sq (by norm_num)]
  rw [hw] at hb
  generalize √(d2 (iso (1 / 200)) ((iso (1 / 200)).atm 0) ((iso (1 / 200)).atm 0) T) = x at *
  have h2 : idx (sData (1 / 60) (span isoD 3 3)) (1 / 60 * (x - 1 / 2)) ≤ 4 := by
    refine le_trans ?_ hb
    refine idx_mono (sok hl _ o) ((le_of_eq ?_).trans (le_max_right _ _))
    ring
  rw [sidx hl] at h2
  have h3 : nint (9 : ℝ) ≤ 4 := (nint_mono (by show (9 : ℝ) ≤ (x - 1 / 2 - 1) / (1 / 2); linarith)).trans h2
  rw [show (9 : ℝ) = ((9 : ℤ) : ℝ) by norm_num, nint_int] at h3
  norm_num at h3

/-- Violation: a cubic crystal with the edge 3 and narrow peaks has a peak at r = 3; in a unit in which the edge is 0.05 the peak is missing. -/
theorem C93_unit_matters : ∃ (D : Data) (ph : PPhase) (s : Sel) (l : ℝ) (f f' : ℤ → ℝ) (i : ℤ), D.Ok ∧ 0 ≤ D.rmin ∧ 0 < l ∧
    determine D [some (ph, s)] = .ok (some f) ∧ determine (sData l D) [some (sPhase l ph, s)] = .ok (some f') ∧
    C19.Fine ph.toPhs ∧ Near ph ∧ C19.Fine (sPhase l ph).toPhs ∧ Near (sPhase l ph) ∧ (∀ R, Narrow D ph R) ∧
    (∀ R, Narrow (sData l D) (sPhase l ph) R) ∧ Apart ph ∧ D.nfmin ≤ i ∧ i ≤ D.nfmax ∧ f' i ≠ f i / l ^ 2 := by
  have hl : (0 : ℝ) < 1 / 60 := by norm_num
  have o := isoD_ok (lo := 3) (hi := 3) (by norm_num) le_rfl
  obtain ⟨f, e1, g1⟩ := determine_of o (psel := [some (iso (1 / 200), C60.noSel)]) (by
    intro x hx
    simp only [List.mem_singleton, Option.some.injEq] at hx
    subst hx
    exact iso_good (by norm_num) o one_pos _)
  obtain ⟨f', e1', g1'⟩ := determine_of (sok hl _ o) (psel := [some (sPhase (1 / 60) (iso (1 / 200)), C60.noSel)]) (by
    intro x hx
    simp only [List.mem_singleton, Option.some.injEq] at hx
    subst hx
    exact sgood_iso hl (by norm_num) (sok hl _ o) (mul_pos hl one_pos) _)
  have n1 : (span isoD 3 3).nfmin = 4 := by rw [isoD_nf.1, show ((3 : ℝ) - 1) * 2 = ((4 : ℤ) : ℝ) by norm_num, nint_int]
  have n2 : (span isoD 3 3).nfmax = 4 := by rw [isoD_nf.2, show ((3 : ℝ) - 1) * 2 = ((4 : ℤ) : ℝ) by norm_num, nint_int]
  have a : Apart (iso (1 / 200)) := by
    have := sapart_iso (l := 1) (by norm_num)
    rwa [sPhase_one] at this
  refine ⟨span isoD 3 3, iso (1 / 200), C60.noSel, 1 / 60, f, f', 4, o, zero_le_one, hl, e1, e1', iso_fine _, iso_near _, sfine_iso hl _,
    snear_iso hl _, fun R => iso_narrow, fun R => snarrow_iso hl (by norm_num), a, n1.le, n2.ge, ?_⟩
  have c1 := (ncmin_le_nfmin o).trans n1.le
  have c2 := n2.ge.trans (nfmax_le_ncmax o)
  have hfi := g1 4 c1 c2
  have hfi' := g1' 4 (by rwa [sncmin hl]) (by rwa [sncmax hl])
  have hq : ∀ c : ℤ → ℝ, filt (span isoD 3 3) c 4 = c 4 := fun c => if_neg (by show ¬(0 : ℝ) < 0; exact lt_irrefl _)
  simp only [List.filterMap_cons, List.filterMap_nil, id, List.map_cons, List.map_nil, List.sum_cons, List.sum_nil, add_zero, sfilt hl, hq] at hfi hfi'
  have hr : (span isoD 3 3).r 4 = 3 := by
    show ((4 : ℤ) : ℝ) * (1 / 2) + 1 = 3
    norm_num
  have he : envelope (span isoD 3 3) (iso (1 / 200)) 3 = 1 := by
    unfold envelope
    rw [if_neg (by show ¬(0 : ℝ) < 0; exact lt_irrefl _), if_neg (by show ¬(0 : ℝ) < 0; exact lt_irrefl _),
      if_neg (by show ¬(0 : ℝ) < 0; exact lt_irrefl _)]
    norm_num
  rw [hfi, hfi']
  unfold curve
  rw [small_three, sr, hr, snp, iso_np, srho, sract, srtot, senv hl, he]
  rw [show (span isoD 3 3).dscale * (iso (1 / 200)).pscale = 2 from one_mul _,
    show (sData (1 / 60) (span isoD 3 3)).dscale * (sPhase (1 / 60) (iso (1 / 200))).pscale = 2 from one_mul _]
  have h := iso_three
  generalize pairSum (span isoD 3 3) (iso (1 / 200)) C60.noSel 4 = x at *
  generalize ract (iso (1 / 200)) C60.noSel / rtot (iso (1 / 200)) = y at *
  generalize (iso (1 / 200)).rho0 = z at *
  generalize Real.pi = p at *
  intro c
  norm_num at c
  have : x = 0 := by linarith
  linarith

end Pdffit.C93
