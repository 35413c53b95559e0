import Verif.Lemmas.CInt
import Verif.Props.C18
import Verif.Props.C42
import Verif.Lemmas.DetDemo
import Mathlib.Analysis.Real.Pi.Bounds

/-!
# C63  The calculation stays inside the range of `int`

All indices of the calculation (grid points, lattice points, frequencies of the termination filter) are of type `int`. `Model/CInt.lean` checks
every conversion.

* `C63_int_partial`: for a grid, a Qmax and cells of explicit sizes (`Fits`, `FitsCell`) no conversion overflows, and the curve is the one with unbounded
  integers (`determine`, C24, C30, C44 and C62 are about it).
* `huge_qmax`, `small_qmax`, `tiny_cell`: the program checks none of these sizes. For every structure a large Qmax and a small positive Qmax are undefined
  behaviour, and so is a cell that is small compared with the range; `witness` are data sets accepted by `alloc`.
* `filter_lost`: with more than `2^30` points `hiQidx` is reduced modulo `2^32` and the termination filter does nothing at all.
-/

namespace Pdffit.C63
open Geom Bonds Det Sphere CInt Parser

/-- Sizes of the grid and of Qmax. -/
structure Fits (D : Data) : Prop where
  len : D.rcmax + 1 - D.rmin ≤ 2 ^ 28 * D.deltar
  low : |D.rmin| ≤ 2 ^ 28 * D.deltar
  freq : 0 < D.qmax → D.qmax * (D.rcmax - D.rcmin + 2 * D.deltar) ≤ 2 ^ 30

/-- Sizes of a phase: the edges of the supercell are between `e` and `E`, the volume of a cell with unit edges is at least `v`. -/
structure FitsCell (D : Data) (ph : PPhase) : Prop where
  sratio : 0 ≤ ph.sratio
  angle : ∀ i, 0 < ph.cell.win i ∧ ph.cell.win i < 180
  size : ∃ e E v : ℝ, 0 < e ∧ 0 < v ∧ v ^ 2 ≤ voll ph.cell ∧ (∀ i, e ≤ ph.cell.a0 i * ph.icc i) ∧
    (∀ i, ph.cell.a0 i * ph.icc i ≤ E) ∧ (∀ i, |ph.cell.a0 i| ≤ E) ∧
    5 * (|D.rcmin| + |D.rcmax| + 3 + 5 * E) ≤ 2 ^ 30 * (v ^ 3 * e)

/-! ## Sequencer -/

set_option maxHeartbeats 1000000 in
theorem small_of {k : Cst} (g : C18.Good k.lat) {e E v R : ℝ} (he : 0 < e) (hv : 0 < v) (hv2 : v ^ 2 ≤ k.lat.vunit ^ 2)
    (a1 : e ≤ k.lat.a) (b1 : e ≤ k.lat.b) (c1 : e ≤ k.lat.c) (a2 : k.lat.a ≤ E) (b2 : k.lat.b ≤ E)
    (h1 : |k.rmin| ≤ R) (h2 : |k.rmax| ≤ R) (hb : 5 * (R + E) ≤ 2 ^ 30 * (v ^ 3 * e)) : Small k := by
  have hV := C18.vunit_pos g
  have hVs := C18.vunit_sq g
  have hvV : v ≤ k.lat.vunit := (pow_le_pow_iff_left₀ hv.le hV.le (by norm_num)).1 hv2
  have sas : k.lat.sa ^ 2 ≤ 1 := by linarith [g.ea, sq_nonneg k.lat.ca]
  have sa1 : k.lat.sa ≤ 1 := (sq_le_one_iff₀ g.sa.le).1 sas
  have sbs : k.lat.sb ^ 2 ≤ 1 := by linarith [g.eb, sq_nonneg k.lat.cb]
  have sb1 : k.lat.sb ≤ 1 := (sq_le_one_iff₀ g.sb.le).1 sbs
  have key : k.lat.vunit ^ 2 = k.lat.sa ^ 2 * k.lat.sb ^ 2 - (k.lat.cg - k.lat.ca * k.lat.cb) ^ 2 := by
    rw [hVs, show k.lat.sa ^ 2 = 1 - k.lat.ca ^ 2 by linarith [g.ea], show k.lat.sb ^ 2 = 1 - k.lat.cb ^ 2 by linarith [g.eb]]
    ring
  have key2 : k.lat.vunit ^ 2 = k.lat.sa ^ 2 * k.lat.sg ^ 2 - (k.lat.cb - k.lat.ca * k.lat.cg) ^ 2 := by
    rw [hVs, show k.lat.sa ^ 2 = 1 - k.lat.ca ^ 2 by linarith [g.ea], show k.lat.sg ^ 2 = 1 - k.lat.cg ^ 2 by linarith [g.eg]]
    ring
  have sgs : k.lat.sg ^ 2 ≤ 1 := by linarith [g.eg, sq_nonneg k.lat.cg]
  have sg1 : k.lat.sg ≤ 1 := (sq_le_one_iff₀ g.sg.le).1 sgs
  have hVsa : k.lat.vunit ≤ k.lat.sa := by
    have : k.lat.vunit ^ 2 ≤ k.lat.sa ^ 2 := by
      have h1 := mul_le_mul_of_nonneg_left sbs (sq_nonneg k.lat.sa)
      have h2 := sq_nonneg (k.lat.cg - k.lat.ca * k.lat.cb)
      linarith
    exact (pow_le_pow_iff_left₀ hV.le g.sa.le (by norm_num)).1 this
  have hvsa : v ≤ k.lat.sa := hvV.trans hVsa
  have hv1 : v ≤ 1 := hvsa.trans sa1
  have q1 : |k.lat.ca * k.lat.cb - k.lat.cg| ≤ 1 := by
    rw [← sq_le_one_iff_abs_le_one]
    have h1 := mul_le_mul sas sbs (sq_nonneg _) zero_le_one
    have h2 := sq_nonneg k.lat.vunit
    have h3 : (k.lat.ca * k.lat.cb - k.lat.cg) ^ 2 = (k.lat.cg - k.lat.ca * k.lat.cb) ^ 2 := by ring
    linarith
  have q2 : |k.lat.ca * k.lat.cg - k.lat.cb| ≤ 1 := by
    rw [← sq_le_one_iff_abs_le_one]
    have h1 := mul_le_mul sas sgs (sq_nonneg _) zero_le_one
    have h2 := sq_nonneg k.lat.vunit
    have h3 : (k.lat.ca * k.lat.cg - k.lat.cb) ^ 2 = (k.lat.cb - k.lat.ca * k.lat.cg) ^ 2 := by ring
    linarith
  have q3 : |k.lat.ca| ≤ 1 := by
    rw [← sq_le_one_iff_abs_le_one]
    linarith [g.ea, sq_nonneg k.lat.sa]
  have hR : 0 ≤ R := (abs_nonneg _).trans h1
  have hE : 0 < E := g.a.trans_le a2
  have hX : 0 < v ^ 3 * e := by positivity
  -- common bound
  obtain ⟨X, hXd⟩ : ∃ X, X = (R + E) / (v ^ 3 * e) := ⟨_, rfl⟩
  have hXle : 5 * X ≤ 2 ^ 30 := by
    rw [hXd, ← mul_div_assoc, div_le_iff₀ hX]; exact hb
  have hX0 : 0 ≤ X := by rw [hXd]; positivity
  have v3 : v ^ 3 ≤ v := pow_le_of_le_one hv.le hv1 (by norm_num)
  have ve : v ^ 3 * e ≤ v * e := mul_le_mul_of_nonneg_right v3 he.le
  have ve1 : v ^ 3 * e ≤ e := mul_le_of_le_one_left he.le (pow_le_one₀ hv.le hv1)
  -- products
  have frac : ∀ {x y : ℝ}, x ≤ R + E → v ^ 3 * e ≤ y → x / y ≤ X := by
    intro x y hx hy
    rw [hXd]
    exact div_le_div₀ (by linarith) hx hX hy
  have pa : |k.rmax * k.lat.ar| ≤ R / (k.lat.a * v) := by
    rw [abs_mul, abs_of_pos (C18.ar_pos g), Lat.ar, ← mul_div_assoc]
    have : |k.rmax| * k.lat.sa ≤ R := (mul_le_of_le_one_right (abs_nonneg _) sa1).trans h2
    exact div_le_div₀ hR this (mul_pos g.a hv) (mul_le_mul_of_nonneg_left hvV g.a.le)
  have pb : |k.rmax * k.b2r| ≤ R / (k.lat.b * v) := by
    rw [abs_mul, abs_of_pos (C18.b2r_pos g), Cst.b2r, mul_one_div]
    exact div_le_div₀ hR h2 (mul_pos g.b hv) (mul_le_mul_of_nonneg_left hvsa g.b.le)
  have pc : |k.rmax * k.c1r| ≤ X := by
    rw [abs_mul, abs_of_pos (C18.c1r_pos g), Cst.c1r, mul_one_div]
    exact frac (by linarith) (ve1.trans c1)
  have pc' : |k.rmin * k.c1r| ≤ X := by
    rw [abs_mul, abs_of_pos (C18.c1r_pos g), Cst.c1r, mul_one_div]
    exact frac (by linarith) (ve1.trans c1)
  have pbX : R / (k.lat.b * v) ≤ X := frac (by linarith) (ve.trans (by rw [mul_comm]; exact mul_le_mul_of_nonneg_right b1 hv.le))
  have paX : R / (k.lat.a * v) ≤ X :=
    frac (by linarith) (ve.trans (by rw [mul_comm]; exact mul_le_mul_of_nonneg_right a1 hv.le))
  have d1 : |k.dn0dm| ≤ k.lat.a / (v ^ 2 * k.lat.b) := by
    have : k.dn0dm = k.lat.a * (k.lat.ca * k.lat.cb - k.lat.cg) / (k.lat.sa ^ 2 * k.lat.b) := by
      unfold Cst.dn0dm Lat.cgr Lat.br Lat.ar
      have := g.sa.ne'; have := g.sb.ne'; have := g.b.ne'; have := g.a.ne'; have := hV.ne'
      field_simp
    rw [this, abs_div, abs_mul, abs_of_pos g.a, abs_of_pos (mul_pos (pow_pos g.sa 2) g.b)]
    refine div_le_div₀ g.a.le (mul_le_of_le_one_right g.a.le (by assumption)) (mul_pos (pow_pos hv 2) g.b) ?_
    exact mul_le_mul_of_nonneg_right (pow_le_pow_left₀ hv.le hvsa 2) g.b.le
  have d2 : |k.do0dm| ≤ k.lat.a / (v ^ 2 * k.lat.c) := by
    have : k.do0dm = k.lat.a * (k.lat.ca * k.lat.cg - k.lat.cb) / (k.lat.sa ^ 2 * k.lat.c) := by
      unfold Cst.do0dm Lat.cbr Lat.cr Lat.ar
      have := g.sa.ne'; have := g.sg.ne'; have := g.c.ne'; have := g.a.ne'; have := hV.ne'
      field_simp
    rw [this, abs_div, abs_mul, abs_of_pos g.a, abs_of_pos (mul_pos (pow_pos g.sa 2) g.c)]
    refine div_le_div₀ g.a.le (mul_le_of_le_one_right g.a.le (by assumption)) (mul_pos (pow_pos hv 2) g.c) ?_
    exact mul_le_mul_of_nonneg_right (pow_le_pow_left₀ hv.le hvsa 2) g.c.le
  have d3 : |k.do0dn| ≤ k.lat.b / k.lat.c := by
    have : k.do0dn = -k.lat.ca * (k.lat.b / k.lat.c) := by
      unfold Cst.do0dn Cst.ca2r Cst.c2r Cst.b2r
      have := g.sa.ne'; have := g.c.ne'; have := g.b.ne'
      field_simp
    rw [this, abs_mul, abs_neg, abs_of_pos (div_pos g.b g.c)]
    exact mul_le_of_le_one_left (div_pos g.b g.c).le q3
  have t : ∀ {d : ℝ}, e ≤ d → (R / (k.lat.a * v) + 1) * (k.lat.a / (v ^ 2 * d)) ≤ X := by
    intro d hd
    have hd0 : 0 < d := he.trans_le hd
    have : (R / (k.lat.a * v) + 1) * (k.lat.a / (v ^ 2 * d)) = (R + k.lat.a * v) / (v ^ 3 * d) := by
      have := g.a.ne'; have := hv.ne'; have := hd0.ne'
      field_simp
    rw [this]
    exact frac (by linarith [mul_le_of_le_one_right g.a.le hv1]) (mul_le_mul_of_nonneg_left hd (pow_pos hv 3).le)
  have t1 : (|k.rmax * k.lat.ar| + 1) * |k.dn0dm| ≤ X :=
    (mul_le_mul (by linarith) d1 (abs_nonneg _) (by have := mul_pos g.a hv; positivity)).trans (t b1)
  have t2 : (|k.rmax * k.lat.ar| + 1) * |k.do0dm| ≤ X :=
    (mul_le_mul (by linarith) d2 (abs_nonneg _) (by have := mul_pos g.a hv; positivity)).trans (t c1)
  have t3 : (|k.rmax * k.b2r| + 1) * |k.do0dn| ≤ X := by
    refine (mul_le_mul (add_le_add_left pb 1) d3 (abs_nonneg _) (by have := mul_pos g.b hv; positivity)).trans ?_
    have : (R / (k.lat.b * v) + 1) * (k.lat.b / k.lat.c) = (R + k.lat.b * v) / (v * k.lat.c) := by
      have := g.b.ne'; have := hv.ne'; have := g.c.ne'
      field_simp
    rw [this]
    exact frac (by linarith [mul_le_of_le_one_right g.b.le hv1]) (ve.trans (mul_le_mul_of_nonneg_left c1 hv.le))
  exact ⟨by linarith, by linarith, by linarith⟩

/-! ## Range of the sequencer -/

theorem gten_le {ph : PPhase} {E : ℝ} (hE : ∀ i, |ph.cell.a0 i| ≤ E) (i j : Fin 3) : |ph.toPhs.gten i j| ≤ E ^ 2 := by
  have h0 : 0 ≤ E := (abs_nonneg _).trans (hE 0)
  have hij : |ph.cell.a0 i * ph.cell.a0 j| ≤ E ^ 2 := by
    rw [abs_mul, sq]
    exact mul_le_mul (hE i) (hE j) (abs_nonneg _) h0
  show |tensor ph.cell.a0 ph.cell.win i j| ≤ _
  unfold tensor
  split
  · split
    · simpa using sq_nonneg E
    · rw [abs_mul]
      have : |bcosd (ph.cell.win (third i j))| ≤ 1 := Real.abs_cos_le_one _
      nlinarith [abs_nonneg (ph.cell.a0 i * ph.cell.a0 j), abs_nonneg (bcosd (ph.cell.win (third i j)))]
  · exact hij

theorem skal_le {ph : PPhase} {E : ℝ} (hE : ∀ i, |ph.cell.a0 i| ≤ E) (u : Fin 3 → ℝ) (hu : ∀ i, |u i| ≤ 1) :
    √(ph.toPhs.skal u u) ≤ 3 * E := by
  have h0 : 0 ≤ E := (abs_nonneg _).trans (hE 0)
  refine Real.sqrt_le_iff.2 ⟨by linarith, ?_⟩
  have : ∀ i j, u i * u j * ph.toPhs.gten i j ≤ E ^ 2 := by
    intro i j
    refine (le_abs_self _).trans ?_
    rw [abs_mul, abs_mul]
    have h1 : |u i| * |u j| ≤ 1 := mul_le_one₀ (hu i) (abs_nonneg _) (hu j)
    nlinarith [gten_le hE i j, abs_nonneg (ph.toPhs.gten i j), mul_nonneg (abs_nonneg (u i)) (abs_nonneg (u j))]
  show skalpro ph.toPhs.gten u u ≤ _
  unfold skalpro
  calc ∑ i, ∑ j, u i * u j * ph.toPhs.gten i j ≤ ∑ _i : Fin 3, ∑ _j : Fin 3, E ^ 2 :=
        Finset.sum_le_sum fun i _ => Finset.sum_le_sum fun j _ => this i j
    _ = (3 * E) ^ 2 := by simp; ring

theorem circum_le {ph : PPhase} {E : ℝ} (hE : ∀ i, |ph.cell.a0 i| ≤ E) :
    0 ≤ circumDiameter ph.toPhs ∧ circumDiameter ph.toPhs ≤ 4 * E + 1 := by
  have h0 : 0 ≤ E := (abs_nonneg _).trans (hE 0)
  unfold circumDiameter
  split
  · exact ⟨le_rfl, by linarith⟩
  · have step : ∀ (l : List (Fin 3 → ℝ)) (x : ℝ), (∀ u ∈ l, ∀ i, |u i| ≤ 1) → x ≤ 3 * E →
        x ≤ l.foldl (fun mx u => if √(ph.toPhs.skal u u) > mx then √(ph.toPhs.skal u u) else mx) x ∧
        l.foldl (fun mx u => if √(ph.toPhs.skal u u) > mx then √(ph.toPhs.skal u u) else mx) x ≤ 3 * E := by
      intro l
      induction l with
      | nil => intro x _ h; exact ⟨le_rfl, h⟩
      | cons u l ih =>
        intro x hl hx
        simp only [List.foldl_cons]
        split
        · rename_i h
          obtain ⟨p, q⟩ := ih _ (fun v hv => hl v (by simp [hv])) (skal_le hE u (hl u (by simp)))
          exact ⟨h.le.trans p, q⟩
        · exact ih _ (fun v hv => hl v (by simp [hv])) hx
    have hd : ∀ u ∈ diagonals, ∀ i, |u i| ≤ 1 := by
      intro u hu i
      simp only [diagonals, List.mem_cons, List.not_mem_nil, or_false] at hu
      rcases hu with rfl | rfl | rfl | rfl <;> fin_cases i <;> simp
    have hfirst : ∃ (x : ℝ) (l : List (Fin 3 → ℝ)), 0 ≤ x ∧ x ≤ 3 * E ∧ (∀ u ∈ l, ∀ i, |u i| ≤ 1) ∧
        diagonals.foldl (fun mx u => if √(ph.toPhs.skal u u) > mx then √(ph.toPhs.skal u u) else mx) (-1) =
        l.foldl (fun mx u => if √(ph.toPhs.skal u u) > mx then √(ph.toPhs.skal u u) else mx) x := by
      refine ⟨√(ph.toPhs.skal ![1, 1, 1] ![1, 1, 1]), [![-1, 1, 1], ![1, -1, 1], ![1, 1, -1]], Real.sqrt_nonneg _,
        skal_le hE _ (hd _ (by simp [diagonals])), fun u hu => hd u (by simp only [diagonals, List.mem_cons] at *; tauto), ?_⟩
      rw [diagonals, List.foldl_cons, if_pos (by have := Real.sqrt_nonneg (ph.toPhs.skal ![1, 1, 1] ![1, 1, 1]); linarith)]
    obtain ⟨x, l, hx0, hx, hl, e⟩ := hfirst
    obtain ⟨p, q⟩ := step l x hl hx
    rw [e]
    have he : (0 : ℝ) < eps ∧ eps ≤ 1 / 3 := by unfold eps; constructor <;> norm_num
    constructor
    · have := mul_nonneg (hx0.trans p) (show (0 : ℝ) ≤ 1 + eps by linarith [he.1])
      linarith [he.1]
    · have h0' := hx0.trans p
      nlinarith [he.1, he.2]

theorem small_sphere {D : Data} {ph : PPhase} (F : FitsCell D ph) : Small (sphere D ph) := by
  obtain ⟨e, E, v, he, hv, hvol, h1, h2, h3, hb⟩ := F.size
  have hc := circum_le h3
  have pos : ∀ i, 0 < ph.cell.a0 i * ph.icc i := fun i => he.trans_le (h1 i)
  have hvu : v ^ 2 ≤ (sphere D ph).lat.vunit ^ 2 := by
    have e1 : (sphere D ph).lat.vunit = √(voll ph.cell) := by
      show √_ = √_
      congr 1
      simp only [sphere, Lat.of, voll, bcosd, rad]
      ring_nf
    rw [e1, Real.sq_sqrt ((sq_nonneg v).trans hvol)]
    exact hvol
  have g : C18.Good (sphere D ph).lat := by
    refine C18.good_of _ _ _ _ _ _ (pos 0) (pos 1) (pos 2) (F.angle 0) (F.angle 1) (F.angle 2) ?_
    have : 0 < voll ph.cell := lt_of_lt_of_le (by positivity) hvol
    refine this.trans_le (le_of_eq ?_)
    simp only [voll, bcosd, rad]
    ring_nf
  have hm : √D.rmax2 ≤ |D.rcmax| + 1 := by
    unfold Data.rmax2
    rw [Real.sqrt_sq_eq_abs]
    exact (abs_add_le _ _).trans (by simp)
  have hn : √D.rmin2 ≤ |D.rcmin| + 1 := by
    refine Real.sqrt_le_iff.2 ⟨by positivity, ?_⟩
    unfold Data.rmin2
    refine max_le ?_ ?_
    · nlinarith [abs_nonneg D.rcmin]
    · have hle : (D.rcmin - 1) ^ 2 ≤ (|D.rcmin| + 1) ^ 2 := by
        rw [sq_le_sq, abs_of_nonneg (by positivity : 0 ≤ |D.rcmin| + 1)]
        exact (abs_sub _ _).trans (by simp)
      split
      · nlinarith [sq_nonneg (D.rcmin - 1)]
      · linarith
  refine small_of (R := |D.rcmin| + |D.rcmax| + 3 + 4 * E) (E := E) g he hv hvu (h1 0) (h1 1) (h1 2) (h2 0) (h2 1) ?_ ?_ (by linarith)
  · show |√D.rmin2 - circumDiameter ph.toPhs| ≤ _
    have := Real.sqrt_nonneg D.rmin2
    rw [abs_le]
    constructor <;> linarith [abs_nonneg D.rcmin, abs_nonneg D.rcmax]
  · have := Real.sqrt_nonneg D.rmax2
    show |if 0 < ph.stepcut then _ else _| ≤ _
    split
    · rename_i hs
      rw [abs_of_nonneg (le_min (by linarith) (by linarith))]
      exact (min_le_left _ _).trans (by linarith [abs_nonneg D.rcmin])
    · rw [abs_of_nonneg (by linarith)]
      linarith [abs_nonneg D.rcmin]

/-! ## Grid -/

theorem nint_bd {x : ℝ} {B : ℤ} (h1 : -(B : ℝ) ≤ x) (h2 : x ≤ B) : -B ≤ nint x ∧ nint x ≤ B := by
  have a := nint_mono h1
  have b := nint_mono h2
  rw [nint_int] at b
  rw [show (-(B : ℝ)) = ((-B : ℤ) : ℝ) by push_cast; rfl, nint_int] at a
  exact ⟨a, b⟩

theorem nintC_ok {x : ℝ} (h1 : -2 ^ 30 ≤ x) (h2 : x ≤ 2 ^ 30) : nintC x = .ok (nint x) := by
  have := nint_bd (B := 2 ^ 30) (x := x) (by rw [c30]; exact h1) (by rw [c30]; exact h2)
  unfold nintC check
  rw [if_pos (inInt_of (by omega) (by omega))]

section
variable {D : Data} (h : D.Ok) (F : Fits D)
include h F

theorem idx_bd {x : ℝ} (h1 : D.rmin ≤ x) (h2 : x ≤ D.rcmax) : 0 ≤ (x - D.rmin) / D.deltar ∧ (x - D.rmin) / D.deltar ≤ 2 ^ 28 := by
  have hs := h.step
  refine ⟨div_nonneg (by linarith) hs.le, ?_⟩
  rw [div_le_iff₀ hs]
  linarith [F.len]

theorem ncmax_le : D.ncmax ≤ 2 ^ 28 := by
  have hr : D.rmin ≤ D.rcmax := h.lo.trans (h.hi.trans rcmax_ge)
  exact (nint_bd (B := 2 ^ 28) (by have := (idx_bd h F hr le_rfl).1; push_cast; linarith)
    (by have := (idx_bd h F hr le_rfl).2; norm_num at *; linarith)).2

theorem ranges_ok : ranges D = .ok (D.nfmin, D.nfmax, D.ncmin, D.ncmax) := by
  have e : ∀ {x : ℝ}, D.rmin ≤ x → x ≤ D.rcmax → nintC ((x - D.rmin) / D.deltar) = .ok (nint ((x - D.rmin) / D.deltar)) := by
    intro x h1 h2
    have := idx_bd h F h1 h2
    exact nintC_ok (by linarith [this.1]) (by linarith [this.2])
  have b := ncmax_le h F
  have b0 := (ncmin_nonneg h).trans (ncmin_le_ncmax h)
  have hc : check (D.ncmax + 1) = .ok (D.ncmax + 1) := by
    unfold check
    rw [if_pos (inInt_of (by omega) (by omega))]
  have r1 := rcmin_ge h
  have r2 := rcmin_le h
  have r3 := h.hi
  have r4 := rcmax_ge (D := D)
  have r5 := h.lo
  unfold ranges
  rw [e r5 (by linarith), Res.bind_ok, e (by linarith) r4, Res.bind_ok, Res.bind_ok, Res.bind_ok]
  by_cases hq : 0 < D.qmax
  · rw [if_pos hq, e r1 (by linarith), Res.bind_ok, e (by linarith) le_rfl, Res.bind_ok]
    show check (D.ncmax + 1) >>= _ = _
    rw [hc]
    rfl
  · have q1 : D.rcmax = D.rfmax := by unfold Data.rcmax; rw [if_neg hq]
    have q2 : D.rcmin = D.rfmin := by unfold Data.rcmin; rw [if_neg hq]
    have m1 : D.ncmax = D.nfmax := by unfold Data.ncmax Data.nfmax; rw [q1]
    have m2 : D.ncmin = D.nfmin := by unfold Data.ncmin Data.nfmin; rw [q2]
    rw [if_neg hq]
    show check (D.nfmax + 1) >>= _ = _
    rw [← m1, hc, m2, m1]
    rfl

theorem incsC_ok {ph : PPhase} (hs : 0 ≤ ph.sratio) (a b : PAtom) (T : ℤ × ℤ × ℤ) (i j : ℕ) :
    incsC D ph i j (event D ph a b T) = .ok (incs D ph i j (event D ph a b T)) := by
  have hd := h.step
  have hr : D.rmin ≤ D.rcmax := h.lo.trans (h.hi.trans rcmax_ge)
  have hlow := F.low
  have hlen := F.len
  rw [abs_le] at hlow
  obtain ⟨l1, l2⟩ := hlow
  cases hev : event D ph a b T with
  | skip => rfl
  | nan => rfl
  | peak dist sig =>
    have hb : 0 ≤ dist ∧ dist ≤ |D.rcmax + 1| ∧ 0 ≤ sig := by
      simp only [event] at hev
      split at hev
      · cases hev
      · rename_i hd2
        split at hev
        · cases hev
        · split at hev
          · cases hev
          · split at hev
            · cases hev
            · split at hev
              · cases hev
              · cases hev
                push Not at hd2
                refine ⟨Real.sqrt_nonneg _, ?_, ?_⟩
                · rw [← Real.sqrt_sq_eq_abs]
                  exact Real.sqrt_le_sqrt hd2.2
                · unfold sigma
                  split <;> positivity
    obtain ⟨d0, d1, s0⟩ := hb
    have d2 : dist - D.rmin ≤ 2 ^ 29 * D.deltar := by
      rcases abs_cases (D.rcmax + 1) with ⟨q, _⟩ | ⟨q, _⟩ <;> rw [q] at d1 <;> norm_num at * <;> linarith
    have hm := rcmin_ge h
    have hmm : D.rcmin ≤ D.rcmax := (rcmin_le h).trans (h.hi.trans rcmax_ge)
    have e1 : nintC ((max D.rcmin (dist - 5 * sig) - D.rmin) / D.deltar) = .ok (ib D dist sig) := by
      refine nintC_ok ?_ ?_
      · have : 0 ≤ (max D.rcmin (dist - 5 * sig) - D.rmin) / D.deltar :=
          div_nonneg (by linarith [le_max_left D.rcmin (dist - 5 * sig)]) hd.le
        linarith
      · rw [div_le_iff₀ hd]
        rcases max_cases D.rcmin (dist - 5 * sig) with ⟨q, _⟩ | ⟨q, _⟩ <;> rw [q] <;> norm_num at * <;> linarith
    have e2 : nintC (((if 0 < ph.stepcut then min (min D.rcmax (dist + 5 * sig)) ph.stepcut else min D.rcmax (dist + 5 * sig)) -
        D.rmin) / D.deltar) = .ok (ie D ph dist sig) := by
      have lo : min D.rcmax 0 ≤ (if 0 < ph.stepcut then min (min D.rcmax (dist + 5 * sig)) ph.stepcut else min D.rcmax (dist + 5 * sig)) := by
        have : min D.rcmax 0 ≤ min D.rcmax (dist + 5 * sig) := min_le_min le_rfl (by linarith)
        split
        · rename_i hp
          exact le_min this ((min_le_right _ _).trans hp.le)
        · exact this
      have up : (if 0 < ph.stepcut then min (min D.rcmax (dist + 5 * sig)) ph.stepcut else min D.rcmax (dist + 5 * sig)) ≤ D.rcmax := by
        split
        · exact (min_le_left _ _).trans (min_le_left _ _)
        · exact min_le_left _ _
      refine nintC_ok ?_ ?_
      · rw [le_div_iff₀ hd]
        rcases min_cases D.rcmax 0 with ⟨q, _⟩ | ⟨q, _⟩ <;> rw [q] at lo <;> norm_num at * <;> linarith
      · rw [div_le_iff₀ hd]
        norm_num at *
        linarith
    have hie := ie_le h ph dist sig
    have hn := ncmax_le h F
    have hib := ib_ge h dist sig
    have hn0 := ncmin_nonneg h
    show (nintC _ >>= _) = _
    rw [e1, Res.bind_ok, e2, Res.bind_ok, if_neg]
    · rfl
    · rintro ⟨hbe, hi⟩
      exact hi (inInt_of (by omega) (by omega))

theorem pppC_ok {ph : PPhase} (C : FitsCell D ph) (s : Sel) : pppC D ph s = ppp D ph s := by
  unfold pppC
  rw [DMat.collect_ok _ (fun x => (points (sphere D ph)).map fun T => (x, T)) _ fun x _ => by
    rw [pointsC_eq (small_sphere C), Res.bind_ok], Res.bind_ok]
  rw [DMat.collect_ok _ (fun x => incs D ph x.1.1 x.1.2 (eventOf D ph x)) _ fun x _ =>
    show incsC D ph x.1.1 x.1.2 (eventOf D ph x) = _ from incsC_ok h F C.sratio _ _ _ _ _, Res.bind_ok]
  rfl

theorem totalC_ok {psel : List (Option (PPhase × Sel))} (C : ∀ x, some x ∈ psel → FitsCell D x.1) : totalC D psel = total D psel := by
  induction psel with
  | nil => rfl
  | cons a l ih =>
    have ih := ih fun x hx => C x (by simp [hx])
    cases a with
    | none => simpa [totalC, total] using ih
    | some x =>
      rw [totalC, total, ih]
      congr 1
      unfold phaseCalcC phaseCalc
      rw [pppC_ok h F (C x (by simp))]

omit F in
theorem nclen_le : (nclen D : ℝ) * D.deltar ≤ D.rcmax - D.rcmin + 2 * D.deltar := by
  have hd := h.step
  have h0 := ncmin_le_ncmax h
  have e : (nclen D : ℝ) = D.ncmax - D.ncmin + 1 := by
    have : (nclen D : ℤ) = D.ncmax - D.ncmin + 1 := by unfold nclen; omega
    exact_mod_cast this
  have hr : D.rmin ≤ D.rcmax := h.lo.trans (h.hi.trans rcmax_ge)
  have a : (D.ncmax : ℝ) ≤ (D.rcmax - D.rmin) / D.deltar + 1 / 2 := by
    unfold Data.ncmax nint
    rw [if_pos (div_nonneg (by linarith) hd.le)]
    exact Int.floor_le _
  have b : (D.rcmin - D.rmin) / D.deltar - 1 / 2 < (D.ncmin : ℝ) := by
    unfold Data.ncmin nint
    rw [if_pos (div_nonneg (by linarith [rcmin_ge h]) hd.le)]
    have := Int.lt_floor_add_one ((D.rcmin - D.rmin) / D.deltar + 1 / 2)
    linarith
  rw [e]
  have c : (D.rcmax - D.rmin) / D.deltar - (D.rcmin - D.rmin) / D.deltar = (D.rcmax - D.rcmin) / D.deltar := by
    rw [← sub_div]; congr 1; ring
  have : (D.ncmax : ℝ) - D.ncmin + 1 ≤ (D.rcmax - D.rcmin) / D.deltar + 2 := by linarith
  calc ((D.ncmax : ℝ) - D.ncmin + 1) * D.deltar ≤ ((D.rcmax - D.rcmin) / D.deltar + 2) * D.deltar :=
        mul_le_mul_of_nonneg_right this hd.le
    _ = _ := by field_simp

omit h F in
theorem padlen_lt {len : ℕ} (hl : 0 < len) : Qmax.padlen len < 4 * len := by
  unfold Qmax.padlen
  have h1 : 1 < 2 * len := by omega
  have := Nat.pow_pred_clog_lt_self (b := 2) (by norm_num) h1
  obtain ⟨c, hc⟩ := Nat.exists_eq_succ_of_ne_zero (Nat.clog_pos (b := 2) (by norm_num) h1).ne'
  rw [hc] at this ⊢
  simp only [Nat.pred_succ, Nat.succ_eq_add_one, pow_succ] at *
  omega

theorem limits_ok (hq : 0 < D.qmax) : limits D.deltar D.qmax (nclen D) =
    .ok (Qmax.loQ D.deltar D.qmax (nclen D), Qmax.hiQ D.deltar D.qmax (nclen D)) := by
  have hd := h.step
  have hl := nclen_pos h
  have hp := padlen_lt hl
  have lo0 := C42.lo_pos hd hq hl
  have hlen : nclen D ≤ 2 ^ 28 + 1 := by
    have := ncmax_le h F
    have := ncmin_nonneg h
    unfold nclen
    omega
  have lo1 : Qmax.loQ D.deltar D.qmax (nclen D) ≤ 2 ^ 30 := by
    unfold Qmax.loQ
    rw [Int.ceil_le, c30, div_le_iff₀ (C42.dQ_pos hd hl)]
    obtain ⟨m, hm, hm0, -⟩ := C42.padlen_even _ hl
    have h2 : (2 : ℝ) ≤ Qmax.padlen (nclen D) := by exact_mod_cast (by omega : 2 ≤ Qmax.padlen (nclen D))
    have hden : 0 < ((Qmax.padlen (nclen D) : ℝ) - 1) * D.deltar := mul_pos (by linarith) hd
    unfold Qmax.dQ
    rw [← mul_div_assoc, le_div_iff₀ hden]
    have h4 : (Qmax.padlen (nclen D) : ℝ) ≤ 4 * nclen D := by exact_mod_cast hp.le
    have hn := nclen_le h
    have hf := F.freq hq
    have hpi := Real.pi_gt_three
    have : ((Qmax.padlen (nclen D) : ℝ) - 1) * D.deltar ≤ 4 * (D.rcmax - D.rcmin + 2 * D.deltar) := by nlinarith
    nlinarith
  unfold limits
  rw [show ⌈D.qmax / Qmax.dQ D.deltar (nclen D)⌉ = Qmax.loQ D.deltar D.qmax (nclen D) from rfl]
  unfold check
  rw [if_pos (inInt_of (by omega) (by omega)), Res.bind_ok]
  congr 2
  unfold hiQC Qmax.hiQ
  rw [Int.bmod_eq_of_le] <;> norm_num at * <;> omega

/-- (partial) With the stated sizes nothing overflows and the curve is that of unbounded integers. -/
theorem C63_int_partial {psel : List (Option (PPhase × Sel))} (C : ∀ x, some x ∈ psel → FitsCell D x.1) :
    determineC D psel = determine D psel := by
  unfold determineC determine
  rw [ranges_ok h F, Res.bind_ok, totalC_ok h F C]
  congr 1
  funext t
  by_cases hq : 0 < D.qmax
  · rw [if_pos hq, if_pos hq]
    cases t with
    | none =>
      dsimp only
      rw [limits_ok h F hq]
      rfl
    | some t =>
      dsimp only
      unfold applyC
      rw [limits_ok h F hq, Res.bind_ok]
      unfold Qmax.applyQmaxCutoff Qmax.filtered
      dsimp only
      cases Qmax.zeroed (Qmax.padlen (nclen D)) (Qmax.loQ D.deltar D.qmax (nclen D)) (Qmax.hiQ D.deltar D.qmax (nclen D))
        (Qmax.dft (Qmax.padlen (nclen D)) (Qmax.pad (nclen D) fun n => t (D.ncmin + n))) <;> rfl
  · rw [if_neg hq, if_neg hq]

end

/-! ## Sizes that are not checked -/

/-- A Qmax that is large compared with the step in Q: the conversion of `qmax/dQ` to `int` overflows, whatever the structures are. -/
theorem huge_qmax {D : Data} (h : D.Ok) (hq : 0 < D.qmax) (hb : 2 ^ 32 * Real.pi ≤ D.qmax * (D.rfmax - D.rfmin))
    (psel : List (Option (PPhase × Sel))) : ∀ r, determineC D psel ≠ .ok r := by
  have hd := h.step
  have hl := nclen_pos h
  have hlo : 2 ^ 31 ≤ ⌈D.qmax / Qmax.dQ D.deltar (nclen D)⌉ := by
    have h0 := ncmin_le_ncmax h
    have e : (nclen D : ℝ) = D.ncmax - D.ncmin + 1 := by
      have : (nclen D : ℤ) = D.ncmax - D.ncmin + 1 := by unfold nclen; omega
      exact_mod_cast this
    have hr : D.rmin ≤ D.rcmax := h.lo.trans (h.hi.trans rcmax_ge)
    have a : (D.rcmax - D.rmin) / D.deltar - 1 / 2 < (D.ncmax : ℝ) := by
      unfold Data.ncmax nint
      rw [if_pos (div_nonneg (by linarith) hd.le)]
      have := Int.lt_floor_add_one ((D.rcmax - D.rmin) / D.deltar + 1 / 2)
      linarith
    have b : (D.ncmin : ℝ) ≤ (D.rcmin - D.rmin) / D.deltar + 1 / 2 := by
      unfold Data.ncmin nint
      rw [if_pos (div_nonneg (by linarith [rcmin_ge h]) hd.le)]
      exact Int.floor_le _
    have c : (D.rcmax - D.rmin) / D.deltar - (D.rcmin - D.rmin) / D.deltar = (D.rcmax - D.rcmin) / D.deltar := by
      rw [← sub_div]; congr 1; ring
    have d : (D.rfmax - D.rfmin) / D.deltar ≤ nclen D := by
      refine (div_le_div_of_nonneg_right (by linarith [rcmin_le h, rcmax_ge (D := D)] : D.rfmax - D.rfmin ≤ D.rcmax - D.rcmin) hd.le).trans ?_
      linarith
    rw [div_le_iff₀ hd] at d
    obtain ⟨m, hm, hm0, hml⟩ := C42.padlen_even _ hl
    have hp : (nclen D : ℝ) ≤ (Qmax.padlen (nclen D) : ℝ) - 1 := by
      have : (nclen D : ℝ) + 1 ≤ Qmax.padlen (nclen D) := by exact_mod_cast (by omega : nclen D + 1 ≤ Qmax.padlen (nclen D))
      linarith
    have hden : 0 < ((Qmax.padlen (nclen D) : ℝ) - 1) * D.deltar :=
      mul_pos (lt_of_lt_of_le (by exact_mod_cast hl) hp) hd
    have hQ : (2 : ℝ) ^ 31 ≤ D.qmax / Qmax.dQ D.deltar (nclen D) := by
      rw [le_div_iff₀ (C42.dQ_pos hd hl)]
      unfold Qmax.dQ
      rw [← mul_div_assoc, div_le_iff₀ hden]
      have h1 : D.rfmax - D.rfmin ≤ ((Qmax.padlen (nclen D) : ℝ) - 1) * D.deltar := d.trans (mul_le_mul_of_nonneg_right hp hd.le)
      have h2 := mul_le_mul_of_nonneg_left h1 hq.le
      linarith
    have hQ' : (((2 ^ 31 : ℤ)) : ℝ) ≤ D.qmax / Qmax.dQ D.deltar (nclen D) := by push_cast; norm_num at *; exact hQ
    exact Int.cast_le.1 (hQ'.trans (Int.le_ceil _))
  have hub : limits D.deltar D.qmax (nclen D) = .ub := by
    unfold limits check
    rw [if_neg]
    · rfl
    · intro hi
      unfold InInt at hi
      omega
  intro r hr
  unfold determineC at hr
  rw [Res.bind_eq_ok] at hr
  obtain ⟨x, -, hr⟩ := hr
  rw [Res.bind_eq_ok] at hr
  obtain ⟨t, -, hr⟩ := hr
  rw [if_pos hq] at hr
  cases t with
  | none =>
    dsimp only at hr
    rw [hub] at hr
    cases hr
  | some t =>
    dsimp only at hr
    unfold applyC at hr
    rw [hub] at hr
    cases hr

/-- A Qmax that is small compared with the step in r: the extended range has too many points. -/
theorem small_qmax {D : Data} (h : D.Ok) (hq : 0 < D.qmax) (hb : 2 ^ 31 * (D.deltar * D.qmax) ≤ 12 * Real.pi)
    (psel : List (Option (PPhase × Sel))) : ∀ r, determineC D psel ≠ .ok r := by
  have hd := h.step
  have hn : ∀ r, nintC ((D.rcmax - D.rmin) / D.deltar) ≠ .ok r := by
    intro r hr
    have : (((2 ^ 31 : ℤ)) : ℝ) ≤ (D.rcmax - D.rmin) / D.deltar := by
      rw [le_div_iff₀ hd]
      unfold Data.rcmax
      rw [if_pos hq]
      have : (2 : ℝ) ^ 31 * D.deltar ≤ 6 * 2 * Real.pi / D.qmax := by
        rw [le_div_iff₀ hq]; linarith
      push_cast
      norm_num at *
      linarith [h.lo, h.hi]
    have := nint_mono this
    rw [nint_int] at this
    unfold nintC check at hr
    split at hr
    · rename_i hi
      unfold InInt at hi
      omega
    · cases hr
  intro r hr
  unfold determineC at hr
  rw [Res.bind_eq_ok] at hr
  obtain ⟨x, hx, -⟩ := hr
  unfold ranges at hx
  simp only [Res.bind_eq_ok, if_pos hq] at hx
  obtain ⟨_, -, _, -, _, -, _, -, _, -, _, h6, -⟩ := hx
  exact hn _ h6

/-- More lattice planes in the sphere than an `int` can count. -/
theorem tiny_cell {D : Data} {ph : PPhase} {s : Sel} (hh : 2 ^ 31 ≤ (sphere D ph).hiM)
    (hp : ∃ x ∈ halfPairs ph.atom.length, skip s x.1 x.2 = false) (l : List (Option (PPhase × Sel))) :
    ∀ r, determineC D (some (ph, s) :: l) ≠ .ok r := by
  have hpt : pointsC (sphere D ph) = .ub := by
    unfold pointsC
    rw [if_neg]
    rintro ⟨hi, -⟩
    unfold InInt at hi
    omega
  have hppp : ∀ r, pppC D ph s ≠ .ok r := by
    intro r hr
    unfold pppC at hr
    rw [Res.bind_eq_ok] at hr
    obtain ⟨v, hv, -⟩ := hr
    obtain ⟨x, hx, hs⟩ := hp
    have hmem : x ∈ (halfPairs ph.atom.length).filter fun x => !skip s x.1 x.2 := by
      rw [List.mem_filter]; exact ⟨hx, by simp [hs]⟩
    cases hL : (halfPairs ph.atom.length).filter fun x => !skip s x.1 x.2 with
    | nil => rw [hL] at hmem; simp at hmem
    | cons y L =>
      rw [hL, DMat.collect, hpt] at hv
      cases hv
  intro r hr
  unfold determineC at hr
  rw [Res.bind_eq_ok] at hr
  obtain ⟨x, -, hr⟩ := hr
  rw [Res.bind_eq_ok] at hr
  obtain ⟨t, ht, -⟩ := hr
  unfold totalC phaseCalcC at ht
  simp only [Res.bind_eq_ok] at ht
  obtain ⟨c, ⟨p, h1, -⟩, -⟩ := ht
  exact hppp _ h1

/-- A data set as made by `alloc` (pdf.cc 36-104). -/
noncomputable def alloc (qmax qdamp rmin rmax : ℝ) (bin : ℕ) : Data := ⟨rmin, (rmax - rmin) / (bin - 1), rmin, rmax, qmax, qdamp, 0, 1⟩

/-- Neither `alloc(.., 1e10, 0, 1, 10, 901)` nor `alloc(.., 1e-9, 0, 1, 10, 901)` can be calculated. -/
theorem witness (psel : List (Option (PPhase × Sel))) :
    (∀ r, determineC (alloc (10 ^ 10) 0 1 10 901) psel ≠ .ok r) ∧ (∀ r, determineC (alloc (1 / 10 ^ 9) 0 1 10 901) psel ≠ .ok r) := by
  have ok : ∀ q, (alloc q 0 1 10 901).Ok := fun q => ⟨by norm_num [alloc], by norm_num [alloc], by norm_num [alloc]⟩
  constructor
  · refine huge_qmax (ok _) (by norm_num [alloc]) ?_ _
    have := Real.pi_lt_four
    norm_num [alloc]
    linarith
  · refine small_qmax (ok _) (by norm_num [alloc]) ?_ _
    have := Real.pi_gt_three
    norm_num [alloc]
    linarith

/-- With more than `2^30` points `padlen` is `2^32`; `hiQidx` is `1 - loQidx` and no frequency is removed. -/
theorem filter_lost {deltar qmax : ℝ} (hd : 0 < deltar) (hq : 0 < qmax) {len : ℕ} (h1 : 2 ^ 30 < len) (h2 : len ≤ 2 ^ 31)
    (hi : InInt ⌈qmax / Qmax.dQ deltar len⌉) (y : ℕ → ℝ) : applyC deltar qmax len y = .ok y := by
  have hl : 0 < len := by omega
  have hp : Qmax.padlen len = 2 ^ 32 := by
    unfold Qmax.padlen
    congr 1
    refine le_antisymm ((Nat.clog_le_iff_le_pow (by norm_num)).2 (by omega)) ?_
    have : 31 < Nat.clog 2 (2 * len) := (Nat.lt_clog_iff_pow_lt (by norm_num)).2 (by omega)
    omega
  have lo0 : 0 < ⌈qmax / Qmax.dQ deltar len⌉ := C42.lo_pos hd hq hl
  unfold applyC limits check
  rw [if_pos hi, Res.bind_ok, Res.bind_ok]
  have hh : hiQC (Qmax.padlen len) ⌈qmax / Qmax.dQ deltar len⌉ = 1 - ⌈qmax / Qmax.dQ deltar len⌉ := by
    unfold InInt at hi
    unfold hiQC
    rw [hp, show (((2 ^ 32 : ℕ) : ℤ) + 1 - ⌈qmax / Qmax.dQ deltar len⌉) = (1 - ⌈qmax / Qmax.dQ deltar len⌉) + ((2 ^ 32 : ℕ) : ℤ) by ring,
      Int.add_bmod_right, Int.bmod_eq_of_le]
    · show -((4294967296 : ℤ) / 2) ≤ _; omega
    · show _ < ((4294967296 : ℤ) + 1) / 2; omega
  dsimp only
  rw [hh]
  unfold Qmax.zeroed
  rw [if_pos (Or.inl (by omega))]
  dsimp only
  congr 1
  funext n
  split
  · rename_i hn
    have e : (fun k : ℕ => if ⌈qmax / Qmax.dQ deltar len⌉ ≤ (k : ℤ) ∧ (k : ℤ) < 1 - ⌈qmax / Qmax.dQ deltar len⌉ then (0 : ℂ)
        else Qmax.dft (Qmax.padlen len) (Qmax.pad len y) k) = Qmax.dft (Qmax.padlen len) (Qmax.pad len y) := by
      funext k
      rw [if_neg]
      omega
    rw [e, Qmax.idft_dft _ (by rw [hp]; omega)]
    simp [Qmax.pad, hn]
  · rfl

/-! ## Example -/

theorem demo_fits : Fits (demoD 20) ∧ FitsCell (demoD 20) demo := by
  have hpi := Real.pi_lt_four
  have hpi0 := Real.pi_pos
  have r1 : (demoD 20).rcmax = 3 + 6 * 2 * Real.pi / 20 := by
    unfold Data.rcmax; rw [if_pos (by norm_num [demoD])]; rfl
  have r2 : (demoD 20).rcmin = 1 := by
    unfold Data.rcmin; rw [if_pos (by norm_num [demoD])]
    show max (1 : ℝ) (1 - 6 * 2 * Real.pi / 20) = 1
    rw [max_eq_left]; linarith
  have w : ∀ i, demo.cell.win i = 90 := fun i => by fin_cases i <;> rfl
  have a : ∀ i, demo.cell.a0 i = 3 := fun i => by fin_cases i <;> rfl
  have ic : ∀ i, demo.icc i = 1 := fun i => by fin_cases i <;> rfl
  constructor
  · refine ⟨?_, ?_, fun _ => ?_⟩
    · rw [r1]; show _ - (1 : ℝ) ≤ 2 ^ 28 * (1 / 2); norm_num; linarith
    · show |(1 : ℝ)| ≤ 2 ^ 28 * (1 / 2); norm_num
    · rw [r1, r2]; show (20 : ℝ) * (_ + 2 * (1 / 2)) ≤ _; norm_num; linarith
  · refine ⟨by norm_num [demo], fun i => by rw [w]; norm_num, 3, 3, 1, by norm_num, by norm_num, ?_, fun i => ?_, fun i => ?_, fun i => ?_, ?_⟩
    · have hc : bcosd 90 = 0 := by
        unfold bcosd rad
        rw [show Real.pi / 180 * 90 = Real.pi / 2 by ring, Real.cos_pi_div_two]
      simp [voll, w, hc]
    · rw [a, ic]; norm_num
    · rw [a, ic]; norm_num
    · rw [a]; norm_num
    · rw [r1, r2, abs_of_pos (by positivity : (0 : ℝ) < 3 + 6 * 2 * Real.pi / 20)]; norm_num; linarith

example : ∃ f : ℤ → ℝ, determineC (demoD 20) [some (demo, ⟨fun _ => false, fun _ => false⟩)] = .ok (some f) := by
  rw [C63_int_partial (demoD_ok 20) demo_fits.1 fun x hx => by
    simp only [List.mem_singleton, Option.some.injEq] at hx
    subst hx
    exact demo_fits.2]
  obtain ⟨f, hf, -⟩ := determine_of (demoD_ok 20) (psel := [some (demo, ⟨fun _ => false, fun _ => false⟩)]) (by
    intro x hx
    simp only [List.mem_singleton, Option.some.injEq] at hx
    subst hx
    exact demo_good _ _)
  exact ⟨f, hf⟩

/-- The structure of `demo` with an edge of `1e-10`. -/
noncomputable def tiny : PPhase := { demo with cell := ⟨![1 / 10 ^ 10, 3, 3], ![90, 90, 90]⟩ }

example : ∀ r, determineC (demoD 20) [some (tiny, ⟨fun _ => false, fun _ => false⟩)] ≠ .ok r := by
  have hs : Real.sin (Real.pi / 180 * 90) = 1 := by rw [show Real.pi / 180 * 90 = Real.pi / 2 by ring, Real.sin_pi_div_two]
  have hc : Real.cos (Real.pi / 180 * 90) = 0 := by rw [show Real.pi / 180 * 90 = Real.pi / 2 by ring, Real.cos_pi_div_two]
  refine tiny_cell ?_ ⟨(0, 1), by rw [show tiny.atom.length = 2 from rfl]; decide +kernel, rfl⟩ []
  have ar : (sphere (demoD 20) tiny).lat.ar = 10 ^ 10 := by
    unfold Lat.ar Lat.vunit
    simp [sphere, Lat.of, tiny, demo, rad, hs, hc]
  have rm : 1 ≤ (sphere (demoD 20) tiny).rmax := by
    show (1 : ℝ) ≤ if 0 < tiny.stepcut then _ else _
    rw [if_neg (by norm_num [tiny, demo])]
    have h1 := (circum_le (ph := tiny) (E := 3) fun i => by fin_cases i <;> norm_num [tiny]).1
    have h2 : 1 ≤ √(demoD 20).rmax2 := by
      rw [Real.one_le_sqrt]
      unfold Data.rmax2
      have : (3 : ℝ) ≤ (demoD 20).rcmax := rcmax_ge (D := demoD 20)
      nlinarith
    linarith
  have : (((2 ^ 31 : ℤ)) : ℝ) ≤ (sphere (demoD 20) tiny).rmax * (sphere (demoD 20) tiny).lat.ar := by
    rw [ar]; norm_num; linarith
  exact Int.cast_le.1 (this.trans (Int.le_ceil _))

example (y : ℕ → ℝ) : applyC 1 1 (2 ^ 30 + 1) y = .ok y := by
  refine filter_lost (by norm_num) (by norm_num) (by norm_num) (by norm_num) ?_ y
  have hp : Qmax.padlen (2 ^ 30 + 1) = 2 ^ 32 := by
    unfold Qmax.padlen
    congr 1
  have hpi := Real.pi_gt_three
  have hl := Int.ceil_nonneg (div_nonneg zero_le_one (C42.dQ_pos one_pos (by norm_num : 0 < 2 ^ 30 + 1)).le)
  have : ⌈(1 : ℝ) / Qmax.dQ 1 (2 ^ 30 + 1)⌉ ≤ 2 ^ 30 := by
    rw [Int.ceil_le, div_le_iff₀ (C42.dQ_pos one_pos (by norm_num))]
    unfold Qmax.dQ
    rw [hp, ← mul_div_assoc, le_div_iff₀ (by norm_num)]
    norm_num
    linarith
  exact inInt_of (by omega) (by omega)

end Pdffit.C63
