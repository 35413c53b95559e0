import Verif.Model.CellErr
import Mathlib.Analysis.SpecialFunctions.Sqrt
import Mathlib.Analysis.SpecialFunctions.Trigonometric.Deriv
import Mathlib.Analysis.SpecialFunctions.Trigonometric.InverseDeriv
import Mathlib.Analysis.Calculus.Deriv.Inv

/-!
# C55: standard deviations of derived quantities cover the first-order changes

The cell and the positions change along a line within their standard deviations; the derivative of a derived quantity along
this line is at most its reported deviation.
-/

namespace Pdffit.C55
open Geom Bonds Parser CellErr

/-- The cell after a change `t * δ`. -/
def along (c δ : Cell) (t : ℝ) : Cell := ⟨fun i => c.a0 i + t * δ.a0 i, fun i => c.win i + t * δ.win i⟩

/-- The change is within the deviations. -/
structure Within (δ d : Cell) : Prop where
  a0 : ∀ i, |δ.a0 i| ≤ d.a0 i
  win : ∀ i, |δ.win i| ≤ d.win i

/-- The reported deviation `dev` covers the first-order change of the quantity `q`. -/
def Covers (q : ℝ → ℝ) (dev : ℝ) : Prop := ∃ q', HasDerivAt q q' 0 ∧ |q'| ≤ dev

theorem rad_pos : 0 < rad := by unfold rad; positivity

theorem lin_deriv (a b : ℝ) : HasDerivAt (fun t : ℝ => a + t * b) b 0 := by
  simpa using ((hasDerivAt_id (0 : ℝ)).mul_const b).const_add a

theorem cos_deriv (w b : ℝ) : HasDerivAt (fun t : ℝ => bcosd (w + t * b)) (-(bsind w * rad * b)) 0 := by
  unfold bcosd bsind
  have h := ((lin_deriv w b).const_mul rad).cos
  simp only [zero_mul, add_zero] at h
  convert h using 1
  ring

theorem sin_deriv (w b : ℝ) : HasDerivAt (fun t : ℝ => bsind (w + t * b)) (bcosd w * rad * b) 0 := by
  unfold bcosd bsind
  have h := ((lin_deriv w b).const_mul rad).sin
  simp only [zero_mul, add_zero] at h
  convert h using 1
  ring

section
variable {c δ d : Cell} (hw : Within δ d)
include hw

theorem dcos_bound (i : Fin 3) : |-(bsind (c.win i) * rad * δ.win i)| ≤ dcos c d i := by
  unfold dcos
  rw [abs_neg, abs_mul, abs_mul _ (d.win i)]
  have : |δ.win i| ≤ |d.win i| := (hw.win i).trans (le_abs_self _)
  gcongr

theorem voll_covers : Covers (fun t => voll (along c δ t)) (dvoll c d) := by
  have h0 := cos_deriv (c.win 0) (δ.win 0)
  have h1 := cos_deriv (c.win 1) (δ.win 1)
  have h2 := cos_deriv (c.win 2) (δ.win 2)
  refine ⟨_, ((((h0.pow 2).const_sub 1).sub (h1.pow 2)).sub (h2.pow 2)).add (((h0.const_mul 2).mul h1).mul h2), ?_⟩
  have b0 := dcos_bound (c := c) hw 0
  have b1 := dcos_bound (c := c) hw 1
  have b2 := dcos_bound (c := c) hw 2
  simp only [Pi.mul_apply, along, zero_mul, add_zero]
  unfold dvoll
  generalize -(bsind (c.win 0) * rad * δ.win 0) = e0 at *
  generalize -(bsind (c.win 1) * rad * δ.win 1) = e1 at *
  generalize -(bsind (c.win 2) * rad * δ.win 2) = e2 at *
  generalize dcos c d 0 = f0 at *
  generalize dcos c d 1 = f1 at *
  generalize dcos c d 2 = f2 at *
  unfold abscos
  generalize bcosd (c.win 0) = x at *
  generalize bcosd (c.win 1) = y at *
  generalize bcosd (c.win 2) = z at *
  have e : -(((2 : ℕ) : ℝ) * x ^ (2 - 1) * e0) - ((2 : ℕ) : ℝ) * y ^ (2 - 1) * e1 - ((2 : ℕ) : ℝ) * z ^ (2 - 1) * e2 +
      ((2 * e0 * y + 2 * x * e1) * z + 2 * x * y * e2) =
      2 * (-(x * e0) + -(y * e1) + -(z * e2) + e0 * y * z + x * e1 * z + x * y * e2) := by push_cast; ring
  rw [e, abs_mul, abs_two]
  refine mul_le_mul_of_nonneg_left ?_ two_pos.le
  refine (abs_add_le _ _).trans (add_le_add ((abs_add_le _ _).trans (add_le_add ((abs_add_le _ _).trans (add_le_add
    ((abs_add_le _ _).trans (add_le_add ((abs_add_le _ _).trans (add_le_add ?_ ?_)) ?_)) ?_)) ?_)) ?_) <;>
  · simp only [abs_neg, abs_mul]
    gcongr

/-- Cell volume. -/
theorem volume (hv : 0 < voll c) (ha : ∀ i, 0 < c.a0 i) : Covers (fun t => vol (along c δ t)) (dv c d) := by
  obtain ⟨v', h1, h2⟩ := voll_covers (c := c) hw
  have he : voll (along c δ 0) = voll c := by simp [along]
  have hs := h1.sqrt (by rw [he]; exact hv.ne')
  refine ⟨_, ((hs.mul (lin_deriv (c.a0 0) (δ.a0 0))).mul (lin_deriv (c.a0 1) (δ.a0 1))).mul (lin_deriv (c.a0 2) (δ.a0 2)), ?_⟩
  have hp : 0 < √(voll c) := Real.sqrt_pos.2 hv
  have p0 := ha 0
  have p1 := ha 1
  have p2 := ha 2
  have b0 := hw.a0 0
  have b1 := hw.a0 1
  have b2 := hw.a0 2
  simp only [Pi.mul_apply, he]
  simp only [along, zero_mul, add_zero]
  unfold dv
  generalize √(voll c) = s at *
  have e : ((v' / (2 * s) * c.a0 0 + s * δ.a0 0) * c.a0 1 + s * c.a0 0 * δ.a0 1) * c.a0 2 + s * c.a0 0 * c.a0 1 * δ.a0 2 =
      1 / 2 / s * v' * c.a0 0 * c.a0 1 * c.a0 2 +
      s * (δ.a0 0 * c.a0 1 * c.a0 2 + c.a0 0 * δ.a0 1 * c.a0 2 + c.a0 0 * c.a0 1 * δ.a0 2) := by
    field_simp
    ring
  rw [e, show (0.5 : ℝ) = 1 / 2 by norm_num]
  refine (abs_add_le _ _).trans (add_le_add ?_ ?_)
  · rw [abs_mul, abs_mul, abs_mul, abs_mul, abs_of_pos p0, abs_of_pos p1, abs_of_pos p2, abs_of_pos (by positivity : 0 < 1 / 2 / s)]
    gcongr
  · rw [abs_mul, abs_of_pos hp]
    gcongr
    refine (abs_add_le _ _).trans (add_le_add ((abs_add_le _ _).trans (add_le_add ?_ ?_)) ?_) <;>
    · simp only [abs_mul, abs_of_pos p0, abs_of_pos p1, abs_of_pos p2]
      gcongr

theorem vol_pos (hv : 0 < voll c) (ha : ∀ i, 0 < c.a0 i) : 0 < vol c := by
  unfold vol
  have := ha 0
  have := ha 1
  have := ha 2
  have := Real.sqrt_pos.2 hv
  positivity

/-- Volume of the reciprocal cell. -/
theorem reciprocal_volume (hv : 0 < voll c) (ha : ∀ i, 0 < c.a0 i) : Covers (fun t => vr (along c δ t)) (dvr c d) := by
  obtain ⟨v', h1, h2⟩ := volume hw hv ha
  have hp := vol_pos hw hv ha
  have he : vol (along c δ 0) = vol c := by simp [along]
  have h := h1.inv (by rw [he]; exact hp.ne')
  refine ⟨_, h.congr_of_eventuallyEq (Filter.Eventually.of_forall fun t => ?_), ?_⟩
  · unfold vr
    simp
  · rw [he]
    unfold dvr
    rw [neg_div, abs_neg, abs_div, abs_of_pos (by positivity : 0 < vol c ^ 2), div_eq_mul_one_div, mul_comm, sq]
    gcongr

/-- Diagonal of the metric tensor. -/
theorem metric_diagonal (ha : ∀ i, 0 < c.a0 i) (i : Fin 3) :
    Covers (fun t => (along c δ t).a0 i * (along c δ t).a0 i) (dtensor c.a0 c.win d.a0 d.win i i) := by
  refine ⟨_, (lin_deriv (c.a0 i) (δ.a0 i)).mul (lin_deriv (c.a0 i) (δ.a0 i)), ?_⟩
  have p := ha i
  have b := hw.a0 i
  have b' := (abs_nonneg _).trans b
  simp only [along, zero_mul, add_zero]
  unfold dtensor
  rw [if_neg (by simp)]
  refine (abs_add_le _ _).trans (add_le_add ?_ ?_) <;>
  · simp only [abs_mul, abs_of_pos p]
    gcongr

/-- (partial) Off-diagonal elements of the metric tensor between edges at an angle of at most 90 degrees. Values below `eps` are reported as
zero. Missing: obtuse angles (`metric_obtuse`). -/
theorem metric_offdiagonal_partial (ha : ∀ i, 0 < c.a0 i) (i j : Fin 3) (hij : i ≠ j) (hc : 0 ≤ bcosd (c.win (third i j)))
    (hs : 0 ≤ bsind (c.win (third i j))) :
    Covers (fun t => (along c δ t).a0 i * (along c δ t).a0 j * bcosd ((along c δ t).win (third i j)))
      (max (dtensor c.a0 c.win d.a0 d.win i j) eps) := by
  refine ⟨_, ((lin_deriv (c.a0 i) (δ.a0 i)).mul (lin_deriv (c.a0 j) (δ.a0 j))).mul
    (cos_deriv (c.win (third i j)) (δ.win (third i j))), ?_⟩
  have p := ha i
  have q := ha j
  have b := hw.a0 i
  have b' := hw.a0 j
  have b'' := hw.win (third i j)
  have hr := rad_pos
  simp only [Pi.mul_apply, along, zero_mul, add_zero]
  have key : |(δ.a0 i * c.a0 j + c.a0 i * δ.a0 j) * bcosd (c.win (third i j)) +
      c.a0 i * c.a0 j * -(bsind (c.win (third i j)) * rad * δ.win (third i j))| ≤
      d.a0 i * c.a0 j * bcosd (c.win (third i j)) + c.a0 i * d.a0 j * bcosd (c.win (third i j)) +
        c.a0 i * c.a0 j * bsind (c.win (third i j)) * rad * d.win (third i j) := by
    rw [add_mul, mul_neg]
    refine (abs_add_le _ _).trans (add_le_add ((abs_add_le _ _).trans (add_le_add ?_ ?_)) ?_)
    · rw [abs_mul, abs_mul, abs_of_pos q, abs_of_nonneg hc]
      gcongr
    · rw [abs_mul, abs_mul, abs_of_pos p, abs_of_nonneg hc]
      gcongr
    · rw [abs_neg, abs_mul, abs_mul, abs_mul, abs_mul, abs_of_pos p, abs_of_pos q, abs_of_nonneg hs, abs_of_pos hr]
      have : c.a0 i * c.a0 j * (bsind (c.win (third i j)) * rad * |δ.win (third i j)|) =
          c.a0 i * c.a0 j * bsind (c.win (third i j)) * rad * |δ.win (third i j)| := by ring
      rw [this]
      gcongr
  refine key.trans ?_
  unfold dtensor
  rw [if_pos hij]
  dsimp only
  split
  · rename_i h
    exact h.le.trans (le_max_right _ _)
  · exact le_max_left _ _

omit hw in
theorem voll_cyc (c : Cell) (i : Fin 3) : voll c = 1 - bcosd (c.win i) ^ 2 - bcosd (c.win (i + 1)) ^ 2 - bcosd (c.win (i + 2)) ^ 2 +
    2 * bcosd (c.win i) * bcosd (c.win (i + 1)) * bcosd (c.win (i + 2)) := by
  unfold voll
  fin_cases i
  · rfl
  · show _ = 1 - bcosd (c.win 1) ^ 2 - bcosd (c.win 2) ^ 2 - bcosd (c.win 0) ^ 2 + 2 * bcosd (c.win 1) * bcosd (c.win 2) * bcosd (c.win 0)
    ring
  · show _ = 1 - bcosd (c.win 2) ^ 2 - bcosd (c.win 0) ^ 2 - bcosd (c.win 1) ^ 2 + 2 * bcosd (c.win 2) * bcosd (c.win 0) * bcosd (c.win 1)
    ring

theorem win_nonneg (i : Fin 3) : 0 ≤ d.win i := (abs_nonneg _).trans (hw.win i)
theorem a0_nonneg (i : Fin 3) : 0 ≤ d.a0 i := (abs_nonneg _).trans (hw.a0 i)

/-- Cosines of reciprocal angles are inside `-1..1`. -/
theorem recArg_sq (hv : 0 < voll c) (i : Fin 3) (h1 : 0 < bsind (c.win (i + 1))) (h2 : 0 < bsind (c.win (i + 2))) :
    recArg c i * recArg c i < 1 := by
  have t1 : bsind (c.win (i + 1)) ^ 2 + bcosd (c.win (i + 1)) ^ 2 = 1 := Real.sin_sq_add_cos_sq _
  have t2 : bsind (c.win (i + 2)) ^ 2 + bcosd (c.win (i + 2)) ^ 2 = 1 := Real.sin_sq_add_cos_sq _
  have e := voll_cyc c i
  unfold recArg
  rw [← sq, div_pow, div_lt_one (by positivity)]
  rw [e] at hv
  nlinarith

/-- (partial) Reciprocal angles, if the cosines of the two other angles and of the reciprocal angle are not negative. Missing: other
cells (`reciprocal_angle_negative`). -/
theorem reciprocal_angle_partial (hv : 0 < voll c) (i : Fin 3) (h0 : 0 < bsind (c.win i)) (h1 : 0 < bsind (c.win (i + 1)))
    (h2 : 0 < bsind (c.win (i + 2))) (c1 : 0 ≤ bcosd (c.win (i + 1))) (c2 : 0 ≤ bcosd (c.win (i + 2))) (hr : 0 ≤ recArg c i) :
    Covers (fun t => bacosd (recArg (along c δ t) i)) (dwrez c d i) := by
  have hsq := recArg_sq hw hv i h1 h2
  have dc0 := cos_deriv (c.win i) (δ.win i)
  have dc1 := cos_deriv (c.win (i + 1)) (δ.win (i + 1))
  have dc2 := cos_deriv (c.win (i + 2)) (δ.win (i + 2))
  have ds1 := sin_deriv (c.win (i + 1)) (δ.win (i + 1))
  have ds2 := sin_deriv (c.win (i + 2)) (δ.win (i + 2))
  have hd := ((dc1.mul dc2).sub dc0).div (ds1.mul ds2) (by simpa using ⟨h1.ne', h2.ne'⟩)
  have hrec : recArg (along c δ 0) i = recArg c i := by simp [along]
  have hlt : recArg c i < 1 := by nlinarith
  have hgt : -1 < recArg c i := by linarith
  have hd' : HasDerivAt (fun t => recArg (along c δ t) i) _ 0 := hd
  have hac := (Real.hasDerivAt_arccos (x := recArg (along c δ 0) i) (by rw [hrec]; exact hgt.ne') (by rw [hrec]; exact hlt.ne)).comp (0 : ℝ) hd'
  refine ⟨_, hac.div_const rad, ?_⟩
  have hp : 0 < √(1 - recArg c i ^ 2) := Real.sqrt_pos.2 (by rw [sq]; linarith)
  have hrp := rad_pos
  rw [hrec]
  unfold dwrez
  rw [abs_div, abs_of_pos hrp, abs_mul, abs_neg, abs_of_pos (by positivity : 0 < 1 / √(1 - recArg c i ^ 2)), ← sq (recArg c i)]
  gcongr
  simp only [Pi.mul_apply, Pi.sub_apply, zero_mul, add_zero]
  unfold darg
  have w0 := hw.win i
  have w1 := hw.win (i + 1)
  have w2 := hw.win (i + 2)
  have er : recArg c i = (bcosd (c.win (i + 1)) * bcosd (c.win (i + 2)) - bcosd (c.win i)) / (bsind (c.win (i + 1)) * bsind (c.win (i + 2))) := rfl
  generalize recArg c i = r at *
  generalize bsind (c.win i) = s0 at *
  generalize bsind (c.win (i + 1)) = s1 at *
  generalize bsind (c.win (i + 2)) = s2 at *
  generalize bcosd (c.win i) = k0 at *
  generalize bcosd (c.win (i + 1)) = k1 at *
  generalize bcosd (c.win (i + 2)) = k2 at *
  generalize δ.win i = x0 at *
  generalize δ.win (i + 1) = x1 at *
  generalize δ.win (i + 2) = x2 at *
  generalize d.win i = d0 at *
  generalize d.win (i + 1) = d1 at *
  generalize d.win (i + 2) = d2 at *
  have e : (((-(s1 * rad * x1) * k2 + k1 * -(s2 * rad * x2) - -(s0 * rad * x0)) * (s1 * s2) -
      (k1 * k2 - k0) * (k1 * rad * x1 * s2 + s1 * (k2 * rad * x2))) / (s1 * s2) ^ 2) =
      -(s1 * rad * k2 / (s1 * s2) + r / s1 * (k1 * rad)) * x1 + -(k1 * (s2 * rad) / (s1 * s2) + r / s2 * (k2 * rad)) * x2 +
        s0 * rad / (s1 * s2) * x0 := by
    rw [er]
    field_simp
    ring
  rw [e]
  have e' : (s1 * rad * d1 * k2 + k1 * (s2 * rad * d2) + s0 * rad * d0) / (s1 * s2) + r / s1 * (k1 * rad * d1) + r / s2 * (k2 * rad * d2) =
      (s1 * rad * k2 / (s1 * s2) + r / s1 * (k1 * rad)) * d1 + (k1 * (s2 * rad) / (s1 * s2) + r / s2 * (k2 * rad)) * d2 +
        s0 * rad / (s1 * s2) * d0 := by ring
  rw [e']
  refine (abs_add_le _ _).trans (add_le_add ((abs_add_le _ _).trans (add_le_add ?_ ?_)) ?_)
  · rw [abs_mul, abs_neg, abs_of_nonneg (by positivity)]
    gcongr
  · rw [abs_mul, abs_neg, abs_of_nonneg (by positivity)]
    gcongr
  · rw [abs_mul, abs_of_nonneg (by positivity)]
    gcongr

omit hw in
theorem vol_cyc (c : Cell) (i : Fin 3) : vol c = √(voll c) * c.a0 i * c.a0 (i + 1) * c.a0 (i + 2) := by
  unfold vol
  fin_cases i
  · rfl
  · show _ = √(voll c) * c.a0 1 * c.a0 2 * c.a0 0
    ring
  · show _ = √(voll c) * c.a0 2 * c.a0 0 * c.a0 1
    ring

omit hw in
theorem dvoll_cyc (c d : Cell) (i : Fin 3) : dvoll c d = 2 * (abscos c i * dcos c d i + abscos c (i + 1) * dcos c d (i + 1) +
    abscos c (i + 2) * dcos c d (i + 2) + dcos c d i * abscos c (i + 1) * abscos c (i + 2) +
    abscos c i * dcos c d (i + 1) * abscos c (i + 2) + abscos c i * abscos c (i + 1) * dcos c d (i + 2)) := by
  unfold dvoll
  fin_cases i
  · rfl
  · show _ = 2 * (abscos c 1 * dcos c d 1 + abscos c 2 * dcos c d 2 + abscos c 0 * dcos c d 0 + dcos c d 1 * abscos c 2 * abscos c 0 +
      abscos c 1 * dcos c d 2 * abscos c 0 + abscos c 1 * abscos c 2 * dcos c d 0)
    ring
  · show _ = 2 * (abscos c 2 * dcos c d 2 + abscos c 0 * dcos c d 0 + abscos c 1 * dcos c d 1 + dcos c d 2 * abscos c 0 * abscos c 1 +
      abscos c 2 * dcos c d 0 * abscos c 1 + abscos c 2 * abscos c 0 * dcos c d 1)
    ring

omit hw in
theorem dv_cyc (c d : Cell) (i : Fin 3) : dv c d = 0.5 / √(voll c) * dvoll c d * c.a0 i * c.a0 (i + 1) * c.a0 (i + 2) +
    √(voll c) * (d.a0 i * c.a0 (i + 1) * c.a0 (i + 2) + c.a0 i * d.a0 (i + 1) * c.a0 (i + 2) + c.a0 i * c.a0 (i + 1) * d.a0 (i + 2)) := by
  unfold dv
  fin_cases i
  · rfl
  · show _ = 0.5 / √(voll c) * dvoll c d * c.a0 1 * c.a0 2 * c.a0 0 +
      √(voll c) * (d.a0 1 * c.a0 2 * c.a0 0 + c.a0 1 * d.a0 2 * c.a0 0 + c.a0 1 * c.a0 2 * d.a0 0)
    ring
  · show _ = 0.5 / √(voll c) * dvoll c d * c.a0 2 * c.a0 0 * c.a0 1 +
      √(voll c) * (d.a0 2 * c.a0 0 * c.a0 1 + c.a0 2 * d.a0 0 * c.a0 1 + c.a0 2 * c.a0 0 * d.a0 1)
    ring

/-- Reciprocal edges, for all angles. -/
theorem reciprocal_edge (hv : 0 < voll c) (ha : ∀ i, 0 < c.a0 i) (hs : ∀ i, 0 < bsind (c.win i)) (i : Fin 3) :
    Covers (fun t => recEdge (along c δ t) i) (dar c d i) := by
  have dc0 := cos_deriv (c.win i) (δ.win i)
  have dc1 := cos_deriv (c.win (i + 1)) (δ.win (i + 1))
  have dc2 := cos_deriv (c.win (i + 2)) (δ.win (i + 2))
  have ds0 := sin_deriv (c.win i) (δ.win i)
  have da0 := lin_deriv (c.a0 i) (δ.a0 i)
  have da1 := lin_deriv (c.a0 (i + 1)) (δ.a0 (i + 1))
  have da2 := lin_deriv (c.a0 (i + 2)) (δ.a0 (i + 2))
  have hvol := ((((dc0.pow 2).const_sub 1).sub (dc1.pow 2)).sub (dc2.pow 2)).add (((dc0.const_mul 2).mul dc1).mul dc2)
  have hvol' : HasDerivAt (fun t => voll (along c δ t)) _ 0 :=
    hvol.congr_of_eventuallyEq (Filter.Eventually.of_forall fun t => voll_cyc (along c δ t) i)
  have he : voll (along c δ 0) = voll c := by simp [along]
  have hs' := hvol'.sqrt (by rw [he]; exact hv.ne')
  have hV := ((hs'.mul da0).mul da1).mul da2
  have hV' : HasDerivAt (fun t => vol (along c δ t)) _ 0 :=
    hV.congr_of_eventuallyEq (Filter.Eventually.of_forall fun t => vol_cyc (along c δ t) i)
  have hvp := vol_pos hw hv ha
  have hv0 : vol (along c δ 0) = vol c := by simp [along]
  have hE := ((da1.mul da2).mul ds0).div hV' (by rw [hv0]; exact hvp.ne')
  refine ⟨_, hE, ?_⟩
  have p0 := ha i
  have p1 := ha (i + 1)
  have p2 := ha (i + 2)
  have q0 := hs i
  have q1 := hs (i + 1)
  have q2 := hs (i + 2)
  have b0 := hw.a0 i
  have b1 := hw.a0 (i + 1)
  have b2 := hw.a0 (i + 2)
  have w0 := hw.win i
  have w1 := hw.win (i + 1)
  have w2 := hw.win (i + 2)
  have hr := rad_pos
  have hvs := voll_cyc c i
  have tr : bsind (c.win i) ^ 2 + bcosd (c.win i) ^ 2 = 1 := Real.sin_sq_add_cos_sq _
  have sr : √(voll c) ^ 2 = voll c := Real.sq_sqrt hv.le
  have sp := Real.sqrt_pos.2 hv
  simp only [Pi.mul_apply, Pi.sub_apply, Pi.pow_apply, Pi.add_apply, hv0, he]
  simp only [along, zero_mul, add_zero]
  unfold dar
  rw [dv_cyc c d i, dvoll_cyc c d i, vol_cyc c i]
  unfold dcos abscos
  rw [abs_mul (bsind (c.win i) * rad), abs_mul (bsind (c.win i)), abs_of_pos q0, abs_of_pos hr,
    abs_mul (bsind (c.win (i + 1)) * rad), abs_mul (bsind (c.win (i + 1))), abs_of_pos q1, abs_of_pos hr,
    abs_mul (bsind (c.win (i + 2)) * rad), abs_mul (bsind (c.win (i + 2))), abs_of_pos q2, abs_of_pos hr,
    abs_of_nonneg (win_nonneg hw i), abs_of_nonneg (win_nonneg hw (i + 1)), abs_of_nonneg (win_nonneg hw (i + 2))]
  generalize √(voll c) = r at *
  generalize voll c = V at *
  generalize bsind (c.win i) = s0 at *
  generalize bsind (c.win (i + 1)) = s1 at *
  generalize bsind (c.win (i + 2)) = s2 at *
  generalize bcosd (c.win i) = k0 at *
  generalize bcosd (c.win (i + 1)) = k1 at *
  generalize bcosd (c.win (i + 2)) = k2 at *
  generalize δ.win i = x0 at *
  generalize δ.win (i + 1) = x1 at *
  generalize δ.win (i + 2) = x2 at *
  generalize d.win i = d0 at *
  generalize d.win (i + 1) = d1 at *
  generalize d.win (i + 2) = d2 at *
  generalize δ.a0 i = y0 at *
  generalize δ.a0 (i + 1) = y1 at *
  generalize δ.a0 (i + 2) = y2 at *
  generalize d.a0 i = g0 at *
  generalize d.a0 (i + 1) = g1 at *
  generalize d.a0 (i + 2) = g2 at *
  generalize c.a0 i = a at *
  generalize c.a0 (i + 1) = b at *
  generalize c.a0 (i + 2) = f at *
  have hS : V ≤ s0 ^ 2 := by nlinarith [sq_nonneg (k1 - k0 * k2), mul_nonneg (sq_nonneg s0) (sq_nonneg k2)]
  have key : |rad * (k0 - s0 ^ 2 * (k0 - k1 * k2) / V)| ≤ rad * (k0 + s0 ^ 2 * (|k0| + |k1| * |k2|) / V) := by
    rw [abs_mul, abs_of_pos hr]
    gcongr
    have e1 : k0 - s0 ^ 2 * (k0 - k1 * k2) / V = -((s0 ^ 2 - V) / V * k0) + s0 ^ 2 / V * (k1 * k2) := by field_simp; ring
    have e2 : k0 + s0 ^ 2 * (|k0| + |k1| * |k2|) / V = (s0 ^ 2 - V) / V * |k0| + s0 ^ 2 / V * (|k1| * |k2|) + (k0 + |k0|) := by
      field_simp; ring
    have h3 : 0 ≤ (s0 ^ 2 - V) / V := div_nonneg (by linarith) hv.le
    rw [e1, e2]
    have h4 : 0 ≤ k0 + |k0| := by linarith [neg_abs_le k0]
    have h5 : |-((s0 ^ 2 - V) / V * k0) + s0 ^ 2 / V * (k1 * k2)| ≤ (s0 ^ 2 - V) / V * |k0| + s0 ^ 2 / V * (|k1| * |k2|) := by
      refine (abs_add_le _ _).trans (add_le_add ?_ ?_)
      · rw [abs_neg, abs_mul, abs_of_nonneg h3]
      · rw [abs_mul, abs_mul k1, abs_of_nonneg (by positivity)]
    linarith
  have lhs : ((((y1 * f + b * y2) * s0 + b * f * (k0 * rad * x0)) * (r * a * b * f) - b * f * s0 *
      (((((-(((2 : ℕ) : ℝ) * k0 ^ (2 - 1) * -(s0 * rad * x0)) - ((2 : ℕ) : ℝ) * k1 ^ (2 - 1) * -(s1 * rad * x1) -
        ((2 : ℕ) : ℝ) * k2 ^ (2 - 1) * -(s2 * rad * x2) +
        ((2 * -(s0 * rad * x0) * k1 + 2 * k0 * -(s1 * rad * x1)) * k2 + 2 * k0 * k1 * -(s2 * rad * x2))) / (2 * r)) * a + r * y0) * b +
        r * a * y1) * f + r * a * b * y2)) / (r * a * b * f) ^ 2) =
      1 / (a * r) * (-(s0 / a) * y0 + rad * (k0 - s0 ^ 2 * (k0 - k1 * k2) / V) * x0 + -(s0 * (s1 * rad) / V) * (k1 - k0 * k2) * x1 +
        -(s0 * (s2 * rad) / V) * (k2 - k0 * k1) * x2) := by
    rw [← sr]
    push_cast
    field_simp
    ring
  have rhs : ((g1 * f + b * g2) * s0 + b * f * (k0 * rad * d0)) / (r * a * b * f) + b * f * s0 / (r * a * b * f * (r * a * b * f)) *
      (0.5 / r * (2 * (|k0| * (s0 * rad * d0) + |k1| * (s1 * rad * d1) + |k2| * (s2 * rad * d2) + s0 * rad * d0 * |k1| * |k2| +
        |k0| * (s1 * rad * d1) * |k2| + |k0| * |k1| * (s2 * rad * d2))) * a * b * f + r * (g0 * b * f + a * g1 * f + a * b * g2)) =
      1 / (a * r) * (s0 / a * g0 + 2 * (s0 / b * g1 + s0 / f * g2) + rad * (k0 + s0 ^ 2 * (|k0| + |k1| * |k2|) / V) * d0 +
        s0 * (s1 * rad) / V * (|k1| + |k0| * |k2|) * d1 + s0 * (s2 * rad) / V * (|k2| + |k0| * |k1|) * d2) := by
    rw [← sr, show (0.5 : ℝ) = 1 / 2 by norm_num]
    field_simp
    ring
  rw [lhs, rhs, abs_mul, abs_of_pos (by positivity : 0 < 1 / (a * r))]
  have g1p : 0 ≤ g1 := (abs_nonneg _).trans b1
  have g2p : 0 ≤ g2 := (abs_nonneg _).trans b2
  have d0p : 0 ≤ d0 := (abs_nonneg _).trans w0
  have m1 : |k1 - k0 * k2| ≤ |k1| + |k0| * |k2| := by rw [← abs_mul]; exact abs_sub _ _
  have m2 : |k2 - k0 * k1| ≤ |k2| + |k0| * |k1| := by rw [← abs_mul]; exact abs_sub _ _
  gcongr
  have t0 : |-(s0 / a) * y0| ≤ s0 / a * g0 := by
    rw [abs_mul, abs_neg, abs_of_pos (by positivity)]
    gcongr
  have t1 : |rad * (k0 - s0 ^ 2 * (k0 - k1 * k2) / V) * x0| ≤ rad * (k0 + s0 ^ 2 * (|k0| + |k1| * |k2|) / V) * d0 := by
    rw [abs_mul]
    exact mul_le_mul key w0 (abs_nonneg _) ((abs_nonneg _).trans key)
  have t2 : |-(s0 * (s1 * rad) / V) * (k1 - k0 * k2) * x1| ≤ s0 * (s1 * rad) / V * (|k1| + |k0| * |k2|) * d1 := by
    rw [abs_mul, abs_mul, abs_neg, abs_of_pos (by positivity)]
    gcongr
  have t3 : |-(s0 * (s2 * rad) / V) * (k2 - k0 * k1) * x2| ≤ s0 * (s2 * rad) / V * (|k2| + |k0| * |k1|) * d2 := by
    rw [abs_mul, abs_mul, abs_neg, abs_of_pos (by positivity)]
    gcongr
  have t4 : 0 ≤ 2 * (s0 / b * g1 + s0 / f * g2) := by positivity
  have := (abs_add_le _ _).trans (add_le_add ((abs_add_le _ _).trans (add_le_add ((abs_add_le _ _).trans (add_le_add t0 t1)) t2)) t3)
  linarith

end
end Pdffit.C55
