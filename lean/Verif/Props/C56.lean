import Verif.Props.C18
import Verif.Model.Reflections
import Mathlib.Tactic.FieldSimp
import Mathlib.Tactic.LinearCombination

/-!
# C56 The reflection generator visits the reflections of the shell, once each, with the right spacing

`spacing` says what `d()` is without the reciprocal lattice: the distance of the lattice plane `h x + k y + l z = 1` from the origin.
The set of visited reflections is right under the same condition as in C18 (no reflection exactly at `Qmin`); `visits_origin` is the
violation, in which the reflection 000, with an infinite spacing, is visited.
-/

namespace Pdffit.C56
open Sphere C18

/-- Square of the length of `x a + y b + z c`. -/
def norm2 (l : Lat) (x y z : ℝ) : ℝ :=
  x ^ 2 * l.a ^ 2 + y ^ 2 * l.b ^ 2 + z ^ 2 * l.c ^ 2 + 2 * x * y * l.a * l.b * l.cg + 2 * x * z * l.a * l.c * l.cb + 2 * y * z * l.b * l.c * l.ca

section
variable {l : Lat} (g : Good l)
include g

theorem vpos : 0 < l.vunit := Real.sqrt_pos.2 g.vol

theorem vsq : l.vunit ^ 2 = 1 + 2 * l.ca * l.cb * l.cg - l.ca * l.ca - l.cb * l.cb - l.cg * l.cg := Real.sq_sqrt g.vol.le

theorem sar_eq : l.sar = l.vunit / (l.sb * l.sg) := by
  have h1 := g.sb
  have h2 := g.sg
  have hv := vpos g
  unfold Lat.sar
  rw [Real.sqrt_eq_iff_mul_self_eq_of_pos (by positivity)]
  unfold Lat.car
  have e := vsq g
  have e1 := g.eb
  have e2 := g.eg
  field_simp
  rw [e]
  linear_combination (-1 : ℝ) * e1 * l.sg ^ 2 - e2 * (1 - l.cb ^ 2)

theorem sbr_eq : l.sbr = l.vunit / (l.sa * l.sg) := by
  have h1 := g.sa
  have h2 := g.sg
  have hv := vpos g
  unfold Lat.sbr
  rw [Real.sqrt_eq_iff_mul_self_eq_of_pos (by positivity)]
  unfold Lat.cbr
  have e := vsq g
  have e1 := g.ea
  have e2 := g.eg
  field_simp
  rw [e]
  linear_combination (-1 : ℝ) * e1 * l.sg ^ 2 - e2 * (1 - l.ca ^ 2)

theorem sgr_eq : l.sgr = l.vunit / (l.sa * l.sb) := by
  have h1 := g.sa
  have h2 := g.sb
  have hv := vpos g
  unfold Lat.sgr
  rw [Real.sqrt_eq_iff_mul_self_eq_of_pos (by positivity)]
  unfold Lat.cgr
  have e := vsq g
  have e1 := g.ea
  have e2 := g.eb
  field_simp
  rw [e]
  linear_combination (-1 : ℝ) * e1 * l.sb ^ 2 - e2 * (1 - l.ca ^ 2)

theorem vrec : 1 + 2 * l.car * l.cbr * l.cgr - l.car * l.car - l.cbr * l.cbr - l.cgr * l.cgr = (l.vunit ^ 2 / (l.sa * l.sb * l.sg)) ^ 2 := by
  have h0 := g.sa
  have h1 := g.sb
  have h2 := g.sg
  have e := vsq g
  have ea : l.sa ^ 2 = 1 - l.ca ^ 2 := by linarith [g.ea]
  have eb : l.sb ^ 2 = 1 - l.cb ^ 2 := by linarith [g.eb]
  have eg : l.sg ^ 2 = 1 - l.cg ^ 2 := by linarith [g.eg]
  unfold Lat.car Lat.cbr Lat.cgr
  have : ∀ x y z : ℝ, 1 + 2 * (x / (l.sb * l.sg)) * (y / (l.sa * l.sg)) * (z / (l.sa * l.sb)) - x / (l.sb * l.sg) * (x / (l.sb * l.sg)) -
      y / (l.sa * l.sg) * (y / (l.sa * l.sg)) - z / (l.sa * l.sb) * (z / (l.sa * l.sb)) =
      (l.sa ^ 2 * l.sb ^ 2 * l.sg ^ 2 + 2 * x * y * z - x ^ 2 * l.sa ^ 2 - y ^ 2 * l.sb ^ 2 - z ^ 2 * l.sg ^ 2) / (l.sa * l.sb * l.sg) ^ 2 := by
    intro x y z
    field_simp
  rw [this, div_pow, e, ea, eb, eg]
  congr 1
  ring

/-- The reciprocal of a lattice is a lattice. -/
theorem good_recip : Good l.recip := by
  have hv := vpos g
  have h0 := g.sa
  have h1 := g.sb
  have h2 := g.sg
  have ha := g.a
  have hb := g.b
  have hc := g.c
  refine ⟨?_, ?_, ?_, ?_, ?_, ?_, ?_, ?_, ?_, ?_⟩
  · show 0 < l.ar
    unfold Lat.ar
    positivity
  · show 0 < l.br
    unfold Lat.br
    positivity
  · show 0 < l.cr
    unfold Lat.cr
    positivity
  · show 0 < l.sar
    rw [sar_eq g]
    positivity
  · show 0 < l.sbr
    rw [sbr_eq g]
    positivity
  · show 0 < l.sgr
    rw [sgr_eq g]
    positivity
  · show l.sar ^ 2 + l.car ^ 2 = 1
    have : 0 < l.sar := by rw [sar_eq g]; positivity
    unfold Lat.sar at this ⊢
    rw [Real.sq_sqrt (Real.sqrt_pos.1 this).le]
    ring
  · show l.sbr ^ 2 + l.cbr ^ 2 = 1
    have : 0 < l.sbr := by rw [sbr_eq g]; positivity
    unfold Lat.sbr at this ⊢
    rw [Real.sq_sqrt (Real.sqrt_pos.1 this).le]
    ring
  · show l.sgr ^ 2 + l.cgr ^ 2 = 1
    have : 0 < l.sgr := by rw [sgr_eq g]; positivity
    unfold Lat.sgr at this ⊢
    rw [Real.sq_sqrt (Real.sqrt_pos.1 this).le]
    ring
  · show 0 < 1 + 2 * l.car * l.cbr * l.cgr - l.car * l.car - l.cbr * l.cbr - l.cgr * l.cgr
    rw [vrec g]
    positivity

theorem vunit_recip : l.recip.vunit = l.vunit ^ 2 / (l.sa * l.sb * l.sg) := by
  have hv := vpos g
  have h0 := g.sa
  have h1 := g.sb
  have h2 := g.sg
  show √(1 + 2 * l.car * l.cbr * l.cgr - l.car * l.car - l.cbr * l.cbr - l.cgr * l.cgr) = _
  rw [vrec g, Real.sqrt_sq (by positivity)]

/-- The reciprocal of the reciprocal lattice is the lattice. -/
theorem recip_recip : l.recip.recip = l := by
  have hv := vpos g
  have h0 := g.sa
  have h1 := g.sb
  have h2 := g.sg
  have ha := g.a
  have hb := g.b
  have hc := g.c
  have e := vsq g
  have ea : l.sa ^ 2 = 1 - l.ca ^ 2 := by linarith [g.ea]
  have eb : l.sb ^ 2 = 1 - l.cb ^ 2 := by linarith [g.eb]
  have eg : l.sg ^ 2 = 1 - l.cg ^ 2 := by linarith [g.eg]
  have i1 : l.recip.ar = l.a := by
    unfold Lat.ar
    rw [vunit_recip g]
    show l.sar / (l.ar * _) = _
    rw [sar_eq g]
    unfold Lat.ar
    field_simp
  have i2 : l.recip.br = l.b := by
    unfold Lat.br
    rw [vunit_recip g]
    show l.sbr / (l.br * _) = _
    rw [sbr_eq g]
    unfold Lat.br
    field_simp
  have i3 : l.recip.cr = l.c := by
    unfold Lat.cr
    rw [vunit_recip g]
    show l.sgr / (l.cr * _) = _
    rw [sgr_eq g]
    unfold Lat.cr
    field_simp
  have c1 : l.recip.car = l.ca := by
    show (l.cbr * l.cgr - l.car) / (l.sbr * l.sgr) = _
    rw [sbr_eq g, sgr_eq g]
    unfold Lat.car Lat.cbr Lat.cgr
    field_simp
    rw [e, ea]
    ring
  have c2 : l.recip.cbr = l.cb := by
    show (l.car * l.cgr - l.cbr) / (l.sar * l.sgr) = _
    rw [sar_eq g, sgr_eq g]
    unfold Lat.car Lat.cbr Lat.cgr
    field_simp
    rw [e, eb]
    ring
  have c3 : l.recip.cgr = l.cg := by
    show (l.car * l.cbr - l.cgr) / (l.sar * l.sbr) = _
    rw [sar_eq g, sbr_eq g]
    unfold Lat.car Lat.cbr Lat.cgr
    field_simp
    rw [e, eg]
    ring
  have s1 : l.recip.sar = l.sa := by
    unfold Lat.sar
    rw [c1, show 1 - l.ca * l.ca = l.sa ^ 2 by rw [ea]; ring, Real.sqrt_sq h0.le]
  have s2 : l.recip.sbr = l.sb := by
    unfold Lat.sbr
    rw [c2, show 1 - l.cb * l.cb = l.sb ^ 2 by rw [eb]; ring, Real.sqrt_sq h1.le]
  have s3 : l.recip.sgr = l.sg := by
    unfold Lat.sgr
    rw [c3, show 1 - l.cg * l.cg = l.sg ^ 2 by rw [eg]; ring, Real.sqrt_sq h2.le]
  show (⟨l.recip.ar, l.recip.br, l.recip.cr, l.recip.car, l.recip.cbr, l.recip.cgr, l.recip.sar, l.recip.sbr, l.recip.sgr⟩ : Lat) = l
  rw [i1, i2, i3, c1, c2, c3, s1, s2, s3]

/-- Lengths are positive. -/
theorem norm2_nonneg (x y z : ℝ) : 0 ≤ norm2 l x y z := by
  have h0 := g.sa
  have ea : l.sa ^ 2 = 1 - l.ca ^ 2 := by linarith [g.ea]
  have e := vsq g
  have : norm2 l x y z * l.sa ^ 2 = (x * l.a * l.vunit) ^ 2 + (y * l.b * l.sa ^ 2 - x * l.a * (l.ca * l.cb - l.cg)) ^ 2 +
      (l.sa * (z * l.c + y * l.b * l.ca + x * l.a * l.cb)) ^ 2 := by
    have e1 : (x * l.a * l.vunit) ^ 2 = (x * l.a) ^ 2 * l.vunit ^ 2 := by ring
    have e2 : (l.sa * (z * l.c + y * l.b * l.ca + x * l.a * l.cb)) ^ 2 = l.sa ^ 2 * (z * l.c + y * l.b * l.ca + x * l.a * l.cb) ^ 2 := by ring
    rw [e1, e2, e, ea]
    unfold norm2
    ring
  have h3 : 0 ≤ norm2 l x y z * l.sa ^ 2 := by rw [this]; positivity
  exact nonneg_of_mul_nonneg_left h3 (by positivity)

/-- The vector of the direct lattice, as functional: its coordinates are its scalar products with the reciprocal vectors. -/
theorem dual (h k n x y z : ℝ) (hx : x = h * l.ar ^ 2 + k * l.ar * l.br * l.cgr + n * l.ar * l.cr * l.cbr)
    (hy : y = h * l.ar * l.br * l.cgr + k * l.br ^ 2 + n * l.br * l.cr * l.car)
    (hz : z = h * l.ar * l.cr * l.cbr + k * l.br * l.cr * l.car + n * l.cr ^ 2) :
    x * l.a ^ 2 + y * l.a * l.b * l.cg + z * l.a * l.c * l.cb = h ∧ x * l.a * l.b * l.cg + y * l.b ^ 2 + z * l.b * l.c * l.ca = k ∧
      x * l.a * l.c * l.cb + y * l.b * l.c * l.ca + z * l.c ^ 2 = n := by
  have hv := vpos g
  have h0 := g.sa
  have h1 := g.sb
  have h2 := g.sg
  have ha := g.a
  have hb := g.b
  have hc := g.c
  have e := vsq g
  have ea : l.sa ^ 2 = 1 - l.ca ^ 2 := by linarith [g.ea]
  have eb : l.sb ^ 2 = 1 - l.cb ^ 2 := by linarith [g.eb]
  have eg : l.sg ^ 2 = 1 - l.cg ^ 2 := by linarith [g.eg]
  have x' : x = (h * l.sa ^ 2 / l.a ^ 2 + k * (l.ca * l.cb - l.cg) / (l.a * l.b) + n * (l.ca * l.cg - l.cb) / (l.a * l.c)) / l.vunit ^ 2 := by
    rw [hx]
    unfold Lat.ar Lat.br Lat.cr Lat.cgr Lat.cbr
    field_simp
  have y' : y = (h * (l.ca * l.cb - l.cg) / (l.a * l.b) + k * l.sb ^ 2 / l.b ^ 2 + n * (l.cb * l.cg - l.ca) / (l.b * l.c)) / l.vunit ^ 2 := by
    rw [hy]
    unfold Lat.ar Lat.br Lat.cr Lat.cgr Lat.car
    field_simp
  have z' : z = (h * (l.ca * l.cg - l.cb) / (l.a * l.c) + k * (l.cb * l.cg - l.ca) / (l.b * l.c) + n * l.sg ^ 2 / l.c ^ 2) / l.vunit ^ 2 := by
    rw [hz]
    unfold Lat.ar Lat.br Lat.cr Lat.cbr Lat.car
    field_simp
  rw [x', y', z', ea, eb, eg]
  have hv2 : l.vunit ^ 2 ≠ 0 := by positivity
  generalize l.vunit ^ 2 = V at *
  refine ⟨?_, ?_, ?_⟩ <;> field_simp <;> rw [e] <;> ring

/-- The length of a reciprocal vector is that of the functional. -/
theorem recip_norm (h k n x y z : ℝ) (hx : x = h * l.ar ^ 2 + k * l.ar * l.br * l.cgr + n * l.ar * l.cr * l.cbr)
    (hy : y = h * l.ar * l.br * l.cgr + k * l.br ^ 2 + n * l.br * l.cr * l.car)
    (hz : z = h * l.ar * l.cr * l.cbr + k * l.br * l.cr * l.car + n * l.cr ^ 2) :
    norm2 l.recip h k n = h * x + k * y + n * z ∧ norm2 l x y z = h * x + k * y + n * z := by
  obtain ⟨d1, d2, d3⟩ := dual g h k n x y z hx hy hz
  constructor
  · rw [hx, hy, hz]
    unfold norm2 Lat.recip
    ring
  · unfold norm2
    linear_combination x * d1 + y * d2 + z * d3

end

theorem r_eq (l : Lat) (p : ℤ × ℤ × ℤ) : l.r p = √(norm2 l p.1 p.2.1 p.2.2) := by
  unfold Lat.r norm2
  congr 1
  ring

theorem len2_norm2 (l : Lat) (p : ℤ × ℤ × ℤ) : len2 l p = norm2 l p.1 p.2.1 p.2.2 := rfl

/-- `d()` is the distance from the origin of the first lattice plane with the indices `hkl`. -/
theorem spacing {l : Lat} (g : Good l) (p : ℤ × ℤ × ℤ) (hp : 0 < l.recip.r p) :
    IsLeast {s | ∃ x y z : ℝ, p.1 * x + p.2.1 * y + p.2.2 * z = 1 ∧ s = √(norm2 l x y z)} (reflD l p) := by
  obtain ⟨h, k, n⟩ := p
  rw [r_eq] at hp
  unfold reflD
  rw [r_eq]
  dsimp only at hp ⊢
  obtain ⟨q1, q2⟩ := recip_norm g h k n _ _ _ rfl rfl rfl
  obtain ⟨d1, d2, d3⟩ := dual g h k n _ _ _ rfl rfl rfl
  generalize h * l.ar ^ 2 + k * l.ar * l.br * l.cgr + n * l.ar * l.cr * l.cbr = X at *
  generalize h * l.ar * l.br * l.cgr + k * l.br ^ 2 + n * l.br * l.cr * l.car = Y at *
  generalize h * l.ar * l.cr * l.cbr + k * l.br * l.cr * l.car + n * l.cr ^ 2 = Z at *
  have hN := Real.sqrt_pos.1 hp
  generalize norm2 l.recip h k n = N at *
  constructor
  · refine ⟨X / N, Y / N, Z / N, ?_, ?_⟩
    · rw [mul_div_assoc', mul_div_assoc', mul_div_assoc', ← add_div, ← add_div, ← q1, div_self hN.ne']
    · have : norm2 l (X / N) (Y / N) (Z / N) = 1 / N := by
        have : norm2 l (X / N) (Y / N) (Z / N) = norm2 l X Y Z / N ^ 2 := by
          unfold norm2
          ring
        rw [this, q2, ← q1]
        field_simp
      rw [this, Real.sqrt_div zero_le_one, Real.sqrt_one]
  · rintro s ⟨x, y, z, h1, rfl⟩
    rw [← Real.sqrt_one, ← Real.sqrt_div zero_le_one]
    apply Real.sqrt_le_sqrt
    have hz := norm2_nonneg g (x - X / N) (y - Y / N) (z - Z / N)
    have : norm2 l (x - X / N) (y - Y / N) (z - Z / N) = norm2 l x y z - 2 / N * (h * x + k * y + n * z) + norm2 l X Y Z / N ^ 2 := by
      unfold norm2
      linear_combination (2 * x / N) * (-1 : ℝ) * d1 - (2 * y / N) * d2 - (2 * z / N) * d3
    rw [this, h1, q2, ← q1] at hz
    have e : N / N ^ 2 = 1 / N := by field_simp
    rw [e] at hz
    have : 2 / N * 1 = 1 / N + 1 / N := by ring
    linarith

/-- `Q()` and `d()` belong together. -/
theorem Q_mul_d (l : Lat) (p : ℤ × ℤ × ℤ) (hp : 0 < l.recip.r p) : reflQ l p * reflD l p = 2 * Real.pi := by
  unfold reflQ reflD
  field_simp

theorem shell_iff {q : ℝ} (hq : 0 ≤ q) {x : ℝ} (hx : 0 ≤ x) : ((q * (1 / Real.pi) / 2) ^ 2 ≤ x ↔ q ≤ 2 * Real.pi * √x) ∧
    (x < (q * (1 / Real.pi) / 2) ^ 2 ↔ 2 * Real.pi * √x < q) := by
  have hpi := Real.pi_pos
  have : (q * (1 / Real.pi) / 2) ^ 2 ≤ x ↔ q ≤ 2 * Real.pi * √x := by
    rw [← Real.le_sqrt (by positivity) hx, mul_one_div, div_div, div_le_iff₀ (by positivity)]
    constructor <;> intro h <;> linarith
  exact ⟨this, by rw [← not_le, this, not_le]⟩

/-- The reflections with `Qmin ≤ Q < Qmax` are visited, none twice, and none with `Q ≥ Qmax`. -/
theorem complete {l : Lat} (g : Good l) {qmin qmax : ℝ} (h0 : 0 ≤ qmin) (hmax : 0 ≤ qmax) :
    (reflections qmin qmax l).Nodup ∧ (∀ p, qmin ≤ reflQ l p → reflQ l p < qmax → p ∈ reflections qmin qmax l) ∧
    ∀ p ∈ reflections qmin qmax l, reflQ l p < qmax := by
  have hpi := Real.pi_pos
  have hn : ∀ p : ℤ × ℤ × ℤ, 0 ≤ len2 l.recip p := fun p => by rw [len2_norm2]; exact norm2_nonneg (good_recip g) _ _ _
  have hQ : ∀ p, reflQ l p = 2 * Real.pi * √(len2 l.recip p) := fun p => by unfold reflQ; rw [r_eq, len2_norm2]
  obtain ⟨c1, c2, c3⟩ := C18.complete (reflSph qmin qmax l) (good_recip g) (by unfold reflSph; positivity) (by unfold reflSph; positivity)
  refine ⟨c1, fun p h1 h2 => c2 p ?_ ?_, fun p hp => ?_⟩
  · exact (shell_iff h0 (hn p)).1.2 (by rw [← hQ]; exact h1)
  · exact (shell_iff hmax (hn p)).2.2 (by rw [← hQ]; exact h2)
  · rw [hQ]
    exact (shell_iff hmax (hn p)).2.1 (c3 p hp)

/-- Exactly the shell is visited when no reflection is at `Qmin`. -/
theorem shell_partial {l : Lat} (g : Good l) {qmin qmax : ℝ} (h0 : 0 ≤ qmin) (hmax : 0 ≤ qmax) (hne : ∀ p, reflQ l p ≠ qmin)
    (p : ℤ × ℤ × ℤ) : p ∈ reflections qmin qmax l ↔ qmin ≤ reflQ l p ∧ reflQ l p < qmax := by
  have hpi := Real.pi_pos
  have hn : ∀ p : ℤ × ℤ × ℤ, 0 ≤ len2 l.recip p := fun p => by rw [len2_norm2]; exact norm2_nonneg (good_recip g) _ _ _
  have hQ : ∀ p, reflQ l p = 2 * Real.pi * √(len2 l.recip p) := fun p => by unfold reflQ; rw [r_eq, len2_norm2]
  have := C18.shell_partial (reflSph qmin qmax l) (good_recip g) (by unfold reflSph; positivity) (by unfold reflSph; positivity)
    (fun p h => hne p ?_) p
  · rw [hQ, ← (shell_iff h0 (hn p)).1, ← (shell_iff hmax (hn p)).2]
    exact this
  · rw [hQ, show len2 l.recip p = (qmin * (1 / Real.pi) / 2) ^ 2 from h, Real.sqrt_sq (by positivity)]
    field_simp

/-- The same in terms of spacings: `Dmin < d ≤ Dmax`, for reflections other than 000. -/
theorem shellD_partial {l : Lat} (g : Good l) {dmax dmin : ℝ} (h0 : 0 < dmax) (hmin : 0 < dmin) (hne : ∀ p, reflD l p ≠ dmax)
    (p : ℤ × ℤ × ℤ) (hp : 0 < l.recip.r p) : p ∈ reflectionsD dmax dmin l ↔ dmin < reflD l p ∧ reflD l p ≤ dmax := by
  have hpi := Real.pi_pos
  unfold reflectionsD
  rw [shell_partial g (by positivity) (by positivity)]
  · unfold reflQ reflD
    rw [div_le_iff₀ h0, lt_div_iff₀ hmin, lt_div_iff₀ hp, div_le_iff₀ hp]
    constructor
    · rintro ⟨h1, h2⟩
      constructor
      · have : 2 * Real.pi * (l.recip.r p * dmin) < 2 * Real.pi * 1 := by linarith
        have := lt_of_mul_lt_mul_left this (by positivity)
        linarith
      · have : 2 * Real.pi * 1 ≤ 2 * Real.pi * (l.recip.r p * dmax) := by linarith
        have := le_of_mul_le_mul_left this (by positivity)
        linarith
    · rintro ⟨h1, h2⟩
      constructor
      · have := mul_le_mul_of_nonneg_left h2 (by positivity : 0 ≤ 2 * Real.pi)
        linarith
      · have := mul_lt_mul_of_pos_left h1 (by positivity : 0 < 2 * Real.pi)
        linarith
  · intro q hq
    apply hne q
    unfold reflQ at hq
    unfold reflD
    have : l.recip.r q = 1 / dmax := by
      field_simp at hq ⊢
      linarith
    rw [this, one_div_one_div]

/-! ## Examples and violation -/

theorem cubic_recip : cubic.recip = cubic := by
  have hv : cubic.vunit = 1 := by simp [Lat.vunit, cubic, Lat.of, cos90]
  have h1 : cubic.ar = 1 := by simp [Lat.ar, hv]; simp [cubic, Lat.of, sin90]
  have h2 : cubic.br = 1 := by simp [Lat.br, hv]; simp [cubic, Lat.of, sin90]
  have h3 : cubic.cr = 1 := by simp [Lat.cr, hv]; simp [cubic, Lat.of, sin90]
  have c1 : cubic.car = 0 := by simp [Lat.car, cubic, Lat.of, cos90]
  have c2 : cubic.cbr = 0 := by simp [Lat.cbr, cubic, Lat.of, cos90]
  have c3 : cubic.cgr = 0 := by simp [Lat.cgr, cubic, Lat.of, cos90]
  unfold Lat.recip
  rw [h1, h2, h3, c1, c2, c3]
  unfold Lat.sar Lat.sbr Lat.sgr
  rw [c1, c2, c3]
  simp [cubic, Lat.of, cos90, sin90]

/-- **Violation**: with `Qmin = 2π`, the value of the reflection 100 of a cubic lattice, the reflection 000 is visited. -/
theorem visits_origin : (0, 0, 0) ∈ reflections (2 * Real.pi) (4 * Real.pi) cubic ∧ reflQ cubic (0, 0, 0) < 2 * Real.pi ∧
    reflQ cubic (1, 0, 0) = 2 * Real.pi := by
  have hpi := Real.pi_pos
  refine ⟨?_, ?_, ?_⟩
  · have := C18.visits_origin.1
    unfold reflections reflSph
    rw [cubic_recip]
    have e1 : 2 * Real.pi * (1 / Real.pi) / 2 = 1 := by field_simp
    have e2 : 4 * Real.pi * (1 / Real.pi) / 2 = 2 := by field_simp; norm_num
    rw [e1, e2]
    exact this
  · simp [reflQ, Lat.r]
    positivity
  · simp [reflQ, cubic_recip, Lat.r]
    simp [cubic, Lat.of]

/-- A monoclinic lattice, its reflection 101 and the two planes through the ends of the edges. -/
example : Good (Lat.of 3 4 5 90 60 90) ∧ 0 < (Lat.of 3 4 5 90 60 90).recip.r (1, 0, 1) ∧
    reflD (Lat.of 3 4 5 90 60 90) (1, 0, 1) ≤ 3 ∧ reflD (Lat.of 3 4 5 90 60 90) (1, 0, 1) ≤ 5 := by
  have c60 : Real.cos (Real.pi / 180 * 60) = 1 / 2 := by
    rw [show Real.pi / 180 * 60 = Real.pi / 3 by ring, Real.cos_pi_div_three]
  have hg : Good (Lat.of 3 4 5 90 60 90) := by
    apply good_of <;> norm_num [cos90, c60]
  have hp : 0 < (Lat.of 3 4 5 90 60 90).recip.r (1, 0, 1) := by
    rw [r_eq]
    apply Real.sqrt_pos.2
    obtain ⟨q1, q2⟩ := recip_norm hg 1 0 1 _ _ _ rfl rfl rfl
    obtain ⟨d1, d2, d3⟩ := dual hg 1 0 1 _ _ _ rfl rfl rfl
    have h3 := (norm2_nonneg hg _ _ _).trans_eq q2
    rcases lt_or_eq_of_le (h3.trans_eq q1.symm) with h | h
    · simpa using h
    · exfalso
      have hz := q2.trans (q1.symm.trans h.symm)
      generalize (1 : ℝ) * (Lat.of 3 4 5 90 60 90).ar ^ 2 + 0 * (Lat.of 3 4 5 90 60 90).ar * (Lat.of 3 4 5 90 60 90).br * (Lat.of 3 4 5 90 60 90).cgr + 1 * (Lat.of 3 4 5 90 60 90).ar * (Lat.of 3 4 5 90 60 90).cr * (Lat.of 3 4 5 90 60 90).cbr = X at *
      generalize (1 : ℝ) * (Lat.of 3 4 5 90 60 90).ar * (Lat.of 3 4 5 90 60 90).br * (Lat.of 3 4 5 90 60 90).cgr + 0 * (Lat.of 3 4 5 90 60 90).br ^ 2 + 1 * (Lat.of 3 4 5 90 60 90).br * (Lat.of 3 4 5 90 60 90).cr * (Lat.of 3 4 5 90 60 90).car = Y at *
      generalize (1 : ℝ) * (Lat.of 3 4 5 90 60 90).ar * (Lat.of 3 4 5 90 60 90).cr * (Lat.of 3 4 5 90 60 90).cbr + 0 * (Lat.of 3 4 5 90 60 90).br * (Lat.of 3 4 5 90 60 90).cr * (Lat.of 3 4 5 90 60 90).car + 1 * (Lat.of 3 4 5 90 60 90).cr ^ 2 = Z at *
      simp only [Lat.of, cos90, c60] at d1 d2 d3
      simp only [norm2, Lat.of, cos90, c60] at hz
      nlinarith [sq_nonneg (3 * X + 5 / 2 * Z), sq_nonneg Z, sq_nonneg Y, sq_nonneg X]
  have hs := spacing hg _ hp
  refine ⟨hg, hp, ?_, ?_⟩
  · refine (hs.2 ⟨1, 0, 0, by norm_num, rfl⟩).trans_eq ?_
    simp [norm2, Lat.of]
  · refine (hs.2 ⟨0, 0, 1, by norm_num, rfl⟩).trans_eq ?_
    simp [norm2, Lat.of]

end Pdffit.C56
