import Verif.Model.Sphere

/-!
# Reflections (`LatticeParameters::reciprocal`, PointsInSphere.cc 56-73; `ReflectionsInQminQmax`, `ReflectionsInDmaxDmin`,
PointsInSphere.cc 209-255, PointsInSphere.h 123-185)

An object of class `LatticeParameters` holds the parameters of a lattice and of its reciprocal; `reciprocal` exchanges them. Here
only the first half is kept and the second one is computed from it (`Lat.ar`, ...). That the exchanged object is the same is
`C56.recip_recip`.
-/

namespace Pdffit.Sphere

namespace Lat
variable (l : Lat)

/-- PointsInSphere.cc 47-49 -/
noncomputable def car : ℝ := (l.cb * l.cg - l.ca) / (l.sb * l.sg)
noncomputable def sar : ℝ := √(1 - l.car * l.car)
noncomputable def sbr : ℝ := √(1 - l.cbr * l.cbr)
noncomputable def sgr : ℝ := √(1 - l.cgr * l.cgr)

/-- `reciprocal` (PointsInSphere.cc 56-73). -/
noncomputable def recip : Lat := ⟨l.ar, l.br, l.cr, l.car, l.cbr, l.cgr, l.sar, l.sbr, l.sgr⟩

/-- `PointsInSphere::r` (PointsInSphere.cc 194-200). -/
noncomputable def r (p : ℤ × ℤ × ℤ) : ℝ :=
  √(p.1 * p.1 * l.a * l.a + p.2.1 * p.2.1 * l.b * l.b + p.2.2 * p.2.2 * l.c * l.c
    + 2 * p.1 * p.2.1 * l.a * l.b * l.cg + 2 * p.1 * p.2.2 * l.a * l.c * l.cb + 2 * p.2.1 * p.2.2 * l.b * l.c * l.ca)

end Lat

/-- `sph` of a `ReflectionsInQminQmax` object (PointsInSphere.cc 209-224). -/
noncomputable def reflSph (qmin qmax : ℝ) (l : Lat) : Cst := ⟨qmin * (1 / Real.pi) / 2, qmax * (1 / Real.pi) / 2, l.recip⟩

/-- The indices visited by a loop over a `ReflectionsInQminQmax` object. -/
noncomputable def reflections (qmin qmax : ℝ) (l : Lat) : List (ℤ × ℤ × ℤ) := points (reflSph qmin qmax l)

/-- `Q()` (PointsInSphere.h 155-158). -/
noncomputable def reflQ (l : Lat) (p : ℤ × ℤ × ℤ) : ℝ := 2 * Real.pi * l.recip.r p

/-- `d()` (PointsInSphere.h 159-162). -/
noncomputable def reflD (l : Lat) (p : ℤ × ℤ × ℤ) : ℝ := 1 / l.recip.r p

/-- The loop over a `ReflectionsInDmaxDmin` object (PointsInSphere.cc 231-246). -/
noncomputable def reflectionsD (dmax dmin : ℝ) (l : Lat) : List (ℤ × ℤ × ℤ) :=
  reflections (2 * Real.pi / dmax) (2 * Real.pi / dmin) l

end Pdffit.Sphere
