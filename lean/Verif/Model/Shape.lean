import Mathlib.Analysis.Real.Sqrt

/-! # Shape factors (ShapeFactors.h) -/

namespace Pdffit.Shape

/-- `sphereEnvelope` (ShapeFactors.h 30-34). -/
noncomputable def sphereEnvelope (r d : ℝ) : ℝ :=
  if r / d < 1 then 1 - 3 / 2 * (r / d) + 1 / 2 * (r / d) ^ 3 else 0

/-- `dsphereEnvelope` (ShapeFactors.h 37-41). -/
noncomputable def dsphereEnvelope (r d : ℝ) : ℝ :=
  if r / d < 1 then 3 / 2 * (r / d) / d - 3 / 2 * (r / d) ^ 3 / d else 0

end Pdffit.Shape
