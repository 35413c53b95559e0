import Verif.Model.Refine
import Mathlib.Analysis.Real.Sqrt

/-!
Reported residuals over the real numbers.
-/

namespace Pdffit
variable {W : Type}

/-- `getrw` (pdffit.h 283-286, fit.cc 107, 127): `fit_rw = sqrt(chisq/wnorm)`. -/
noncomputable def Eng.getrw (e : Eng ℝ W) : ℝ := Real.sqrt e.rw2

/-- `DataSet::getcrw` (pdf.cc 1124-1139) of data set `is`. -/
noncomputable def Eng.getcrw (th : Theory ℝ W) (e : Eng ℝ W) (is : Nat) : List ℝ :=
  let wsqobs := wnormOf (th.pts e.world)
  let rec_ := if wsqobs > 0 then 1 / wsqobs else 1
  (e.cum.getD is []).map fun x => Real.sqrt (x * rec_)

end Pdffit
