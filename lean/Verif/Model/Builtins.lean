import Verif.Model.Parser
import Mathlib.Analysis.SpecialFunctions.Trigonometric.Inverse
import Mathlib.Analysis.SpecialFunctions.Trigonometric.Arctan
import Mathlib.Analysis.SpecialFunctions.Log.Basic
import Mathlib.Analysis.SpecialFunctions.Sqrt

/-!
# Built-in functions of formulas (MathUtils.h 54-92, pdffit.cc 131-152)

The functions of `double` are replaced by the functions of real numbers (`asin`, `acos`, `atan`: principal values).
-/

namespace Pdffit.Parser
noncomputable section

/-- `rad` (MathUtils.h 28). -/
def rad : ℝ := Real.pi / 180

/-- `sqr`, `dsqr`, `cube`, `dcube`, `neg`, `dneg` (MathUtils.h 54-61). -/
def bneg (x : ℝ) : ℝ := -x
@[inherit_doc bneg] def bdneg (_ : ℝ) : ℝ := -1
@[inherit_doc bneg] def bsqr (x : ℝ) : ℝ := x * x
@[inherit_doc bneg] def bdsqr (x : ℝ) : ℝ := 2 * x
@[inherit_doc bneg] def bcube (x : ℝ) : ℝ := x * x * x
@[inherit_doc bneg] def bdcube (x : ℝ) : ℝ := 3 * bsqr x
/-- MathUtils.h 63-66. -/
def bdsqrt (x : ℝ) : ℝ := 0.5 / Real.sqrt x
@[inherit_doc bdsqrt] def bdexp (x : ℝ) : ℝ := Real.exp x
@[inherit_doc bdsqrt] def bdlog (x : ℝ) : ℝ := 1 / x
/-- MathUtils.h 68-75. -/
def bsind (x : ℝ) : ℝ := Real.sin (rad * x)
@[inherit_doc bsind] def bdsind (x : ℝ) : ℝ := rad * Real.cos (rad * x)
@[inherit_doc bsind] def bcosd (x : ℝ) : ℝ := Real.cos (rad * x)
@[inherit_doc bsind] def bdcosd (x : ℝ) : ℝ := -rad * Real.sin (rad * x)
@[inherit_doc bsind] def btand (x : ℝ) : ℝ := Real.tan (rad * x)
@[inherit_doc bsind] def bdtand (x : ℝ) : ℝ := rad / bsqr (bcosd x)
/-- MathUtils.h 77-83. -/
def bdsin (x : ℝ) : ℝ := Real.cos x
@[inherit_doc bdsin] def bdcos (x : ℝ) : ℝ := -Real.sin x
@[inherit_doc bdsin] def bdtan (x : ℝ) : ℝ := 1 / bsqr (Real.cos x)
@[inherit_doc bdsin] def bdasin (x : ℝ) : ℝ := 1 / Real.sqrt (1 - x * x)
@[inherit_doc bdsin] def bdacos (x : ℝ) : ℝ := -1 / Real.sqrt (1 - x * x)
@[inherit_doc bdsin] def bdatan (x : ℝ) : ℝ := 1 / (1 + bsqr x)
/-- MathUtils.h 85-92. -/
def basind (x : ℝ) : ℝ := Real.arcsin x / rad
@[inherit_doc basind] def bdasind (x : ℝ) : ℝ := bdasin x / rad
@[inherit_doc basind] def bacosd (x : ℝ) : ℝ := Real.arccos x / rad
@[inherit_doc basind] def bdacosd (x : ℝ) : ℝ := bdacos x / rad
@[inherit_doc basind] def batand (x : ℝ) : ℝ := Real.arctan x / rad
@[inherit_doc basind] def bdatand (x : ℝ) : ℝ := bdatan x / rad

/-- `init_builtins` (pdffit.cc 131-152). -/
def builtins : List (List Char × ((ℝ → ℝ) × (ℝ → ℝ))) := [
  ("-".toList, bneg, bdneg),
  ("sin".toList, Real.sin, bdsin),
  ("cos".toList, Real.cos, bdcos),
  ("tan".toList, Real.tan, bdtan),
  ("sind".toList, bsind, bdsind),
  ("cosd".toList, bcosd, bdcosd),
  ("tand".toList, btand, bdtand),
  ("asin".toList, Real.arcsin, bdasin),
  ("acos".toList, Real.arccos, bdacos),
  ("atan".toList, Real.arctan, bdatan),
  ("asind".toList, basind, bdasind),
  ("acosd".toList, bacosd, bdacosd),
  ("atand".toList, batand, bdatand),
  ("exp".toList, Real.exp, bdexp),
  ("log".toList, Real.log, bdlog),
  ("sqr".toList, bsqr, bdsqr),
  ("cube".toList, bcube, bdcube),
  ("sqrt".toList, Real.sqrt, bdsqrt)]

/-- The map `builtin` (the names are distinct, so every insertion takes effect). -/
def builtinTab : BTab ℝ := fun name => builtins.lookup name

end
end Pdffit.Parser
