import Verif.Model.RefineReal

/-!
# Reduced chi-square of a refinement and of a data set

`fit.redchisq` is computed at the end of each step from the members at that time (fit.cc 108, 128; pdflsmin.cc 112). Only the final call evaluates the curve
afterwards; this does not change the number of points, so the value is read off the final state here.
-/

namespace Pdffit
variable {W : Type}

/-- `fit.ntot` (fit.cc 330, 339). -/
def ntotOf {K : Type} (dss : List (List (Pt K))) : ℕ := (dss.map List.length).sum

/-- `fit.ndof` (fit.cc 276-279): the number of free parameters. -/
def Eng.ndof {K : Type} (e : Eng K W) : ℕ := nfree e.ia e.ma

/-- `fit.ntot - fit.ndof` -/
def Eng.nred {K : Type} (th : Theory K W) (e : Eng K W) : ℤ := ntotOf (th.pts e.world) - e.ndof

/-- `fit.redchisq` (fit.cc 108, 128); `none` when the divisor is zero (infinite or not a number in the program). -/
def Eng.redchisq {K : Type} [Field K] (th : Theory K W) (e : Eng K W) : Option K :=
  if e.nred th = 0 then none else some (e.chisq / (e.nred th : K))

/-- `DataSet::getdsredchisq` (pdf.cc 1160-1167) of data set `is`. -/
def Eng.dsredchisq {K : Type} [Field K] (th : Theory K W) (e : Eng K W) (is : ℕ) : K :=
  let c2 := lastOr0 (e.cum.getD is [])
  if e.nred th > 0 then c2 / (e.nred th : K) else 0

/-- `DataSet::getdsrw` (pdf.cc 1152-1157) of data set `is`. -/
noncomputable def Eng.dsrw (th : Theory ℝ W) (e : Eng ℝ W) (is : ℕ) : ℝ := lastOr0 (e.getcrw th is)

end Pdffit
