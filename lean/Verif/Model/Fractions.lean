import Mathlib.Analysis.SpecialFunctions.Sqrt

/-! # Phase fractions

`DataSet::getAtomPhaseFractions`, `getCellPhaseFractions`, `getMassPhaseFractions`
(src/extensions/libpdffit2/pdf.cc 1654-1761) and `Phase::averageAtomicMass`,
`Phase::averageScatteringFactor` (pdf.cc 776-799).  Doubles are real numbers. -/

namespace Pdffit.Frac

/-- What the fractions need to know about an atom: `occ`, `atom_type->sf(scattering_type)`, `atom_type->M`. -/
structure FAtom where
  occ : ℝ
  sf : ℝ
  mass : ℝ

/-- What the fractions need to know about a phase. -/
structure FPhase where
  atom : List FAtom
  /-- The member `np`: the sum of the occupancies when `Phase::lattice` was last called (stru.cc).  It is
  kept as an independent value because it goes stale when occupancies are changed by `setvar`. -/
  np : ℝ
  pscale : ℝ
  dpscale : ℝ

/-- pdf.cc 790-799 -/
noncomputable def FPhase.bavg (p : FPhase) : ℝ := (p.atom.map fun a => a.occ * a.sf).sum / p.np

/-- pdf.cc 776-785 -/
noncomputable def FPhase.mavg (p : FPhase) : ℝ := (p.atom.map fun a => a.occ * a.mass).sum / p.np

/-- The three kinds of fraction; each has its own copy of the same function. -/
inductive Kind
  | atom
  | cell
  | mass
  deriving DecidableEq

/-- The unnormalised amount `xi` or its error `dxi` for `pscale` or `dpscale` equal to `s`
(pdf.cc 1670-1671, 1706-1707, 1743-1744). -/
noncomputable def amount (k : Kind) (p : FPhase) (s : ℝ) : ℝ :=
  match k with
  | .atom => s / (p.bavg * p.bavg)
  | .cell => s / (p.bavg * p.bavg * p.np)
  | .mass => s * p.mavg / (p.bavg * p.bavg)

/-- `xi`: zero for a phase that is not selected (pdf.cc 1657-1673). -/
noncomputable def xi (k : Kind) : Option FPhase → ℝ
  | none => 0
  | some p => amount k p p.pscale

/-- `dxi` -/
noncomputable def dxi (k : Kind) : Option FPhase → ℝ
  | none => 0
  | some p => amount k p p.dpscale

/-- The body of the last loop, pdf.cc 1680-1686. -/
noncomputable def frac (xtot dx2tot x dx : ℝ) : ℝ × ℝ :=
  (x / xtot, Real.sqrt ((dx * dx * (xtot * xtot - 2 * xtot * x) + x * x * dx2tot) / xtot ^ 4))

/-- `get…PhaseFractions()` for the selection `psel` (pdf.cc 1654-1761). -/
noncomputable def fractions (k : Kind) (psel : List (Option FPhase)) : List (ℝ × ℝ) :=
  let xtot := (psel.map (xi k)).sum
  let dx2tot := (psel.map fun o => dxi k o * dxi k o).sum
  if 0 < xtot then psel.map fun o => frac xtot dx2tot (xi k o) (dxi k o)
  else psel.map fun _ => (0, 0)

end Pdffit.Frac
