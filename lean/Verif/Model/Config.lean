import Verif.Model.Deriv
import Verif.Model.Constr

/-!
# From parameters to the curve (`PdfFit::fit_theory`, fit.cc 303-342)

The refinable variables are members of atoms, phases and data sets; constraints write to them through pointers. Here a memory
`val` gives the value of every variable, and the members are read from it. `rcut`, `stepcut`, the numbers of cells and
the ranges of the data are not refinable and are kept.
-/

namespace Pdffit.Conf
open Geom Det Deriv Layout

/-- Atom `ia` of phase `ip` (the members registered in fit.cc 226-247). -/
def atomFrom (val : RVar → ℝ) (ip ia : ℕ) (a : PAtom) : PAtom where
  pos := fun k => val (.pos ip ia k)
  occ := val (.occ ip ia)
  u := fun k => val (.u ip ia k)
  sf := a.sf

/-- Phase `ip` (the members registered in fit.cc 200-247). -/
def phaseFrom (val : RVar → ℝ) (ip : ℕ) (ph : PPhase) : PPhase where
  cell := ⟨fun k => val (.a0 ip k), fun k => val (.win ip k)⟩
  icc := ph.icc
  atom := ph.atom.mapIdx (atomFrom val ip)
  delta2 := val (.delta2 ip)
  delta1 := val (.delta1 ip)
  rcut := ph.rcut
  sratio := val (.sratio ip)
  stepcut := ph.stepcut
  spdiameter := val (.spdiameter ip)
  pscale := val (.pscale ip)

/-- Data set `is` (the members registered in fit.cc 250-262). -/
def dataFrom (val : RVar → ℝ) (is : ℕ) (D : Data) : Data :=
  { D with dscale := val (.dscale is), qdamp := val (.qdamp is), qbroad := val (.qbroad is) }

/-- The phases with the selections of one data set. -/
def selFrom (val : RVar → ℝ) (psel : List (Option (PPhase × Sel))) : List (Option (PPhase × Sel)) :=
  psel.mapIdx fun ip x => x.map fun y => (phaseFrom val ip y.1, y.2)

section
variable {F : Type}

/-- The variables after `fill_variables` and the wrapping of coordinates (fit.cc 307-322). -/
noncomputable def varsAt (parse : FParser F ℝ) (icc : ℕ → Option ℝ) (cons : List (Constr F)) (vars : ℕ → ℝ) (dvdp : Mat ℝ)
    (par : ParStore ℝ) : ℕ → ℝ :=
  wrapVars icc (fillVariables parse par cons vars dvdp).2.1

open Classical in
/-- `fit_theory` for data set `is` (fit.cc 303-342): fill the variables, wrap the coordinates, `lattice()` of the phases, calculate the
curve. Only the phases of this data set are considered. `addr v` is the address of the variable `v`. -/
noncomputable def curveAt (parse : FParser F ℝ) (addr : RVar → ℕ) (icc : ℕ → Option ℝ) (cons : List (Constr F)) (vars : ℕ → ℝ)
    (dvdp : Mat ℝ) (D : Data) (is : ℕ) (psel : List (Option (PPhase × Sel))) (par : ParStore ℝ) : Res (Option (ℤ → ℝ)) :=
  match (fillVariables parse par cons vars dvdp).2.2.2 with
  | some (.exc e) => .err e
  | some .ub => .ub
  | none =>
    let val := fun v => varsAt parse icc cons vars dvdp par (addr v)
    if ∃ x, some x ∈ selFrom val psel ∧ ∀ m, lattice x.1.cell ≠ .ok m then .err .structure
    else determine (dataFrom val is D) (selFrom val psel)

end
end Pdffit.Conf
