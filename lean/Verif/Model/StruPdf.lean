import Verif.Model.StruNum
import Verif.Model.Determine

/-!
# The phase of a structure

The members that `read_struct` sets (`Model/Stru.lean`: lists in the order of the file) as used by the calculation of the PDF (`Model/Determine.lean`).
-/

namespace Pdffit.Stru
open Det Geom

def real (x : Num) : ℝ := ((if x.neg then -x.mag else x.mag : ℚ) : ℝ)

/-- Number `k` of a list. -/
def num (l : List Num) (k : ℕ) : ℝ := real (l.getD k ⟨false, 0⟩)

/-- `a0` and `win` (stru.cc 344-356). -/
def cellOf (h : Hdr Num) : Cell := ⟨fun k => num h.cell k, fun k => num h.cell (3 + k)⟩

/-- An atom (Atom.cc 80-101); `sf` is the scattering factor of its element. -/
def atomOf (sf : Entry → ℝ) (a : Entry × List Num) : PAtom where
  pos k := num a.2 k
  occ := num a.2 3
  u := ![num a.2 8, num a.2 9, num a.2 10, num a.2 14, num a.2 15, num a.2 16]
  sf := sf a.1

/-- The phase (stru.cc 187-417). -/
def phaseOf (sf : Entry → ℝ) (s : Stru Num Entry) : PPhase where
  cell := cellOf s.hdr
  icc k := (s.hdr.ncell.getD k 0).toNat
  atom := s.atoms.map (atomOf sf)
  delta2 := num s.hdr.sharp 0
  delta1 := num s.hdr.sharp 1
  sratio := num s.hdr.sharp 2
  rcut := num s.hdr.sharp 3
  stepcut := real s.hdr.stepcut
  spdiameter := real s.hdr.spdiameter
  pscale := real s.hdr.pscale

/-- `lattice()` after the header (stru.cc 232): it throws for an impossible cell. -/
noncomputable def latOf (h : Hdr Num) : Res Unit := lattice (cellOf h) >>= fun _ => .ok ()

end Pdffit.Stru
