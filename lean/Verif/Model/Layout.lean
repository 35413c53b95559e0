import Verif.Model.Constr

/-! # Slots of the refinable variables: `PdfFit::fit_setup` (fit.cc 174-285)

`fit.refvar` gets one entry per refinable variable.  The model keeps the variable that belongs to each entry;
the entry itself is `vfind` of the address of that variable (`Constr.fitSetup`). -/

namespace Pdffit.Layout

/-- The refinable variables (pdffit.h 400-600, Atom.h): of phase `ip`, of atom `ia` in phase `ip`, of data set `is`. -/
inductive RVar where
  | a0 (ip : ℕ) (j : Fin 3)
  | win (ip : ℕ) (j : Fin 3)
  | delta2 (ip : ℕ)
  | delta1 (ip : ℕ)
  | pscale (ip : ℕ)
  | spdiameter (ip : ℕ)
  | sratio (ip : ℕ)
  | pos (ip ia : ℕ) (j : Fin 3)
  | u (ip ia : ℕ) (j : Fin 6)
  | occ (ip ia : ℕ)
  | dscale (is : ℕ)
  | qdamp (is : ℕ)
  | qbroad (is : ℕ)
  deriving DecidableEq, Repr

/-- The vectors filled by `fit_setup`: variables in the order of `refvar`, `phase.offset`, `atom.offset` (per
phase), `ds.offset`. -/
structure Setup where
  slots : List RVar := []
  phaseOff : List ℕ := []
  atomOff : List (List ℕ) := []
  setOff : List ℕ := []
  deriving DecidableEq, Repr

/-- fit.cc 200-224 -/
def globals (ip : ℕ) : List RVar :=
  [.a0 ip 0, .a0 ip 1, .a0 ip 2, .win ip 0, .win ip 1, .win ip 2,
    .delta2 ip, .delta1 ip, .pscale ip, .spdiameter ip, .sratio ip]

/-- fit.cc 232-245 -/
def atomVars (ip ia : ℕ) : List RVar :=
  [.pos ip ia 0, .pos ip ia 1, .pos ip ia 2,
    .u ip ia 0, .u ip ia 1, .u ip ia 2, .u ip ia 3, .u ip ia 4, .u ip ia 5, .occ ip ia]

/-- fit.cc 255-262 -/
def setVars (is : ℕ) : List RVar := [.dscale is, .qdamp is, .qbroad is]

/-- A loop that notes the size of `refvar` as the offset and then pushes entries (fit.cc 226-246, 249-263). -/
def pushAll {α : Type} (f : α → List RVar) (l : List α) (s : List RVar × List ℕ) : List RVar × List ℕ :=
  l.foldl (fun s a => (s.1 ++ f a, s.2 ++ [s.1.length])) s

/-- The body of the loop over phases (fit.cc 194-247): phase number `ip` with `n` atoms. -/
def addPhase (s : Setup) (p : ℕ × ℕ) : Setup :=
  let r := pushAll (atomVars p.2) (List.range p.1) (s.slots ++ globals p.2, [])
  { s with slots := r.1, phaseOff := s.phaseOff ++ [s.slots.length], atomOff := s.atomOff ++ [r.2] }

/-- `fit_setup` for phases with the given numbers of atoms and `nset` data sets (fit.cc 191-263). -/
def setup (natoms : List ℕ) (nset : ℕ) : Setup :=
  let s := natoms.zipIdx.foldl addPhase {}
  let r := pushAll setVars (List.range nset) (s.slots, [])
  { s with slots := r.1, setOff := r.2 }

/-- `getnpar()` (pdffit.h 253); `total` is the sum of the numbers of atoms (stru.cc 140). -/
def getnpar (natoms : List ℕ) (nset : ℕ) : ℕ := nset * 3 + natoms.length * 11 + natoms.sum * 10

/-- `fit.refvar` for the constraints `cons`; `addr` is the address of a variable (fit.cc 202-262). -/
def refvar {F : Type} (addr : RVar → ℕ) (cons : List (Constr F)) (natoms : List ℕ) (nset : ℕ) : List (Option ℕ) :=
  (setup natoms nset).slots.map fun v => vfind cons (addr v)

end Pdffit.Layout
