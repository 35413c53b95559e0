import Verif.Model.Config
import Verif.Model.DerivMat
import Verif.Model.RefineReal
import Verif.Model.FParse
import Verif.Model.Builtins

/-!
# The fit as a whole: constraints, PDF, derivatives and least squares (fit.cc 174-342, pdflsmin.cc 244-297)

The refinement machine (`Model/Refine.lean`) with constraints (`Model/Constr.lean`) leaves the calculation of the curve open
(`CStatic.det`). Here it is filled in with the calculation of the PDF (`Model/Determine.lean`) and of the matrices `fit_a`, `fit_b`
(`Model/DerivMat.lean`), for all phases and data sets.

* Numbers are real. When a curve, or a derivative with respect to a refined variable, is not a number, the code carries on with
  NaN. Here the evaluation then stops with `Exc.other`; the theorems exclude the case.
* `.ub` of the parts is turned into `Exc.other` too; it is shown not to occur.
-/

namespace Pdffit.Full
open Geom Det Deriv Layout Conf DMat _root_.Pdffit.Parser

/-- A data set with the selection of atoms of every phase (`none` for phases that are not selected) and the scattering factors of the
atoms for its radiation. -/
structure SetIn where
  d : DSet
  sel : List (Option Sel)
  sf : ℕ → ℕ → ℝ

/-- Phases and data sets. Members of the phases that are refinable are not used: they are read from the variables. `addr` gives
the address of a variable. -/
structure Input where
  addr : RVar → ℕ
  phases : List PPhase
  sets : List SetIn

/-- What `determine` leaves in a data set: `fit_a` and the points of the fit range. -/
abbrev Out := Mat ℝ × List (Pt ℝ)

namespace Input
variable (I : Input)

def natoms : List ℕ := I.phases.map fun ph => ph.atom.length
def nset : ℕ := I.sets.length

/-- The phases for one data set. -/
def template (s : SetIn) : List (Option (PPhase × Sel)) :=
  I.phases.mapIdx fun ip ph => (s.sel.getD ip none).map fun σ =>
    ({ ph with atom := ph.atom.mapIdx fun ia a => { a with sf := s.sf ip ia } }, σ)

/-- The value of a variable. -/
def val (v : ℕ → ℝ) : RVar → ℝ := fun x => v (I.addr x)

/-- Data set number `is` with its refinable members. -/
def dat (v : ℕ → ℝ) (is : ℕ) (s : SetIn) : Data := dataFrom (I.val v) is s.d.D

/-- The selected phases of data set `s` with their refinable members. -/
def sel (v : ℕ → ℝ) (s : SetIn) : List (Option (PPhase × Sel)) := selFrom (I.val v) (I.template s)

/-- `icc[i]` for the coordinates of atoms (fit.cc 314-321). -/
def icc (a : ℕ) : Option ℝ :=
  match (setup I.natoms I.nset).slots.find? fun v => I.addr v == a with
  | some (.pos ip _ k) => (I.phases[ip]?).map fun ph => (ph.icc k : ℝ)
  | _ => none

/-- `fit_setup` stored the offsets; `rv` is `fit.refvar`. -/
def lay (rv : List (Option ℕ)) : Lay where
  phaseOff := (setup I.natoms I.nset).phaseOff
  atomOff := (setup I.natoms I.nset).atomOff
  setOff := (setup I.natoms I.nset).setOff
  refvar := rv

/-- A refined variable is divided by although it vanishes. -/
def Zero (rv : List (Option ℕ)) (v : ℕ → ℝ) (is : ℕ) (s : SetIn) : Prop :=
  ∃ (k c : ℕ) (x : RVar), (setup I.natoms I.nset).slots[k]? = some x ∧ rv[k]? = some (some c) ∧ Div0 (I.dat v is s) is x (I.sel v s)

/-- One point of the fit range, as read by `mrqcof` (pdflsmin.cc 269-277). -/
noncomputable def point (s : SetIn) (pdftot : List ℝ) (B : Mat ℝ) (i : ℤ) : Res (List (Pt ℝ)) := do
  let w ← readAt s.d.wic i
  let o ← readAt s.d.obs i
  let m ← readAt pdftot i
  let r ← collect (fun j => getZ B i j >>= fun x => .ok [x]) (List.range B.cols)
  .ok [⟨w, o, m, fun j => r.getD j 0⟩]

open Classical in
/-- `determine(true, ...)` of data set `is` (pdf.cc 154-413, fit.cc 361-560) and the points that `mrqcof` reads. -/
noncomputable def calcSet (v : ℕ → ℝ) (rv : List (Option ℕ)) (vref : List Bool) (dvdp : Mat ℝ) (is : ℕ) (s : SetIn) (old : Mat ℝ) :
    Res (Option Out) := do
  let t ← determine (I.dat v is s) (I.sel v s)
  let A ← fitAMat (I.lay rv) vref old (I.dat v is s) is (I.sel v s)
  let B ← A.mul dvdp
  match t with
  | none => .ok none
  | some t =>
    if I.Zero rv v is s then .ok none
    else do
      let l ← collect (point s ((List.range ((I.dat v is s).ncmax + 1).toNat).map fun n : ℕ => t n) B)
        (grid (I.dat v is s).nfmin (I.dat v is s).nfmax)
      .ok (some (A, l))

/-- All data sets in their order (fit.cc 331-341), from number `is` on. -/
noncomputable def calcSets (v : ℕ → ℝ) (rv : List (Option ℕ)) (vref : List Bool) (dvdp : Mat ℝ) :
    ℕ → List SetIn → List Out → List Out × Option Exc
  | _, [], _ => ([], none)
  | is, s :: l, c =>
    match I.calcSet v rv vref dvdp is s (c.head?.getD (⟨0, 0, []⟩, [])).1 with
    | .ok (some o) =>
      let r := calcSets v rv vref dvdp (is + 1) l c.tail
      (o :: r.1, r.2)
    | .err e => (c, some e)
    | _ => (c, some .other)

open Classical in
/-- `lattice()` of all phases, `determine` of all data sets (fit.cc 324-341). -/
noncomputable def det (v : ℕ → ℝ) (rv : List (Option ℕ)) (vref : List Bool) (dvdp : Mat ℝ) (c : List Out) : List Out × Option Exc :=
  if ∃ ip, ip < I.phases.length ∧ ∀ m, lattice ⟨fun k => I.val v (.a0 ip k), fun k => I.val v (.win ip k)⟩ ≠ .ok m then
    (c, some .structure)
  else I.calcSets v rv vref dvdp 0 I.sets c

/-- The engine with its constraints and its PDF. -/
noncomputable def static (dmax : ℝ) : CStatic (List Char) ℝ (List Out) where
  parse := fparse builtinTab
  icc := I.icc
  slots := (setup I.natoms I.nset).slots.map I.addr
  npar := getnpar I.natoms I.nset
  det := I.det
  pts := List.map Prod.snd
  dmax := dmax

end Input
end Pdffit.Full
