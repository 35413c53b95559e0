import Verif.Basic
import Verif.Model.Params
import Mathlib.Data.Finset.Basic
import Mathlib.Data.Finset.Range
import Mathlib.Order.Defs.LinearOrder
import Mathlib.Data.Finset.Filter
import Mathlib.Data.Finset.SDiff
import Mathlib.Data.Finset.Lattice.Basic

/-! # The engine seen from the API: phases, data sets, selections, variables (class `PdfFit`)

Pointers to phases and data sets are their positions; `reset` starts a new generation, so that a pointer kept from an
earlier generation is dangling and its use is undefined behaviour.

Simplified: the outcome of parsing a structure or data file is an argument of the operation (the readers are modelled
in other files); refinement and calculation are operations that change values in an arbitrary way that depends on the
engine only (`compute`); the `Fit` object is an arbitrary type with a fresh value. -/

namespace Pdffit.Api

/-- Per-atom variables (pdffit.cc 191-217). -/
inductive AVar where | x | y | z | u11 | u22 | u33 | u12 | u13 | u23 | occ
  deriving DecidableEq, Repr

/-- Other phase variables (pdffit.cc 175-189). -/
inductive PScal where | pscale | spdiameter | stepcut | delta2 | delta1 | sratio | rcut
  deriving DecidableEq, Repr

/-- Data set variables (pdffit.cc 234-236). -/
inductive DScal where | dscale | qdamp | qbroad
  deriving DecidableEq, Repr

/-- The variables of a phase. -/
inductive PSlot where
  | lat (j : ℕ)
  | atom (a : AVar) (ia : ℕ)
  | scal (s : PScal)
  deriving DecidableEq, Repr

/-- What the user writes: `lat(i)`, `x(i)`, …, `pscale`, `dscale` (pdffit.py 1071-1261). -/
inductive Name where
  | lat (i : ℤ)
  | atom (a : AVar) (i : ℤ)
  | scal (s : PScal)
  | data (s : DScal)
  deriving DecidableEq, Repr

/-- `Phase`: atom types (`atom[i].atom_type`), the lookup of its periodic table, variables. -/
structure Ph (K : Type) where
  ty : List ℕ
  look : String → Option ℕ
  val : PSlot → K

def Ph.natoms {K : Type} (p : Ph K) : ℕ := p.ty.length

/-- What a load function makes of its input: a data set before phases are selected. -/
structure Raw (K : Type) where
  val : DScal → K
  rmin : K
  rmax : K

/-- `DataSet`: `psel`, `phase_ignore_i`, `phase_ignore_j` (maps from phases to sets of atoms), range, variables. -/
structure Ds (K : Type) where
  psel : List (Option ℕ)
  ignI : ℕ → Finset ℕ
  ignJ : ℕ → Finset ℕ
  val : DScal → K
  rmin : K
  rmax : K
  rfmin : K
  rfmax : K

/-- The data of the engine, without the pointers handed to the user. `nphase`, `nset` are the lengths. -/
structure Core (K Φ : Type) where
  phases : List (Ph K)
  sets : List (Ds K)
  curphase : Option ℕ
  curset : Option ℕ
  fit : Φ

/-- The engine. `pref`: the members `lat`, `x`, …, `rcut`; they are assigned together, by `setphase` only, so one
record (generation, phase, number of atoms) describes them all; `none` before the first assignment. `dref`: the
members `dscale`, `qdamp`, `qbroad`, assigned by `setdata`. -/
structure St (K Φ : Type) extends Core K Φ where
  gen : ℕ
  pref : Option (ℕ × ℕ × ℕ)
  dref : Option (ℕ × ℕ)

/-- A newly created engine (pdffit.cc 62-66). -/
def init {K Φ : Type} (fit0 : Φ) : St K Φ := ⟨⟨[], [], none, none, fit0⟩, 0, none, none⟩

inductive Out (K : Type) where
  | unit
  | num (x : K)
  | count (n : ℕ)
  deriving DecidableEq

/-- API calls. -/
inductive Op (K Φ : Type) where
  | readStruct (r : Res (Ph K))
  | readData (r : Res (Raw K))
  | setphase (ip : ℤ)
  | setdata (is : ℤ)
  | psel (ip : ℤ)
  | pdesel (ip : ℤ)
  | selType (ip : ℤ) (ij : Char) (sym : String) (flag : Bool)
  | selIndex (ip : ℤ) (ij : Char) (aidx : ℤ) (flag : Bool)
  | selAll (ip : ℤ) (ij : Char)
  | selNone (ip : ℤ) (ij : Char)
  | range (is : ℤ) (rmin rmax : K)
  | reset
  | getvar (v : Name)
  | setvar (v : Name) (x : K)
  | numAtoms
  | numPhases
  | numDatasets
  | compute (g : Core K Φ → Res (Out K) × (ℕ → PSlot → K) × (ℕ → DScal → K) × Φ)

section
variable {K Φ : Type}

/-- `PdfFit::setphase` (pdffit.cc 162-219); `none` = unassignedError. -/
def setphase (s : St K Φ) (ip : ℤ) : Option (St K Φ) :=
  if ip < 1 ∨ (s.phases.length : ℤ) < ip then none
  else
    match s.phases[(ip - 1).toNat]? with
    | none => none
    | some p => some { s with curphase := some (ip - 1).toNat, pref := some (s.gen, (ip - 1).toNat, p.natoms) }

/-- `PdfFit::setdata` (pdffit.cc 221-237) -/
def setdata (s : St K Φ) (is : ℤ) : Option (St K Φ) :=
  if is < 1 ∨ (s.sets.length : ℤ) < is then none
  else some { s with curset := some (is - 1).toNat, dref := some (s.gen, (is - 1).toNat) }

/-- `DataSet::selphase` (pdf.cc 1114-1121): resize with null pointers if needed, then assign. -/
def Ds.selphase (d : Ds K) (ip : ℕ) : Ds K :=
  { d with psel := (d.psel ++ List.replicate (ip + 1 - d.psel.length) none).set ip (some ip) }

/-- `PdfFit::read_struct`, `read_struct_string` (stru.cc 128-169) after parsing. -/
def addPhase (s : St K Φ) (p : Ph K) : St K Φ :=
  let s1 : St K Φ := { s with phases := s.phases ++ [p], sets := s.sets.map fun d => d.selphase s.phases.length }
  (setphase s1 (s.phases.length + 1)).getD s1

/-- End of `alloc` and of the three data readers (pdf.cc 97-103, 1308-1316, 1335-1341, 1360-1367). -/
def addData (s : St K Φ) (r : Raw K) : St K Φ :=
  let d0 : Ds K := ⟨[], fun _ => ∅, fun _ => ∅, r.val, r.rmin, r.rmax, r.rmin, r.rmax⟩
  let d := (List.range s.phases.length).foldl (fun d ip => d.selphase ip) d0
  let s1 : St K Φ := { s with sets := s.sets ++ [d] }
  (setdata s1 (s.sets.length + 1)).getD s1

/-- Change of data set number `i`. -/
def St.onSet (s : St K Φ) (i : ℕ) (f : Ds K → Ds K) : St K Φ := { s with sets := s.sets.modify i f }

/-- `PdfFit::reset` (pdffit.cc 79-101): the pointers handed to the user are kept. -/
def reset (fit0 : Φ) (s : St K Φ) : St K Φ :=
  { s with phases := [], sets := [], curphase := none, curset := none, fit := fit0, gen := s.gen + 1 }

/-- `check_sel_args` (pdf.cc 1206-1229): the addressed data set and phase. -/
def checkSel (s : St K Φ) (ip : ℤ) (ij : Char) (aidx : ℤ) : Res (ℕ × ℕ × Ph K) :=
  match s.curset with
  | none => .err .unassigned
  | some i =>
    match s.sets[i]? with
    | none => .ub
    | some d =>
      if ip < 1 ∨ (d.psel.length : ℤ) < ip then .err .unassigned
      else if ij ≠ 'i' ∧ ij ≠ 'j' then .err .value
      else
        match d.psel[(ip - 1).toNat]? with
        | some (some k) =>
          match s.phases[k]? with
          | none => .ub
          | some p => if aidx < 1 ∨ (p.natoms : ℤ) < aidx then .err .value else .ok (i, k, p)
        | _ => .ub

/-- Change of `phase_ignore_i[ph]` or `phase_ignore_j[ph]`. -/
def Ds.onIgn (d : Ds K) (ij : Char) (k : ℕ) (f : Finset ℕ → Finset ℕ) : Ds K :=
  if ij = 'i' then { d with ignI := fun m => if m = k then f (d.ignI k) else d.ignI m }
  else { d with ignJ := fun m => if m = k then f (d.ignJ k) else d.ignJ m }

/-- The loop over all atoms of a type (pdf.cc 1253-1258). -/
def typeLoop (p : Ph K) (t : ℕ) (flag : Bool) (g : Finset ℕ) : Finset ℕ :=
  (List.range p.natoms).foldl
    (fun g a => if p.ty[a]? = some t then (if flag then g.erase a else insert a g) else g) g

/-- Where a user variable lives: generation, phase or data set, variable. -/
inductive Loc where
  | phase (gen ip : ℕ) (v : PSlot)
  | data (gen is : ℕ) (v : DScal)
  deriving DecidableEq, Repr

/-- `__getRef` (pdffit.py 1281-1305) with `getRefVar` (misc.cc 1564-1577); `none` is a null pointer. -/
def getRef (s : St K Φ) : Name → Res (Option Loc)
  | .lat i =>
    if ¬ fitsInt i then .err .overflow
    else match s.pref with
      | none => .err .unassigned
      | some (g, ip, _) => if 1 ≤ i ∧ i ≤ 6 then .ok (some (.phase g ip (.lat (i - 1).toNat))) else .err .value
  | .atom a i =>
    if ¬ fitsInt i then .err .overflow
    else match s.pref with
      | none => .err .unassigned
      | some (g, ip, n) =>
        if n = 0 then .err .unassigned
        else if 1 ≤ i ∧ i ≤ n then .ok (some (.phase g ip (.atom a (i - 1).toNat))) else .err .value
  | .scal v =>
    match s.pref with
    | none => .ok none
    | some (g, ip, _) => .ok (some (.phase g ip (.scal v)))
  | .data v =>
    match s.dref with
    | none => .ok none
    | some (g, is) => .ok (some (.data g is v))

/-- Read through a pointer. -/
def load (s : St K Φ) : Loc → Res K
  | .phase g ip v => if g = s.gen then (match s.phases[ip]? with | some p => .ok (p.val v) | none => .ub) else .ub
  | .data g is v => if g = s.gen then (match s.sets[is]? with | some d => .ok (d.val v) | none => .ub) else .ub

/-- Write through a pointer. -/
def store (s : St K Φ) (x : K) : Loc → Res (St K Φ)
  | .phase g ip v =>
    if g = s.gen ∧ ip < s.phases.length then
      .ok { s with phases := s.phases.modify ip fun p => { p with val := fun w => if w = v then x else p.val w } }
    else .ub
  | .data g is v =>
    if g = s.gen ∧ is < s.sets.length then
      .ok { s with sets := s.sets.modify is fun d => { d with val := fun w => if w = v then x else d.val w } }
    else .ub

/-- `getvar` (misc.cc 808-828) -/
def getvar (s : St K Φ) (v : Name) : Res K :=
  getRef s v >>= fun r => match r with | none => .err .unassigned | some l => load s l

/-- `setvar` (misc.cc 782-802) -/
def setvar (s : St K Φ) (v : Name) (x : K) : Res (St K Φ) :=
  getRef s v >>= fun r => match r with | none => .err .unassigned | some l => store s x l

/-- New values after a calculation or refinement. -/
def St.withVals (s : St K Φ) (pv : ℕ → PSlot → K) (dv : ℕ → DScal → K) (f : Φ) : St K Φ :=
  { s with
    phases := s.phases.mapIdx fun i p => { p with val := pv i }
    sets := s.sets.mapIdx fun i d => { d with val := dv i }
    fit := f }

variable [LinearOrder K]

/-- `DataSet::range` (pdf.cc 1640-1652) -/
def Ds.range (d : Ds K) (rmin rmax : K) : Option (Ds K) :=
  if d.rmin ≤ rmin ∧ rmin ≤ d.rmax ∧ rmax ≤ d.rmax ∧ rmin < rmax then some { d with rfmin := rmin, rfmax := rmax }
  else none

/-- The loop of `range(ALL)` (pdf.cc 1625): stops at the first data set that raises. -/
def rangeAll (rmin rmax : K) : List (Ds K) → Bool × List (Ds K)
  | [] => (true, [])
  | d :: l =>
    match d.range rmin rmax with
    | none => (false, d :: l)
    | some d' => ((rangeAll rmin rmax l).1, d' :: (rangeAll rmin rmax l).2)

/-- `PdfFit::range` (pdf.cc 1617-1638) -/
def range (s : St K Φ) (is : ℤ) (rmin rmax : K) : Res (Out K) × St K Φ :=
  if rmax ≤ rmin then (.err .value, s)
  else if is = ALL then
    ((if (rangeAll rmin rmax s.sets).1 then .ok .unit else .err .value), { s with sets := (rangeAll rmin rmax s.sets).2 })
  else if 1 ≤ is ∧ is ≤ s.sets.length then
    match s.sets[(is - 1).toNat]? with
    | none => (.ub, s)
    | some d =>
      match d.range rmin rmax with
      | none => (.err .value, s)
      | some d' => (.ok .unit, s.onSet (is - 1).toNat fun _ => d')
  else (.err .value, s)

/-- Outcome of a call that fails without changing anything. -/
def lift (s : St K Φ) (r : Res (St K Φ)) : Res (Out K) × St K Φ :=
  match r with
  | .ok s' => (.ok .unit, s')
  | .err e => (.err e, s)
  | .ub => (.ub, s)

/-- An optional new state; `none` = unassignedError. -/
def optSt (r : Option (St K Φ)) : Res (St K Φ) :=
  match r with
  | some s => .ok s
  | none => .err .unassigned

/-- One call: outcome and new state. -/
def step (fit0 : Φ) (s : St K Φ) : Op K Φ → Res (Out K) × St K Φ
  | .readStruct r => lift s (r >>= fun p => .ok (addPhase s p))
  | .readData r => lift s (r >>= fun p => .ok (addData s p))
  | .setphase ip => lift s (optSt (setphase s ip))
  | .setdata is => lift s (optSt (setdata s is))
  -- pdf.cc 1090-1112
  | .psel ip =>
    match s.curset with
    | none => (.err .unassigned, s)
    | some i =>
      if ip = ALL then (.ok .unit, s.onSet i fun d => { d with psel := (List.range s.phases.length).map some })
      else if ip < 1 ∨ (s.phases.length : ℤ) < ip then (.err .unassigned, s)
      else (.ok .unit, s.onSet i fun d => d.selphase (ip - 1).toNat)
  -- pdf.cc 1170-1193
  | .pdesel ip =>
    match s.curset with
    | none => (.err .unassigned, s)
    | some i =>
      if ip = ALL then (.ok .unit, s.onSet i fun d => { d with psel := List.replicate d.psel.length none })
      else if ip < 1 ∨ (s.phases.length : ℤ) < ip then (.err .unassigned, s)
      else
        match s.sets[i]? with
        | none => (.ub, s)
        | some d =>
          if (ip - 1).toNat < d.psel.length then
            (.ok .unit, s.onSet i fun d => { d with psel := d.psel.set (ip - 1).toNat none })
          else (.ub, s)
  -- pdf.cc 1245-1259
  | .selType ip ij sym flag =>
    lift s (checkSel s ip ij 1 >>= fun r =>
      match r.2.2.look sym with
      | none => .err .value
      | some t => .ok (s.onSet r.1 fun d => d.onIgn ij r.2.1 (typeLoop r.2.2 t flag)))
  -- pdf.cc 1261-1270
  | .selIndex ip ij aidx flag =>
    lift s (checkSel s ip ij aidx >>= fun r =>
      .ok (s.onSet r.1 fun d => d.onIgn ij r.2.1 fun g =>
        if flag then g.erase (aidx - 1).toNat else insert (aidx - 1).toNat g))
  -- pdf.cc 1272-1279
  | .selAll ip ij => lift s (checkSel s ip ij 1 >>= fun r => .ok (s.onSet r.1 fun d => d.onIgn ij r.2.1 fun _ => ∅))
  -- pdf.cc 1281-1288
  | .selNone ip ij =>
    lift s (checkSel s ip ij 1 >>= fun r =>
      .ok (s.onSet r.1 fun d => d.onIgn ij r.2.1 fun g => (List.range r.2.2.natoms).foldl (fun g a => insert a g) g))
  | .range is rmin rmax => range s is rmin rmax
  | .reset => (.ok .unit, reset fit0 s)
  | .getvar v => (getvar s v >>= fun x => .ok (.num x), s)
  | .setvar v x => lift s (setvar s v x)
  -- misc.cc: num_atoms
  | .numAtoms =>
    match s.curphase with
    | none => (.err .unassigned, s)
    | some k => ((match s.phases[k]? with | some p => .ok (.count p.natoms) | none => .ub), s)
  | .numPhases => (.ok (.count s.phases.length), s)
  | .numDatasets => (.ok (.count s.sets.length), s)
  | .compute g => ((g s.toCore).1, s.withVals (g s.toCore).2.1 (g s.toCore).2.2.1 (g s.toCore).2.2.2)

/-- A history of calls with their outcomes; undefined behaviour ends it. -/
def run (fit0 : Φ) (s : St K Φ) : List (Op K Φ) → List (Res (Out K)) × St K Φ
  | [] => ([], s)
  | o :: l =>
    match (step fit0 s o).1 with
    | .ub => ([.ub], s)
    | r => (r :: (run fit0 (step fit0 s o).2 l).1, (run fit0 (step fit0 s o).2 l).2)

end
end Pdffit.Api
