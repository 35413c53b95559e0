import Verif.Model.PTable

/-!
# Element lookup and scattering factors (PeriodicTable.cc, LocalPeriodicTable.cc, scatlen.cc)

Strings are lists of character codes. Letters are those of the "C" locale. `std::map` is a function to `Option`; pointers into a
map are keys, since nodes are never erased. A failed lookup in `PeriodicTable` is a `runtime_error`, which
`LocalPeriodicTable` turns into `ValueError`.
-/

namespace Pdffit.Scat

/-- `isalpha` -/
def isAlpha (c : Nat) : Bool := (65 ≤ c && c ≤ 90) || (97 ≤ c && c ≤ 122)
/-- `tolower` -/
def lower (c : Nat) : Nat := if 65 ≤ c ∧ c ≤ 90 then c + 32 else c
/-- `toupper` -/
def upper (c : Nat) : Nat := if 97 ≤ c ∧ c ≤ 122 then c - 32 else c

/-- Standard case (PeriodicTable.cc 87-93): the first letter in upper case, everything after it in lower case. -/
def norm : Bytes → Bytes
  | [] => []
  | c :: s => if isAlpha c then upper c :: s.map lower else c :: norm s

/-- The map filled by `index[key(e)] = e` for all entries in their order (PeriodicTable.cc 191-196). -/
def index (key : AtomType → Bytes) (t : List AtomType) : Bytes → Option AtomType :=
  t.foldl (fun m e s => if s = key e then some e else m s) fun _ => none

/-- The indices of `PeriodicTable`. -/
structure PT where
  symbol_index : Bytes → Option AtomType
  name_index : Bytes → Option AtomType

/-- `PeriodicTable::lookup` (PeriodicTable.cc 85-104) -/
def PT.lookup (p : PT) (s : Bytes) : Res AtomType :=
  match p.symbol_index (norm s) with
  | some e => .ok e
  | none =>
    match p.name_index (norm s) with
    | some e => .ok e
    | none => .err .runtime

/-- `PeriodicTable::symbol` (PeriodicTable.cc 72-83) -/
def PT.symbol (p : PT) (s : Bytes) : Res AtomType :=
  match p.symbol_index s with
  | some e => .ok e
  | none => .err .runtime

/-- `symbol_index[s] = e` -/
def PT.setSymbol (p : PT) (s : Bytes) (e : AtomType) : PT :=
  { p with symbol_index := fun x => if x = s then some e else p.symbol_index x }

/-- `PeriodicTable::init` (PeriodicTable.cc 182-200). "D", "T", "2-H", "3-H" as character codes. -/
def PT.init (t : List AtomType) : Res PT := do
  let p0 : PT := ⟨index AtomType.symbol t, index AtomType.name t⟩
  let d ← p0.lookup [68]
  let p1 := p0.setSymbol [50, 45, 72] d
  let tr ← p1.lookup [84]
  .ok (p1.setSymbol [51, 45, 72] tr)

/-- `AtomType::sf` (AtomType.h 56-73) -/
def AtomType.sf (e : AtomType) (tp : Char) : Res Rat :=
  if tp = 'x' ∨ tp = 'X' then .ok e.xsf
  else if tp = 'n' ∨ tp = 'N' then .ok e.nsf
  else .err .runtime

/-- `_local_table` of a `LocalPeriodicTable` -/
abbrev Local := Bytes → Option AtomType

/-- `catch (runtime_error e) { throw ValueError(e.what()); }` -/
def toValue {α : Type} : Res α → Res α
  | .err .runtime => .err .value
  | r => r

def Local.put (l : Local) (s : Bytes) (e : AtomType) : Local := fun x => if x = s then some e else l x

/-- `LocalPeriodicTable::local_symbol` (LocalPeriodicTable.cc 127-143): the entry and the table, to which it has been copied. -/
def local_symbol (p : PT) (l : Local) (s : Bytes) : Res (AtomType × Local) :=
  match l s with
  | some e => .ok (e, l)
  | none => do
    let e ← toValue (p.symbol s)
    .ok (e, l.put s e)

/-- `LocalPeriodicTable::lookup` (LocalPeriodicTable.cc 73-84) -/
def llookup (p : PT) (l : Local) (s : Bytes) : Res (AtomType × Local) := do
  let e ← toValue (p.lookup s)
  local_symbol p l e.symbol

/-- `LocalPeriodicTable::setXsf`, `setNsf` (LocalPeriodicTable.cc 110-121), with the change of the entry as argument. -/
def lset (p : PT) (l : Local) (s : Bytes) (f : AtomType → AtomType) : Res Local := do
  let x ← local_symbol p l s
  .ok (x.2.put s (f x.1))

/-- `LocalPeriodicTable::reset` (LocalPeriodicTable.cc 93-107) -/
def lreset (p : PT) (l : Local) (s : Bytes) : Res Local := do
  let e ← toValue (p.symbol s)
  .ok (match l s with
    | some _ => l.put s e
    | none => l)

/-- `Phase::set_scat` (scatlen.cc 74-94). The output of the new value is left out; it cannot fail here. -/
def set_scat (p : PT) (l : Local) (tp : Char) (pat : Bytes) (v : Rat) : Res Local := do
  let x ← llookup p l pat
  if tp = 'n' ∨ tp = 'N' then lset p x.2 x.1.symbol fun e => { e with nsf := v }
  else if tp = 'x' ∨ tp = 'X' then lset p x.2 x.1.symbol fun e => { e with xsf := v }
  else .err .runtime

/-- `Phase::reset_scat` (scatlen.cc 97-105), with the output left out. -/
def reset_scat (p : PT) (l : Local) (pat : Bytes) : Res Local := do
  let x ← llookup p l pat
  lreset p x.2 x.1.symbol

/-- The phases' local tables, the common instance of the local table, the current phase. -/
structure St where
  phases : List Local
  common : Local
  cur : Option Nat

/-- Operations. `newPhase` stands for reading a structure with the given labels of atoms, otherwise
correct; it becomes the current phase. `touch` is any other function that looks up
an element in the table of a phase, such as `selectAtomType` or `bond_length_types`. -/
inductive Op where
  | set (tp : Char) (pat : Bytes) (v : Rat)
  | reset (pat : Bytes)
  | get (tp : Char) (pat : Bytes)
  | newPhase (atoms : List Bytes)
  | setphase (k : Nat)
  | touch (k : Nat) (pat : Bytes)

/-- The lookups for the atoms of a new phase with table `l`: each label is looked up in the common table `c` (Atom.cc 62, 85), then the entry is
replaced by the one of the phase (stru.cc 399-417). An unknown label throws and the phase is deleted (stru.cc 134-138). The common
table afterwards, and the table of the phase. -/
def readAtoms (p : PT) : Local → Local → List Bytes → Local × Res Local
  | c, l, [] => (c, .ok l)
  | c, l, a :: as =>
    match llookup p c a with
    | .ok x =>
      match local_symbol p l x.1.symbol with
      | .ok y => readAtoms p x.2 y.2 as
      | .err e => (x.2, .err e)
      | .ub => (x.2, .ub)
    | .err e => (c, .err e)
    | .ub => (c, .ub)

/-- The table after `lookup(pat)`, which may have added a copy of the standard entry. -/
def looked (p : PT) (l : Local) (pat : Bytes) : Local :=
  match llookup p l pat with
  | .ok x => x.2
  | _ => l

/-- New state and result, `none` for a call without value. After a failure the table is `l'`. -/
def St.withLocal (s : St) (k : Nat) (l' : Local) (r : Res Local) : Res (Option Rat) × St :=
  match r with
  | .ok l => (.ok none, { s with phases := s.phases.set k l })
  | .err e => (.err e, { s with phases := s.phases.set k l' })
  | .ub => (.ub, s)

/-- `PdfFit::get_scat` (pdffit.cc 356-370): the value, and the table that was used. -/
def get_scat (p : PT) (l : Local) (tp : Char) (pat : Bytes) : Res (Rat × Local) := do
  let x ← llookup p l pat
  let v ← toValue (x.1.sf tp)
  .ok (v, x.2)

/-- The current phase and its table. -/
def St.curLocal (s : St) : Option (Nat × Local) := s.cur.bind fun k => (s.phases[k]?).map fun l => (k, l)

/-- The value of a call of `get_scat`. -/
def scatValue (r : Res (Rat × Local)) : Res (Option Rat) := r >>= fun x => .ok (some x.1)

/-- A structure has been read or not. -/
def St.addPhase (s : St) : Local × Res Local → Res (Option Rat) × St
  | (c, .ok l) => (.ok none, { phases := s.phases ++ [l], common := c, cur := some s.phases.length })
  | (c, .err e) => (.err e, { s with common := c })
  | (c, .ub) => (.ub, { s with common := c })

/-- One call. -/
def step (p : PT) (s : St) : Op → Res (Option Rat) × St
  | .set tp pat v =>
    match s.curLocal with
    | some (k, l) => s.withLocal k (looked p l pat) (set_scat p l tp pat v)
    | none => (.err .unassigned, s)
  | .reset pat =>
    match s.curLocal with
    | some (k, l) => s.withLocal k (looked p l pat) (reset_scat p l pat)
    | none => (.err .unassigned, s)
  | .get tp pat =>
    match s.curLocal with
    | some (k, l) => (scatValue (get_scat p l tp pat), { s with phases := s.phases.set k (looked p l pat) })
    | none => (scatValue (get_scat p s.common tp pat), { s with common := looked p s.common pat })
  | .newPhase atoms => s.addPhase (readAtoms p s.common (fun _ => none) atoms)
  | .setphase k => if k < s.phases.length then (.ok none, { s with cur := some k }) else (.err .unassigned, s)
  | .touch k pat =>
    match s.phases[k]? with
    | some l => s.withLocal k l ((llookup p l pat) >>= fun x => .ok x.2)
    | none => (.err .unassigned, s)

def run (p : PT) (s : St) (l : List Op) : St := l.foldl (fun s o => (step p s o).2) s

/-- A new engine: no phases; the common table is whatever earlier engines of the process have left in it. -/
def St.init (common : Local) : St := ⟨[], common, none⟩

end Pdffit.Scat
