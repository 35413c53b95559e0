import Verif.Model.Scat

/-! # Lists of atoms and of elements (stru.cc 186-227, 396-417, pdf.cc 1195-1204, misc.cc 2008-2086, scatlen.cc 36-72)

On top of the tables of `Model/Scat.lean`: `atom[i].atom_type` points into the local table of the phase, so it is a key of
this table. Simplified: of a structure only the labels of the atoms are kept; the number format of `operator<<` is an
arbitrary function. -/

namespace Pdffit.AtomList
open Scat

/-- The engine: tables, and for every phase the keys `atom[i].atom_type` and `atom_types`. -/
structure St where
  scat : Scat.St
  atoms : List (List Bytes)
  types : List (List Bytes)

/-- Calls: those of `Model/Scat.lean`, and `reset()`. -/
inductive Op where
  | scat (o : Scat.Op)
  | clear

/-- `Phase::read_atoms`, `reassign_atom_type` (stru.cc 396-417) with the lookup of Atom.cc 62, 85: the keys of the atoms; both tables
are filled on the way. -/
def readKeys (p : PT) : Local → Local → List Bytes → Local × Res (Local × List Bytes)
  | c, l, [] => (c, .ok (l, []))
  | c, l, a :: as =>
    match llookup p c a with
    | .ok x =>
      match local_symbol p l x.1.symbol with
      | .ok y =>
        match readKeys p x.2 y.2 as with
        | (c', .ok (l', ks)) => (c', .ok (l', x.1.symbol :: ks))
        | (c', .err e) => (c', .err e)
        | (c', .ub) => (c', .ub)
      | .err e => (x.2, .err e)
      | .ub => (x.2, .ub)
    | .err e => (c, .err e)
    | .ub => (c, .ub)

/-- The loop that fills `atom_types` (stru.cc 209-217). -/
def uniq : List Bytes → List Bytes → List Bytes
  | acc, [] => acc
  | acc, a :: as => uniq (if acc.count a = 0 then acc ++ [a] else acc) as

/-- One call. The phase is added after reading (stru.cc 128-169); `reset()` (pdffit.cc 79-101) deletes the phases. -/
def step (p : PT) (s : St) : Op → Res (Option Rat) × St
  | .clear => (.ok none, ⟨⟨[], s.scat.common, none⟩, [], []⟩)
  | .scat (.newPhase labels) =>
    match readKeys p s.scat.common (fun _ => none) labels with
    | (c, .ok (l, ks)) =>
      (.ok none, ⟨⟨s.scat.phases ++ [l], c, some s.scat.phases.length⟩, s.atoms ++ [ks], s.types ++ [uniq [] ks]⟩)
    | (c, .err e) => (.err e, { s with scat := { s.scat with common := c } })
    | (c, .ub) => (.ub, { s with scat := { s.scat with common := c } })
  | .scat o => ((Scat.step p s.scat o).1, { s with scat := (Scat.step p s.scat o).2 })

def run (p : PT) (s : St) (l : List Op) : St := l.foldl (fun s o => (step p s o).2) s

/-- A new engine. -/
def St.init (common : Local) : St := ⟨Scat.St.init common, [], []⟩

/-- `PdfFit::getphase` (pdf.cc 1195-1204) -/
def getphase (s : St) (ip : Int) : Res Nat :=
  if ip < 0 ∨ (s.scat.phases.length : Int) < ip then .err .unassigned
  else if 0 < ip then .ok (ip - 1).toNat
  else
    match s.scat.cur with
    | some k => .ok k
    | none => .err .unassigned

/-- The optional argument: `get_atoms()` calls the binding without `ip`, which is then 0 (pdffit.py 644-648, misc.cc 2014). -/
def arg : Option Int → Int
  | none => 0
  | some ip => ip

/-- `toupper(atom_type->symbol)` through a pointer into the local table. -/
def usymbol (l : Local) (k : Bytes) : Res Bytes :=
  match l k with
  | some e => .ok (e.symbol.map upper)
  | none => .ub

/-- The symbols of a list of pointers. -/
def usymbols (l : Local) : List Bytes → Res (List Bytes)
  | [] => .ok []
  | k :: ks => do
    let u ← usymbol l k
    let us ← usymbols l ks
    .ok (u :: us)

/-- A list of pointers of phase `k` and the table they point into. -/
def ofPhase (s : St) (lists : List (List Bytes)) (k : Nat) : Res (List Bytes) :=
  match s.scat.phases[k]?, lists[k]? with
  | some l, some ks => usymbols l ks
  | _, _ => .ub

/-- `get_atoms` (misc.cc 2008-2034) -/
def get_atoms (s : St) (ip : Option Int) : Res (List Bytes) := getphase s (arg ip) >>= ofPhase s s.atoms

/-- `get_atom_types` (misc.cc 2063-2086) -/
def get_atom_types (s : St) (ip : Option Int) : Res (List Bytes) := getphase s (arg ip) >>= ofPhase s s.types

/-- `num_atoms` (misc.cc 2040-2057) -/
def num_atoms (s : St) : Res Nat :=
  match s.scat.cur with
  | none => .err .unassigned
  | some k =>
    match s.atoms[k]? with
    | some ks => .ok ks.length
    | none => .ub

/-- "Neutron scattering length for ", "X-ray scattering factor for ", " :  " (scatlen.cc 60-69). -/
structure Words where
  neutron : Bytes
  xray : Bytes
  colon : Bytes

/-- `Phase::get_scat_string(char, const AtomType*)` (scatlen.cc 54-72) for an entry; `fmt` is the format of numbers. -/
def scatLine (w : Words) (fmt : Rat → Bytes) (tp : Char) (e : AtomType) : Res Bytes := do
  let v ← e.sf tp
  .ok ((if tp = 'n' ∨ tp = 'N' then w.neutron ++ e.symbol.map upper ++ w.colon
    else if tp = 'x' ∨ tp = 'X' then w.xray ++ e.symbol.map upper ++ w.colon else []) ++ fmt v)

/-- `Phase::get_scat_string(char)` (scatlen.cc 36-45) -/
def scatLines (w : Words) (fmt : Rat → Bytes) (tp : Char) (l : Local) : List Bytes → Res Bytes
  | [] => .ok []
  | k :: ks =>
    match l k with
    | none => .ub
    | some e => do
      let t ← scatLine w fmt tp e
      let ts ← scatLines w fmt tp l ks
      .ok (t ++ ts)

/-- `get_scat_string` (misc.cc 1447-1471): of the current phase; `runtime_error` becomes `ValueError`. -/
def get_scat_string (w : Words) (fmt : Rat → Bytes) (s : St) (tp : Char) : Res Bytes :=
  match s.scat.cur with
  | none => .err .unassigned
  | some k =>
    match s.scat.phases[k]?, s.types[k]? with
    | some l, some ks => toValue (scatLines w fmt tp l ks)
    | _, _ => .ub

end Pdffit.AtomList
