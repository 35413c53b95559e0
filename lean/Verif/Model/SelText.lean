import Verif.Model.Scat
import Verif.Model.StruNum

/-!
# Description of the selected atoms in a report (`DataSet::selectedAtomsString`, output.cc 119-153)

A type of atoms (`const AtomType*`, a node of the map of the phase's table) is its key, the symbol.
-/

namespace Pdffit.SelText
open Scat

/-- `atom_types` (stru.cc 209-217) -/
def typesOf (atoms : List Bytes) : List Bytes := atoms.foldl (fun l t => if t ∈ l then l else l ++ [t]) []

/-- `selidxstr` and `ignored_types` -/
structure Acc where
  sel : Bytes → Option (List Char)
  ign : Bytes → Bool

/-- One pass of the loop over the atoms (output.cc 134-144); `aidx` counts from zero. -/
def step (ignored : ℕ → Bool) (a : Acc) (x : Bytes × ℕ) : Acc :=
  if ignored x.2 then { a with ign := Function.update a.ign x.1 true }
  else { a with sel := Function.update a.sel x.1 (some ((a.sel x.1).getD [] ++ ' ' :: Stru.natStr (x.2 + 1))) }

/-- The loop over the atoms. -/
def loop (atoms : List Bytes) (ignored : ℕ → Bool) : Acc :=
  atoms.zipIdx.foldl (step ignored) ⟨fun _ => none, fun _ => false⟩

/-- `toupper(symbol)` (StringUtils.cc 26-33) -/
def symStr (t : Bytes) : List Char := t.map fun c => Char.ofNat (upper c)

/-- The text of a selected phase for one of the two sets of ignored atoms (output.cc 145-152). -/
def selString (atoms : List Bytes) (ignored : ℕ → Bool) : List Char :=
  let a := loop atoms ignored
  (typesOf atoms).flatMap fun t =>
    match a.sel t with
    | none => []
    | some s => ' ' :: ' ' :: symStr t ++ (if a.ign t then s else [])

end Pdffit.SelText
