import Verif.Model.Bonds
import Verif.Model.ReportText

/-!
# Text shown by `blen` and `bang` (pdffit.py 48-65, 812-833, 850-914)

* The calls of the extension module are a parameter `Eng`; `engOf` gives those of a phase of `Model/Bonds.lean`.
* Printing is a list of characters; a Python exception is `Res.err`. An error is raised before anything is printed.
* The readers (`readLabel`, `readBond`, `readListing`, `readAngle`) are not part of the program; they say what somebody who knows the layout can read
  in the text.
-/

namespace Pdffit.BText
open Stru RText
open DataRead (isSpace)

/-- One element of the dictionary of `bond_length_types` (misc.cc 1412-1424): `dij`, `ddij`, and `ij1`. -/
structure Bond where
  d : Val
  dd : Val
  i : ℤ
  j : ℤ
  deriving DecidableEq

/-- What `blen` and `bang` call. -/
structure Eng where
  /-- `get_atom_types()` -/
  types : Res (List (List Char))
  /-- `get_atoms()` -/
  atoms : Res (List (List Char))
  /-- `bond_length_types(a1, a2, lb, ub)` for the given boundaries -/
  bonds : List Char → List Char → Res (List Bond)
  /-- `bond_length_atoms(i, j)` -/
  bond : ℤ → ℤ → Res (Val × Val)
  /-- `bond_angle(i, j, k)` -/
  angle : ℤ → ℤ → ℤ → Res (Val × Val)

/-- `l[k]` in Python; `none` is IndexError. -/
def pyGet {α : Type} (l : List α) (k : ℤ) : Option α :=
  if 0 ≤ k then l[k.toNat]? else if 0 ≤ k + l.length then l[(k + l.length).toNat]? else none

/-- `"%s (#%i)" % (symbol, index)` -/
def label (s : List Char) (i : ℤ) : List Char := s ++ " (#".toList ++ intStr i ++ [')']

/-- `_format_bond_length` (pdffit.py 48-65). -/
def bondLine (d dd : Val) (i j : ℤ) (s0 s1 : List Char) : List Char :=
  padr 30 ("   ".toList ++ padr 10 (label s0 i) ++ " -   ".toList ++ label s1 j ++ [' ']) ++ "=   ".toList ++ pyCell d dd ++ " A".toList

/-- An argument of the second form of `blen`: a symbol or an index of an atom type. -/
inductive Arg where
  | sym (s : List Char)
  | idx (z : ℤ)

/-- Symbol of an argument (pdffit.py 887-890); `none` is IndexError. -/
def Arg.symbol (types : List (List Char)) : Arg → Option (List Char)
  | .sym s => some s
  | .idx z => pyGet types (z - 1)

/-- The first line of the second form (pdffit.py 896). -/
def header (a1 a2 : List Char) (lb ub : Val) : List Char :=
  '(' :: a1 ++ [','] ++ a2 ++ ") bond lengths in [".toList ++ text 6 lb ++ "A,".toList ++ text 6 ub ++ "A] for current phase :".toList

/-- The lines of the bonds (pdffit.py 900-907). An index error is not caught. -/
def bondLines (atoms : List (List Char)) : List Bond → Res (List (List Char))
  | [] => .ok []
  | b :: l =>
    match pyGet atoms (b.i - 1), pyGet atoms (b.j - 1) with
    | some s0, some s1 => do
      let r ← bondLines atoms l
      .ok (bondLine b.d b.dd b.i b.j s0 s1 :: r)
    | _, _ => .err .other

/-- `blen(a1, a2, lb, ub)` (pdffit.py 882-910). -/
def blen4 (e : Eng) (a1 a2 : Arg) (lb ub : Val) : Res (List Char) := do
  let types ← e.types
  match a1.symbol types, a2.symbol types with
  | some s1, some s2 => do
    let l ← e.bonds s1 s2
    let atoms ← e.atoms
    let r ← bondLines atoms l
    .ok (unlines (header s1 s2 lb ub :: r ++ [[]] ++ if l = [] then ["   *** No pairs found ***".toList] else []))
  | _, _ => .ok []

/-- `blen(i, j)` (pdffit.py 873-880). A failed assertion is `Exc.other`. -/
def blen2 (e : Eng) (i j : ℤ) : Res (List Char) := do
  let x ← e.bond i j
  let atoms ← e.atoms
  if 0 ≤ min i j - 1 ∧ max i j - 1 < atoms.length then
    match pyGet atoms (i - 1), pyGet atoms (j - 1) with
    | some s0, some s1 => .ok (unlines [bondLine x.1 x.2 i j (upper s0) (upper s1)])
    | _, _ => .err .other
  else .err .other

/-- `bang(i, j, k)` (pdffit.py 820-832). -/
def bang (e : Eng) (i j k : ℤ) : Res (List Char) := do
  let x ← e.angle i j k
  let atoms ← e.atoms
  match pyGet atoms (i - 1), pyGet atoms (j - 1), pyGet atoms (k - 1) with
  | some s0, some s1, some s2 => .ok (unlines ["   ".toList ++ label s0 i ++ " - ".toList ++ label s1 j ++ " - ".toList ++ label s2 k ++
      "   =   ".toList ++ pyCell x.1 x.2 ++ " degrees".toList])
  | _, _, _ => .err .other

/-! ## The engine of a phase -/

/-- The calls for a phase with the atom symbols `syms`; `dbl` gives the doubles of the computed numbers, and `none` is an angle that is not a
number. Without a phase every call raises `unassignedError` (misc.cc, stru.cc 592-756). -/
noncomputable def engOf (look : String → Option ℕ) (p : Option Bonds.Phs) (syms types : List (List Char)) (dbl : ℝ → Val) (lb ub : ℝ) : Eng where
  types := if p.isSome then .ok types else .err .unassigned
  atoms := if p.isSome then .ok syms else .err .unassigned
  bonds := fun a b => match p with
    | none => .err .unassigned
    | some p => (Bonds.bondLengthTypes look p (String.ofList a) (String.ofList b) lb ub).bind fun l =>
        .ok (l.map fun x => ⟨dbl x.dij, dbl x.ddij, x.i, x.j⟩)
  bond := fun i j => match p with
    | none => .err .unassigned
    | some p => (Bonds.bondLengthAtoms p i j).bind fun x => .ok (dbl x.dij, dbl x.ddij)
  angle := fun i j k => match p with
    | none => .err .unassigned
    | some p => (Bonds.bondAngle p i j k).bind fun x => .ok (match x with
      | none => (.nan false, .nan false)
      | some x => (dbl x.1, dbl x.2))

/-! ## Reading -/

/-- A symbol and an index, after blanks. -/
def readLabel (s : List Char) : Option ((List Char × ℤ) × List Char) :=
  let t := s.dropWhile isSpace
  let r := t.dropWhile fun c => !isSpace c
  if r.take 3 = " (#".toList then
    match scanInt (r.drop 3) with
    | some (z, ')' :: u) => some ((t.takeWhile fun c => !isSpace c, z), u)
    | _ => none
  else none

/-- A given character after blanks. -/
def skipTo (c : Char) (s : List Char) : Option (List Char) :=
  match s.dropWhile isSpace with
  | d :: t => if d = c then some t else none
  | [] => none

/-- What is read in the line of a bond: both atoms, the distance, and its standard deviation if it is given. -/
structure Line where
  a : List Char × ℤ
  b : List Char × ℤ
  d : Val × Option Val
  deriving DecidableEq

def readBond (s : List Char) : Option Line := do
  let a ← readLabel s
  let t ← skipTo '-' a.2
  let b ← readLabel t
  let u ← skipTo '=' b.2
  let d ← readCell u
  if d.2 = " A".toList then some ⟨a.1, b.1, d.1⟩ else none

/-- What is read in the first line. -/
def readHeader (s : List Char) : Option ((List Char × List Char) × Val × Val) := do
  let t ← skipTo '(' s
  let u ← skipTo ',' (t.dropWhile (· != ','))
  let w := u.dropWhile (· != ')')
  let x ← readVal (w.drop 19)
  let y ← readVal (x.2.drop 2)
  some ((t.takeWhile (· != ','), u.takeWhile (· != ')')), x.1, y.1)

/-- Bonds up to an empty line. -/
def readBonds : List (List Char) → Option (List Line)
  | [] => none
  | l :: ls =>
    if l = [] then some []
    else do
      let a ← readBond l
      let r ← readBonds ls
      some (a :: r)

/-- The text of the second form. -/
def readListing (s : List Char) : Option (((List Char × List Char) × Val × Val) × List Line) :=
  match lines s with
  | [] => none
  | l :: ls => do
    let h ← readHeader l
    let r ← readBonds ls
    some (h, r)

/-- The text of an angle: three atoms, the angle, and its standard deviation if it is given. -/
def readAngle (s : List Char) : Option ((List Char × ℤ) × (List Char × ℤ) × (List Char × ℤ) × Val × Option Val) := do
  let a ← readLabel s
  let t ← skipTo '-' a.2
  let b ← readLabel t
  let u ← skipTo '-' b.2
  let c ← readLabel u
  let w ← skipTo '=' c.2
  let d ← readCell w
  if d.2 = " degrees".toList then some (a.1, b.1, c.1, d.1.1, d.1.2) else none

end Pdffit.BText
