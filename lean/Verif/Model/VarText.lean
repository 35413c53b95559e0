import Verif.Model.Api
import Verif.Model.StruNum

/-!
# Variables written as texts (`PdfFit.__getRef`, `lat`, `x`, …, `rcut`, `setpar`; pdffit.py 1071-1305, 510-550)

Texts are ASCII. Simplified: `strip` and `int` of Python know more blanks and digits outside ASCII and `int` refuses texts of
more than 4300 digits; attributes of the module whose names begin with two underscores are left out.
-/

namespace Pdffit.VarText
open Api Stru

/-! ## Python strings -/

/-- ASCII characters removed by `str.strip()`. -/
def pySpace (c : Char) : Bool := (9 ≤ c.toNat && c.toNat ≤ 13) || (28 ≤ c.toNat && c.toNat ≤ 32)

/-- `str.strip`, with the characters to remove. -/
def strip (p : Char → Bool) (l : List Char) : List Char := (((l.dropWhile p).reverse).dropWhile p).reverse

/-- `str.split(c)` -/
def split (c : Char) : List Char → List (List Char)
  | [] => [[]]
  | d :: l =>
    if d = c then [] :: split c l
    else
      match split c l with
      | [] => [[d]]
      | p :: ps => (d :: p) :: ps

/-- Groups of digits with single underscores between. -/
def digits (l : List Char) : Option ℕ :=
  if (split '_' l).all (fun p => !p.isEmpty && p.all isDig) then some (val (split '_' l).flatten) else none

/-- `int(text)`; `none` = ValueError. -/
def pyInt (l : List Char) : Option ℤ :=
  let x := getSign (strip pySpace l)
  (digits x.2).map fun n : ℕ => if x.1 then -(n : ℤ) else (n : ℤ)

/-- A number without sign: digits, a point, an exponent. -/
def decimal (l : List Char) : Bool :=
  let dg := fun p => (digits p).isSome
  let mant := l.takeWhile fun c => !(c = 'e' || c = 'E')
  let ex :=
    match l.dropWhile fun c => !(c = 'e' || c = 'E') with
    | [] => true
    | _ :: s => dg (getSign s).2
  ex && match split '.' mant with
    | [a] => dg a
    | [a, b] => (a.isEmpty || dg a) && (b.isEmpty || dg b) && !(a.isEmpty && b.isEmpty)
    | _ => false

/-- `float(text)` does not raise. -/
def isFloat (l : List Char) : Bool :=
  let s := (getSign (strip pySpace l)).2
  let w := s.map fun c => c.toLower
  w = "inf".toList || w = "infinity".toList || w = "nan".toList || decimal s

/-! ## Texts of variables -/

/-- pdffit.py 1087-1151 -/
def atomNames : List (List Char × AVar) :=
  [("x".toList, .x), ("y".toList, .y), ("z".toList, .z), ("u11".toList, .u11), ("u22".toList, .u22), ("u33".toList, .u33),
    ("u12".toList, .u12), ("u13".toList, .u13), ("u23".toList, .u23), ("occ".toList, .occ)]

/-- pdffit.py 1153-1261 -/
def scalNames : List (List Char × Name) :=
  [("pscale".toList, .scal .pscale), ("spdiameter".toList, .scal .spdiameter), ("stepcut".toList, .scal .stepcut),
    ("sratio".toList, .scal .sratio), ("delta2".toList, .scal .delta2), ("delta1".toList, .scal .delta1),
    ("dscale".toList, .data .dscale), ("qdamp".toList, .data .qdamp), ("qbroad".toList, .data .qbroad),
    ("rcut".toList, .scal .rcut)]

def avarText : AVar → List Char
  | .x => "x".toList | .y => "y".toList | .z => "z".toList
  | .u11 => "u11".toList | .u22 => "u22".toList | .u33 => "u33".toList
  | .u12 => "u12".toList | .u13 => "u13".toList | .u23 => "u23".toList | .occ => "occ".toList

def pscalText : PScal → List Char
  | .pscale => "pscale".toList | .spdiameter => "spdiameter".toList | .stepcut => "stepcut".toList | .delta2 => "delta2".toList
  | .delta1 => "delta1".toList | .sratio => "sratio".toList | .rcut => "rcut".toList

def dscalText : DScal → List Char
  | .dscale => "dscale".toList | .qdamp => "qdamp".toList | .qbroad => "qbroad".toList

/-- The text of `lat(i)`, `x(i)`, …, `rcut()` (pdffit.py 1071-1261). -/
def text : Name → List Char
  | .lat i => "lat".toList ++ '(' :: (intStr i ++ [')'])
  | .atom a i => avarText a ++ '(' :: (intStr i ++ [')'])
  | .scal v => pscalText v
  | .data v => dscalText v

/-- `LatParams` (pdffit.py 1078) -/
def latParams : List (List Char × ℤ) :=
  [("a".toList, 1), ("b".toList, 2), ("c".toList, 3), ("alpha".toList, 4), ("beta".toList, 5), ("gamma".toList, 6)]

/-- `lat(name)` (pdffit.py 1079-1081); `none` = KeyError. -/
def latText (s : List Char) : Option (List Char) := (latParams.lookup s).map fun i => text (.lat i)

/-! ## `__getRef` -/

/-- The name and the argument (pdffit.py 1293-1298). -/
def parse (t : List Char) : List Char × Option ℤ :=
  match split '(' t with
  | [m, a] =>
    match pyInt (strip pySpace (strip (· = ')') a)) with
    | some i => (strip pySpace m, some i)
    | none => (strip pySpace t, none)
  | _ => (strip pySpace t, none)

/-- Which arguments a function of the module takes after the handle: none (`"O"`), one number (`"Oi"`, `"OI"`, `"Od"`, `"OO"`), both
(`"O|i"`), anything, something else. -/
inductive Fmt where | bare | one | opt | any | more
  deriving DecidableEq, Repr

/-- The functions of the module other than variables (bindings.cc 27-350, formats in misc.cc) and its exceptions
(pdffit2module.cc 66-90). -/
def functions : List (List Char × Fmt) :=
  [("copyright", Fmt.any), ("create", .any), ("read_struct", .more), ("read_struct_string", .more), ("read_data", .more),
    ("read_data_string", .more), ("read_data_arrays", .more), ("pdfrange", .more), ("reset", .bare), ("alloc", .more),
    ("calc", .bare), ("refine", .one), ("refine_step", .one), ("save_pdf", .more), ("save_dif", .more), ("save_res", .more),
    ("save_struct", .more), ("show_struct", .one), ("constrain_int", .more), ("constrain_str", .more), ("setpar_dbl", .more),
    ("setpar_RV", .more), ("setvar", .more), ("getvar", .one), ("getR", .bare), ("getpdf_fit", .bare), ("getpdf_obs", .bare),
    ("getpdf_diff", .bare), ("getcrw", .bare), ("getrw", .bare), ("getpar", .one), ("fixpar", .one), ("freepar", .one),
    ("setphase", .one), ("setdata", .one), ("psel", .one), ("pdesel", .one), ("selectAtomType", .more),
    ("selectAtomIndex", .more), ("selectAll", .more), ("selectNone", .more), ("bond_angle", .more), ("bond_length_atoms", .more),
    ("bond_length_types", .more), ("get_scat_string", .more), ("get_scat", .more), ("set_scat", .more), ("reset_scat", .more),
    ("get_atoms", .opt), ("num_atoms", .bare), ("get_atom_types", .opt), ("num_phases", .bare), ("num_datasets", .bare),
    ("phase_fractions", .bare), ("redirect_stdout", .bare), ("restore_stdout", .more), ("is_element", .more),
    ("RuntimeException", .any), ("unassignedError", .any), ("dataError", .any), ("structureError", .any),
    ("calculationError", .any), ("constraintError", .any)].map fun p => (p.1.toList, p.2)

/-- What `__getRef` calls. -/
inductive Called where
  | var (v : Name)
  | other (f : List Char) (a : Option ℤ)
  /-- TypeError from the parsing of arguments -/
  | badArgs
  /-- AttributeError -/
  | noAttr
  deriving DecidableEq

/-- A name that is not a variable, or a variable with the wrong number of arguments. -/
def resolveOther (m : List Char) (a : Option ℤ) : Called :=
  match functions.lookup m with
  | some .any => .other m a
  | some .opt => .other m a
  | some .bare => if a = none then .other m a else .badArgs
  | some .one => if a = none then .badArgs else .other m a
  | some .more => .badArgs
  | none => if m = "lat".toList ∨ (atomNames.lookup m).isSome ∨ (scalNames.lookup m).isSome then .badArgs else .noAttr

/-- `__getRef` (pdffit.py 1281-1305): `getattr(pdffit2, name)` and the call. -/
def resolve (t : List Char) : Called :=
  match parse t with
  | (m, some i) =>
    if m = "lat".toList then .var (.lat i)
    else
      match atomNames.lookup m with
      | some a => .var (.atom a i)
      | none => resolveOther m (some i)
  | (m, none) =>
    match scalNames.lookup m with
    | some v => .var v
    | none => resolveOther m none

/-- `setpar` (pdffit.py 510-527): a number if `float` accepts the text. -/
def setparArg (t : List Char) : Option Called := if isFloat t then none else some (resolve t)

section
variable {K Φ : Type} [LinearOrder K]

/-- What another function of the module does to the engine. Functions that are not operations of `Api` are an arbitrary `G`. -/
def otherOp (G : List Char → Option ℤ → Core K Φ → Res (Out K) × (ℕ → PSlot → K) × (ℕ → DScal → K) × Φ)
    (f : List Char) (a : Option ℤ) : Op K Φ :=
  match a with
  | none => if f = "reset".toList then .reset else .compute (G f a)
  | some i =>
    if f = "setphase".toList then .setphase i
    else if f = "setdata".toList then .setdata i
    else if f = "psel".toList then .psel i
    else if f = "pdesel".toList then .pdesel i
    else .compute (G f a)

/-- `getvar`, `setvar` of a text (pdffit.py 529-549), with the call `k` for the variable. Another function returns no capsule with
the name `pdfvar`, so the pointer made of its result is null and `v->isAssigned()` (misc.cc 791, 817) follows it. -/
def callText (G : List Char → Option ℤ → Core K Φ → Res (Out K) × (ℕ → PSlot → K) × (ℕ → DScal → K) × Φ) (fit0 : Φ)
    (s : St K Φ) (t : List Char) (k : Name → Op K Φ) : Res (Out K) × St K Φ :=
  match resolve t with
  | .var v => step fit0 s (k v)
  | .badArgs => (.err .other, s)
  | .noAttr => (.err .other, s)
  | .other f a =>
    ((match (step fit0 s (otherOp G f a)).1 with
      | .ok _ => .ub
      | r => r), (step fit0 s (otherOp G f a)).2)

end
end Pdffit.VarText
