import Mathlib.Logic.Function.Basic
import Mathlib.Data.List.Basic

/-!
# Methods exported into a namespace

`PdfFit._exportAll`, `src/diffpy/pdffit2/pdffit.py` 125-145, and the lists of
files kept by an object (186-277, 1272-1274).  Lists live in numbered cells,
so that two names can refer to the same list.
-/

namespace Pdffit.Export

/-- Values of the names in a namespace: what `exec` inserts as `__builtins__`,
strings, attributes of an object, lists, and values of the script. -/
inductive Val
  | builtins
  | text (s : String)
  | attr (obj : ℕ) (name : String)
  | files (cell : ℕ)
  | user (n : ℕ)
  deriving DecidableEq

/-- A dictionary used as namespace. -/
abbrev Names := String → Option Val

/-- `PdfFit` object, with references to its two lists. -/
structure Obj where
  id : ℕ
  stru : ℕ
  data : ℕ

/-- Keys of `selalias`, `FCON` and `Sctp`, pdffit.py 119-123 and 136. -/
def aliases : List String := ["ALL", "USER", "IDENT", "FCOMP", "FSQR", "X", "N"]

/-- `dir(self)`, pdffit.py 140: what the class and its `__init__` define
(pdffit.py 106-1299), and what every object has. -/
def dirNames : List String :=
  [
    "_exportAll", "intro", "add_structure", "read_struct", "read_struct_string", "read_data",
    "read_data_string", "read_data_lists", "pdfrange", "reset", "alloc", "calc", "refine", "refine_step",
    "save_pdf", "save_pdf_string", "save_dif", "save_dif_string", "save_res", "save_res_string",
    "get_structure", "save_struct", "save_struct_string", "show_struct", "constrain", "setpar", "setvar",
    "getvar", "getrw", "getcrw", "getR", "getpdf_fit", "getpdf_obs", "getpdf_diff", "get_atoms",
    "get_atom_types", "getpar", "fixpar", "freepar", "setphase", "setdata", "psel", "pdesel",
    "selectAtomType", "selectAtomIndex", "selectAll", "selectNone", "bang", "bond_angle", "blen",
    "bond_length_atoms", "bond_length_types", "show_scat", "get_scat_string", "get_scat", "set_scat",
    "reset_scat", "num_atoms", "num_phases", "num_datasets", "phase_fractions", "lat", "x", "y", "z", "u11",
    "u22", "u33", "u12", "u13", "u23", "occ", "pscale", "sratio", "delta1", "delta2", "dscale", "qdamp",
    "qbroad", "spdiameter", "stepcut", "rcut", "__init__", "_PdfFit__getRef", "selalias", "FCON", "Sctp",
    "stru_files", "data_files", "_handle",
    "__class__", "__delattr__", "__dir__", "__doc__", "__eq__", "__format__", "__ge__", "__getattribute__",
    "__getstate__", "__gt__", "__hash__", "__init_subclass__", "__le__", "__lt__", "__ne__", "__new__",
    "__reduce__", "__reduce_ex__", "__repr__", "__setattr__", "__sizeof__", "__str__", "__subclasshook__",
    "__dict__", "__module__", "__weakref__"]

/-- `"__" in a`, pdffit.py 141. -/
def dunder : List Char → Bool
  | '_' :: '_' :: _ => true
  | _ :: cs => dunder cs
  | [] => false

/-- The list `public`, pdffit.py 138-142. -/
def public_ : List String :=
  dirNames.filter fun a =>
    !dunder a.toList && !(["_handle", "_exportAll", "selalias", "FCON", "Sctp"].contains a)

/-- `getattr(self, funcname)`, pdffit.py 144. -/
def Obj.get (o : Obj) (a : String) : Val :=
  if a = "stru_files" then .files o.stru
  else if a = "data_files" then .files o.data
  else .attr o.id a

/-- `exec("%s = %r" % (a, a), namespace)`, pdffit.py 137; `exec` inserts
`__builtins__` if it is missing. -/
def execAlias (ns : Names) (a : String) : Names :=
  let ns' := if ns "__builtins__" = none then Function.update ns "__builtins__" (some .builtins) else ns
  Function.update ns' a (some (.text a))

/-- `_exportAll`, pdffit.py 125-145. -/
def exportAll (o : Obj) (ns : Names) : Names :=
  public_.foldl (fun ns a => Function.update ns a (some (o.get a))) (aliases.foldl execAlias ns)

/-- Lists in use, by cell. -/
abbrev Heap := List (List String)

/-- Calls that change the lists of files when they succeed. -/
inductive Op
  | readStruct (name : String)
  | readData (name : String)
  | reset

/-- `add_structure`, `read_struct`, `read_data` and their variants append to the
list of the object (pdffit.py 191, 207, 223, 239, 259); `reset` and `__init__` take
two new lists (276-277, 1273-1274). -/
def step : Obj × Heap → Op → Obj × Heap
  | (o, h), .readStruct f => (o, h.modify o.stru (· ++ [f]))
  | (o, h), .readData f => (o, h.modify o.data (· ++ [f]))
  | (o, h), .reset => ({ o with stru := h.length, data := h.length + 1 }, h ++ [[], []])

/-- A sequence of calls. -/
def run (s : Obj × Heap) (ops : List Op) : Obj × Heap := ops.foldl step s

/-- The list seen through a name. -/
def seen (ns : Names) (h : Heap) (a : String) : Option (List String) :=
  match ns a with
  | some (.files c) => h[c]?
  | _ => none

end Pdffit.Export
