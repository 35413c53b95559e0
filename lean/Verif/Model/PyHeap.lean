import Verif.Basic
import Mathlib.Data.List.Basic

/-! # Objects made by the bindings and their reference counts (misc.cc)

The heap of the Python interpreter is a list of cells, the position is the address; a freed cell is `none` and its address is not used
again. The functions of the C interface that the bindings use are modelled with their rules about references: creating functions
return a new reference, `PyList_SetItem` takes over the reference to the item, `PyDict_SetItemString` does not, and an object
whose count drops to zero is freed and gives up its references.

Simplified: memory does not run out; numbers and strings are always new objects (cached ones are shared, with the same counting);
the keys of dictionaries, the arguments (borrowed references) and exception objects are left out; a dictionary gets every key once;
finalizers run no code that concerns the objects modelled here. -/

namespace Pdffit.PyHeap

/-- An object: its reference count, the level of its type (number, string, capsule: 0; tuple: 1; list: 2; dictionary: 3) and its slots;
`none` is NULL. -/
structure Cell where
  rc : ℕ
  lvl : ℕ
  kids : List (Option ℕ)
  deriving DecidableEq, Repr

abbrev Heap := List (Option Cell)

/-- The object at an address, if it is alive. -/
def look (h : Heap) (a : ℕ) : Option Cell := (h[a]?).join

def kidsOf : Option Cell → List (Option ℕ)
  | none => []
  | some c => c.kids

/-- All slots of all objects. -/
def refs (h : Heap) : List (Option ℕ) := h.flatMap kidsOf

theorem refs_set_length : ∀ (h : Heap) (a : ℕ) (x y : Option Cell), h[a]? = some y →
    (refs (h.set a x)).length + (kidsOf y).length = (refs h).length + (kidsOf x).length
  | [], _, _, _, hy => by simp at hy
  | z :: h, 0, x, y, hy => by
    obtain rfl : z = y := by simpa using hy
    simp [refs]
    omega
  | z :: h, a + 1, x, y, hy => by
    have := refs_set_length h a x y (by simpa using hy)
    simp [refs] at this ⊢
    omega

theorem look_eq {h : Heap} {a : ℕ} {c : Cell} (e : look h a = some c) : h[a]? = some (some c) := by
  unfold look at e
  cases hx : h[a]? with
  | none => simp [hx] at e
  | some y =>
    rw [hx] at e
    exact congrArg some e

/-- The objects in the slots. -/
def held (l : List (Option ℕ)) : List ℕ := l.filterMap id

/-- `Py_DECREF` of the objects in the list, one after the other; the slots of a freed object come first. Use of a freed object is
undefined behaviour. -/
def decs (h : Heap) (w : List ℕ) : Res Heap :=
  match w with
  | [] => .ok h
  | a :: w =>
    match _e : look h a with
    | none => .ub
    | some c =>
      if c.rc ≤ 1 then decs (h.set a none) (held c.kids ++ w)
      else decs (h.set a (some { c with rc := c.rc - 1 })) w
termination_by (refs h).length + w.length
decreasing_by
  all_goals
    have := refs_set_length h a
    have e' := look_eq _e
  · have := this none _ e'
    have h2 : (held c.kids).length ≤ c.kids.length := List.length_filterMap_le id c.kids
    simp [kidsOf] at this ⊢
    omega
  · have := this (some { c with rc := c.rc - 1 }) _ e'
    simp [kidsOf] at this ⊢
    omega

/-- A new object with `n` empty slots; the caller owns the only reference. `PyFloat_FromDouble`, `PyUnicode_FromString`,
`PyCapsule_New`, `PyBool_FromLong`, `Py_BuildValue` of one value: level 0. `PyTuple_New`, `PyList_New`, `PyDict_New`: levels 1, 2, 3. -/
def new (h : Heap) (lvl n : ℕ) : ℕ × Heap := (h.length, h ++ [some ⟨1, lvl, List.replicate n none⟩])

/-- `Py_INCREF` -/
def incref (h : Heap) (a : ℕ) : Res Heap :=
  match look h a with
  | none => .ub
  | some c => .ok (h.set a (some { c with rc := c.rc + 1 }))

/-- `PyList_SetItem` (and the same for tuples in `Py_BuildValue`): takes over the reference to the item, gives up the one in the slot. -/
def setItem (h : Heap) (l i v : ℕ) : Res Heap :=
  match look h l with
  | none => .ub
  | some c =>
    match c.kids[i]? with
    | none => decs h [v]
    | some old => decs (h.set l (some { c with kids := c.kids.set i (some v) })) old.toList

/-- `PyDict_SetItemString`: adds a reference of its own. -/
def dictSet (h : Heap) (d v : ℕ) : Res Heap :=
  match incref h v with
  | .ok h1 =>
    match look h1 d with
    | none => .ub
    | some c => .ok (h1.set d (some { c with kids := c.kids ++ [some v] }))
  | r => r

/-- The loop `for (i…) PyList_SetItem(py_r, i, PyFloat_FromDouble(…))` from `i` for `k` more items. -/
def fill (l : ℕ) (h : Heap) (i : ℕ) : ℕ → Res Heap
  | 0 => .ok h
  | k + 1 =>
    let x := new h 0 0
    setItem x.2 l i x.1 >>= fun h' => fill l h' (i + 1) k

/-- A list of `n` numbers or strings: `getcrw` (misc.cc 844-849), `getR` (910-914), `getpdf_fit` (944-947), `getpdf_obs` (976-979),
`getpdf_diff` (1008-1012), `get_atoms` (2027-2032), `get_atom_types` (2079-2084). -/
def mkList (h : Heap) (n : ℕ) : Res (ℕ × Heap) :=
  let x := new h 2 n
  fill x.1 x.2 0 n >>= fun h' => .ok (x.1, h')

/-- `Py_BuildValue("(d,d)", …)`, `Py_BuildValue("(i,i)", …)`: a tuple of two numbers (misc.cc 1330, 1360, 1420, 1422). -/
def mkPair (h : Heap) : Res (ℕ × Heap) :=
  let x := new h 1 2
  fill x.1 x.2 0 2 >>= fun h' => .ok (x.1, h')

/-- The loop of `bond_length_types` (misc.cc 1412-1424). -/
def pairLoop (dij ddij ij0 ij1 : ℕ) (h : Heap) (i : ℕ) : ℕ → Res Heap
  | 0 => .ok h
  | k + 1 =>
    let x := new h 0 0
    setItem x.2 dij i x.1 >>= fun h =>
    let x := new h 0 0
    setItem x.2 ddij i x.1 >>= fun h =>
    mkPair h >>= fun x =>
    setItem x.2 ij0 i x.1 >>= fun h =>
    mkPair h >>= fun x =>
    setItem x.2 ij1 i x.1 >>= fun h =>
    pairLoop dij ddij ij0 ij1 h (i + 1) k

/-- `bond_length_types` for `n` pairs (misc.cc 1402-1431). -/
def bondTypes (h : Heap) (n : ℕ) : Res (ℕ × Heap) :=
  let a := new h 2 n
  let b := new a.2 2 n
  let c := new b.2 2 n
  let d := new c.2 2 n
  pairLoop a.1 b.1 c.1 d.1 d.2 0 n >>= fun h =>
  let r := new h 3 0
  dictSet r.2 r.1 a.1 >>= fun h =>
  dictSet h r.1 b.1 >>= fun h =>
  dictSet h r.1 c.1 >>= fun h =>
  dictSet h r.1 d.1 >>= fun h => .ok (r.1, h)

/-- The loop of `phase_fractions` over the keys (misc.cc 2156-2168); `n` is the number of phases. -/
def keyLoop (r n : ℕ) (h : Heap) : ℕ → Res Heap
  | 0 => .ok h
  | k + 1 => mkList h n >>= fun x => dictSet x.2 r x.1 >>= fun h => keyLoop r n h k

/-- `phase_fractions` (misc.cc 2153-2169); `getPhaseFractions` (pdffit.cc 329-355) makes six keys, unless there are no phases. -/
def fractions (h : Heap) (n : ℕ) : Res (ℕ × Heap) :=
  let r := new h 3 0
  keyLoop r.1 n r.2 (if n = 0 then 0 else 6) >>= fun h => .ok (r.1, h)

/-- What a function returns when it does not raise. -/
inductive Kind where
  /-- `Py_INCREF(Py_None); return Py_None;` -/
  | none
  /-- a new number, string, truth value or capsule -/
  | value
  | pair
  | list
  | bonds
  | fractions
  deriving DecidableEq, Repr

/-- The functions of the module (bindings.cc) and what they return (misc.cc). `save_*`, `show_struct` and `getvar` return a value or `None`. -/
def table : List (String × List Kind) :=
  (["copyright", "create", "refine_step", "getrw", "getpar", "get_scat_string", "get_scat", "lat", "x", "y", "z", "u11", "u22", "u33",
    "u12", "u13", "u23", "occ", "pscale", "spdiameter", "stepcut", "sratio", "delta2", "delta1", "dscale", "qdamp", "qbroad", "rcut",
    "num_atoms", "num_phases", "num_datasets", "is_element"].map fun s => (s, [.value])) ++
  (["read_struct", "read_struct_string", "read_data", "read_data_string", "read_data_arrays", "pdfrange", "reset", "alloc", "calc",
    "refine", "constrain_int", "constrain_str", "setpar_dbl", "setpar_RV", "setvar", "fixpar", "freepar", "setphase", "setdata", "psel",
    "pdesel", "selectAtomType", "selectAtomIndex", "selectAll", "selectNone", "set_scat", "reset_scat", "redirect_stdout",
    "restore_stdout"].map fun s => (s, [.none])) ++
  (["save_pdf", "save_dif", "save_res", "save_struct", "show_struct", "getvar"].map fun s => (s, [.none, .value])) ++
  (["getR", "getpdf_fit", "getpdf_obs", "getpdf_diff", "getcrw", "get_atoms", "get_atom_types"].map fun s => (s, [.list])) ++
  (["bond_angle", "bond_length_atoms"].map fun s => (s, [.pair])) ++
  [("bond_length_types", [.bonds]), ("phase_fractions", [.fractions])]

/-- The objects made by a call, and the returned reference; `n`: number of items, `py_none`: address of `None`. -/
def Kind.run (py_none : ℕ) (h : Heap) (n : ℕ) : Kind → Res (ℕ × Heap)
  | .none => incref h py_none >>= fun h' => .ok (py_none, h')
  | .value => .ok (new h 0 0)
  | .pair => mkPair h
  | .list => mkList h n
  | .bonds => bondTypes h n
  | .fractions => PyHeap.fractions h n

/-- A call whose result the caller gives up afterwards. -/
def Kind.use (py_none : ℕ) (h : Heap) (n : ℕ) (k : Kind) : Res Heap := k.run py_none h n >>= fun x => decs x.2 [x.1]

/-- Several such calls. -/
def uses (py_none : ℕ) (h : Heap) : List (Kind × ℕ) → Res Heap
  | [] => .ok h
  | x :: l => x.1.use py_none h x.2 >>= fun h' => uses py_none h' l

end Pdffit.PyHeap
