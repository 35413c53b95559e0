import Verif.Model.Api
import Verif.Model.DataRead
import Verif.Model.Output

/-! # `read_data_lists` for arbitrary Python objects (pdffit.py 243-260, misc.cc 57-67, 213-275)

The binding takes the three arguments as they come. `PyList_Size` of an object that is not a list gives -1,
`PyFloat_AsDouble` of an object that is not a number gives -1.0; both leave a Python error pending. Python turns a call that
returns a value with an error pending into `SystemError`.

Simplified: lists have fewer than 2^31 items (the lengths are stored in an `int`), there is enough memory, and converting an
item runs no Python code that changes the lists. The messages of `readLists` are left out; `printing`
combines a call with its messages. -/

namespace Pdffit.ListArg
open Api DataRead

/-- An item of a list: an object that `PyFloat_AsDouble` converts, or another one (`None`, a string, …). -/
inductive Item where
  | num (x : ℝ)
  | other

/-- An argument. -/
inductive Arg where
  | none
  | list (l : List Item)
  | other

/-- `PyList_Size` -/
def Arg.size : Arg → ℤ
  | .list l => l.length
  | _ => -1

/-- `PyFloat_AsDouble` -/
def Item.double : Item → ℝ
  | .num x => x
  | .other => -1

def Item.isNum : Item → Bool
  | .num _ => true
  | .other => false

/-- `double_array_from_pylist` (misc.cc 57-67): the array, and whether an error is pending afterwards. -/
def Arg.array : Arg → List ℝ × Bool
  | .list l => (l.map Item.double, l.any fun i => !i.isNum)
  | _ => ([], false)

/-- How a call ends for the caller: it returns, raises an exception of the binding or `SystemError`, or the process ends because of a C++ exception (`std::terminate`) or
has undefined behaviour. -/
inductive End where
  | returns
  | raises (e : Exc)
  | systemError
  | dies
  | ub
  deriving DecidableEq

/-- The third array, if any (misc.cc 254-257). -/
def third : Arg → Option (List ℝ) × Bool
  | .none => (none, false)
  | a => (some a.array.1, a.array.2)

/-- `dGr_len` (misc.cc 238-241) -/
def dlen (length : ℤ) : Arg → ℤ
  | .none => length
  | d => d.size

/-- The call of the engine and what follows (misc.cc 259-274): end of the call, engine, arrays on the C++ heap that nobody will
delete. `val`: variables of a data set made from `stype`, `qmax`, `qdamp`. `pending`: a Python error is pending. The deletions at
268-272 are skipped when `dataError` is caught at 263-266. -/
noncomputable def loadThem {Φ : Type} (s : St ℝ Φ) (val : DScal → ℝ) (r G : List ℝ) (dG : Option (List ℝ)) (pending : Bool) :
    End × St ℝ Φ × ℕ :=
  match readArrays r G dG with
  | .err e => (.raises e, s, if dG.isNone then 2 else 3)
  | .ub => (.ub, s, 0)
  | .ok L => (if pending then .systemError else .returns, addData s ⟨val, L.rmin, L.rmax⟩, 0)

/-- `pypdffit2_read_data_arrays` (misc.cc 217-275) as called by `read_data_lists`. A negative length makes
`new double [length]` throw `std::bad_array_new_length` (249), for which there is no handler. -/
noncomputable def readLists {Φ : Type} (s : St ℝ Φ) (val : DScal → ℝ) (r G dG : Arg) : End × St ℝ Φ × ℕ :=
  let length := G.size
  if r.size ≠ length ∨ dlen length dG ≠ length then (.raises .value, s, 0)
  else if length < 0 then (.dies, s, 0)
  else loadThem s val r.array.1 G.array.1 (third dG).1 (r.array.2 || G.array.2 || (third dG).2)

/-- The end of a call that comes back from the engine with `x`, when a Python error is pending or not; the handlers of the
binding replace a pending error by their own. -/
def ends {α : Type} (pending : Bool) : Res α → End
  | .ok _ => if pending then .systemError else .returns
  | .err e => .raises e
  | .ub => .ub

/-- A call of the engine that prints the texts `ms` (with `Model/Output.lean` for where they go). The first message of
`read_struct` is at stru.cc 199-204, of `read_data` at pdf.cc 1555, of `read_data_lists` at 1433, of `alloc` at 94. -/
noncomputable def printing {Φ : Type} (fit0 : Φ) (E : Outp.Env) (o : Outp.St) (ms : List Outp.Text) (s : St ℝ Φ) (op : Op ℝ Φ) :
    Res (End × St ℝ Φ × Outp.St) :=
  match Outp.run E o (ms.map .engine) with
  | .ok o' => .ok (ends o'.pending (step fit0 s op).1, (step fit0 s op).2, o')
  | .err e => .err e
  | .ub => .ub

end Pdffit.ListArg
