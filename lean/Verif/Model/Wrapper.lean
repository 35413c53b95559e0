import Verif.Model.Api

/-! # The Python class `PdfFit`: the lists `stru_files` and `data_files` (pdffit.py 104-301, 1260-1279)

The object consists of the engine (`Model/Api.lean`), the names of its data sets and the two lists kept by the Python
class. What a reader makes of its input is an argument of the call, as in `Model/Api.lean`; a wrong type of an argument
is a reader that fails. A call whose binding returns while the error indicator of Python is set raises `SystemError`
although the engine has done its work (see C28, C61, C77); whether that happens is the argument `late`. -/

namespace Pdffit.Wrap
open Api

/-- A loading call with its arguments. -/
inductive Load (K : Type) where
  | readStruct (file : String) (r : Res (Ph K))
  | readStructString (text name : String) (r : Res (Ph K))
  | addStructure (text : String) (r : Res (Ph K))
  | readData (file : String) (r : Res (Raw K))
  | readDataString (text name : String) (r : Res (Raw K))
  | readDataLists (name : String) (r : Res (Raw K))
  | alloc (r : Res (Raw K))

/-- Does the call load something or clear the engine? -/
def isLoad {K Φ : Type} : Op K Φ → Bool
  | .readStruct _ => true
  | .readData _ => true
  | .reset => true
  | _ => false

/-- A call of a method. `other`: every method of `Model/Api.lean` that does not load or clear. -/
inductive Call (K Φ : Type) where
  | load (l : Load K) (late : Bool)
  | reset
  | other (o : Op K Φ) (h : isLoad o = false)

/-- What the caller sees. -/
inductive Ans (K : Type) where
  | returns (x : Out K)
  | raises (e : Exc)
  | systemError
  | ub
  deriving DecidableEq

/-- The object: engine, `DataSet::name` of its data sets, the lists of the Python class. -/
structure Obj (K Φ : Type) where
  eng : St K Φ
  labels : List String
  stru_files : List String
  data_files : List String

section
variable {K Φ : Type}

/-- `__init__` (pdffit.py 1260-1279) -/
def new (fit0 : Φ) : Obj K Φ := ⟨init fit0, [], [], []⟩

/-- The call of the engine made by a loading method. -/
def Load.op : Load K → Op K Φ
  | .readStruct _ r => .readStruct r
  | .readStructString _ _ r => .readStruct r
  | .addStructure _ r => .readStruct r
  | .readData _ r => .readData r
  | .readDataString _ _ r => .readData r
  | .readDataLists _ r => .readData r
  | .alloc r => .readData r

/-- What is appended to `stru_files` (pdffit.py 191, 207; 175-176: `add_structure` leaves the name to its default). -/
def Load.struEntry : Load K → List String
  | .readStruct file _ => [file]
  | .readStructString _ name _ => [name]
  | .addStructure _ _ => [""]
  | _ => []

/-- What is appended to `data_files` (pdffit.py 223, 238-239: `name = data`, 259; 299: nothing). -/
def Load.dataEntry : Load K → List String
  | .readData file _ => [file]
  | .readDataString text _ _ => [text]
  | .readDataLists name _ => [name]
  | _ => []

/-- `DataSet::name` of the new data set (pdf.cc 83, 1300, 1328 with the default of pdffit.h 440, 1352, 1444, 1571):
`PdfFit::read_data_string` does not hand on its argument. -/
def Load.label : Load K → List String
  | .readData file _ => [file]
  | .readDataString _ _ _ => ["string"]
  | .readDataLists name _ => [name]
  | .alloc _ => ["Dummy set"]
  | _ => []

/-- The lists are extended after the call of the engine has returned. -/
def loadStep [LinearOrder K] (fit0 : Φ) (o : Obj K Φ) (l : Load K) (late : Bool) : Ans K × Obj K Φ :=
  match Api.step fit0 o.eng l.op with
  | (.ok x, e) =>
    let o' : Obj K Φ := { o with eng := e, labels := o.labels ++ l.label }
    if late then (.systemError, o')
    else (.returns x, { o' with stru_files := o'.stru_files ++ l.struEntry, data_files := o'.data_files ++ l.dataEntry })
  | (.err e, s) => (.raises e, { o with eng := s })
  | (.ub, s) => (.ub, { o with eng := s })

/-- The other methods call the engine and nothing else. -/
def otherStep [LinearOrder K] (fit0 : Φ) (o : Obj K Φ) (op : Op K Φ) : Ans K × Obj K Φ :=
  match Api.step fit0 o.eng op with
  | (.ok x, e) => (.returns x, { o with eng := e })
  | (.err e, s) => (.raises e, { o with eng := s })
  | (.ub, s) => (.ub, { o with eng := s })

/-- One call. `reset`: pdffit.py 274-279. -/
def step [LinearOrder K] (fit0 : Φ) (o : Obj K Φ) : Call K Φ → Ans K × Obj K Φ
  | .load l late => loadStep fit0 o l late
  | .reset => (.returns .unit, ⟨Api.reset fit0 o.eng, [], [], []⟩)
  | .other op _ => otherStep fit0 o op

/-- A sequence of calls with what the caller saw. -/
def run [LinearOrder K] (fit0 : Φ) (o : Obj K Φ) : List (Call K Φ) → List (Call K Φ × Ans K) × Obj K Φ
  | [] => ([], o)
  | c :: l =>
    let r := run fit0 (step fit0 o c).2 l
    ((c, (step fit0 o c).1) :: r.1, r.2)

end
end Pdffit.Wrap
