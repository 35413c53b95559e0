import Verif.Basic

/-!
# Control flow of exceptions

The exceptions that every function of the engine can throw, as a small nondeterministic program per function (throw statements,
calls, try blocks), and the exception handlers of the Python bindings (`misc.cc`). Data are abstracted away: a condition is a choice.
Where the value of an argument rules out an exception, a separate entry of `Fn` is used and the reason is given there; these reasons are proved
on the models of the functions in `Verif/Props/C50.lean`.
-/

namespace Pdffit.Throws

/-- Functions of libpdffit2 that can throw, and the ones that call them. -/
inductive Fn where
  -- PeriodicTable.cc, LocalPeriodicTable.cc, AtomType.h
  | ptLookup | ptSymbol | localSymbol | localLookup | localReset | sf | sfXN
  -- stru.cc, metric.cc, scatlen.cc
  | vget | readHeader | readAtoms | lattice | readStruStream | phaseReadStru | readStruct | readStructString
  | saveStru | saveStruNoFile | setphase | bondLengthAtoms | bondLengthTypes | bondAngle | selectAtomsOf | checkPhase
  | scatString | scatStringXN | setScat | resetScat | getScat
  -- pdf.cc
  | alloc | readDataStream | dsReadData | readData | readDataString | readDataArrays | range | setdata | selphase | pdesel
  | checkSelect | selectType | selectIndex | selectAll | weights | fractions | applyQmax | determine | dsOutput
  | saveRes | savePdf | saveDif
  -- fit.cc, parser.cc, gaussj.cc, pdflsmin.cc, matrix.h
  | constrain | substitutePars | compute | parse | fillVariables | fitSetup | fitTheory | calc
  | matMul | matSd | fitErrors | gaussj | mrqcof | mrqmin | refineStep | refine | setpar | getpar | fixpar
  -- pdffit.cc
  | lists | phaseFractions
  deriving DecidableEq, Repr

def allFn : List Fn :=
  [.ptLookup, .ptSymbol, .localSymbol, .localLookup, .localReset, .sf, .sfXN,
   .vget, .readHeader, .readAtoms, .lattice, .readStruStream, .phaseReadStru, .readStruct, .readStructString,
   .saveStru, .saveStruNoFile, .setphase, .bondLengthAtoms, .bondLengthTypes, .bondAngle, .selectAtomsOf, .checkPhase,
   .scatString, .scatStringXN, .setScat, .resetScat, .getScat,
   .alloc, .readDataStream, .dsReadData, .readData, .readDataString, .readDataArrays, .range, .setdata, .selphase, .pdesel,
   .checkSelect, .selectType, .selectIndex, .selectAll, .weights, .fractions, .applyQmax, .determine, .dsOutput,
   .saveRes, .savePdf, .saveDif,
   .constrain, .substitutePars, .compute, .parse, .fillVariables, .fitSetup, .fitTheory, .calc,
   .matMul, .matSd, .fitErrors, .gaussj, .mrqcof, .mrqmin, .refineStep, .refine, .setpar, .getpar, .fixpar,
   .lists, .phaseFractions]

/-- Statements. `may e` is `if (...) throw e`. -/
inductive Stm where
  | skip
  | may (e : Exc)
  | call (f : Fn)
  | seq (a b : Stm)
  | alt (a b : Stm)
  | loop (a : Stm)
  /-- `try { a } catch (c) { throw d; }` -/
  | conv (a : Stm) (c d : Exc)

infixr:30 " ;; " => Stm.seq

open Stm Fn

/-- The functions. Handlers `catch(Exception e) { ...; throw; }` (pdf.cc 1303-1356, stru.cc 134-160) pass on the same exception and are left out. -/
def body : Fn → Stm
  /- PeriodicTable.cc 85-104 -/
  | ptLookup => may .runtime
  /- PeriodicTable.cc 72-83 -/
  | ptSymbol => may .runtime
  /- LocalPeriodicTable.cc 127-143 -/
  | localSymbol => conv (call ptSymbol) .runtime .value
  /- LocalPeriodicTable.cc 73-84 -/
  | localLookup => conv (call ptLookup) .runtime .value ;; call localSymbol
  /- LocalPeriodicTable.cc 93-107 -/
  | localReset => conv (call ptSymbol) .runtime .value
  /- AtomType.h 56-73 -/
  | sf => may .runtime
  /- `sf` with one of the four valid types -/
  | sfXN => skip
  /- stru.cc 46-77 -/
  | vget => may .vget
  /- `Phase::read_header` stru.cc 237-397 -/
  | readHeader => loop (conv (call vget ;; may .structure) .vget .structure)
  /- stru.cc 399-417, Atom.cc 53-101 -/
  | readAtoms => loop (call localLookup ;; call localSymbol)
  /- metric.cc 36-75 -/
  | lattice => may .structure
  /- stru.cc 187-228 -/
  | readStruStream => call readHeader ;; call readAtoms ;; call lattice ;; may .structure
  /- stru.cc 171-179 -/
  | phaseReadStru => may .io ;; call readStruStream
  /- `PdfFit::read_struct` stru.cc 128-146; the final `setphase(nphase)` finds the new phase -/
  | readStruct => call phaseReadStru
  /- stru.cc 152-169, 181-185 -/
  | readStructString => call readStruStream
  /- stru.cc 434-473 -/
  | saveStru => may .unassigned ;; may .io
  /- the same with an empty file name, as called by `show_struct` and for strings -/
  | saveStruNoFile => may .unassigned
  /- pdffit.cc 162-219 -/
  | setphase => may .unassigned
  /- stru.cc 702-745 -/
  | bondLengthAtoms => may .unassigned ;; may .value
  /- stru.cc 747-807 -/
  | bondLengthTypes => may .unassigned ;; call selectAtomsOf ;; call selectAtomsOf
  /- stru.cc 592-599, 645-697 -/
  | bondAngle => may .unassigned ;; may .value
  /- stru.cc 809-835: ValueError becomes another ValueError -/
  | selectAtomsOf => conv (call localLookup) .value .value
  /- `getphase`, pdf.cc 1196-1204 -/
  | checkPhase => may .unassigned
  /- scatlen.cc 36-72 -/
  | scatString => loop (call sf)
  /- scatlen.cc 47-52 with type 'N' or 'X' -/
  | scatStringXN => call localLookup ;; call sfXN
  /- scatlen.cc 74-95: an invalid type has thrown before the output -/
  | setScat => call localLookup ;; (alt (call localSymbol) (may .runtime)) ;; call localSymbol ;; call sfXN
  /- scatlen.cc 97-105 -/
  | resetScat => call localLookup ;; call localReset ;; call scatStringXN ;; call scatStringXN
  /- pdffit.cc 356-370 -/
  | getScat => call localLookup ;; conv (call sf) .runtime .value
  /- pdf.cc 48-105 -/
  | alloc => may .value
  /- pdf.cc 1455-1581 -/
  | readDataStream => may .data
  /- pdf.cc 1603-1612 -/
  | dsReadData => may .io ;; call readDataStream
  /- pdf.cc 1348-1368; the final `setdata(nset)` finds the new set -/
  | readData => call dsReadData
  /- pdf.cc 1324-1342 -/
  | readDataString => call readDataStream
  /- pdf.cc 1294-1317, 1392-1450 -/
  | readDataArrays => may .data
  /- pdf.cc 1617-1652 -/
  | range => may .value
  /- pdffit.cc 221-237 -/
  | setdata => may .unassigned
  /- pdf.cc 1090-1112 -/
  | selphase => may .unassigned
  /- pdf.cc 1170-1193 -/
  | pdesel => may .unassigned
  /- pdf.cc 1206-1229 -/
  | checkSelect => may .unassigned ;; may .value
  /- pdf.cc 1245-1259 -/
  | selectType => call checkSelect ;; call localLookup
  /- pdf.cc 1261-1270: the index is checked in `checkSelect` -/
  | selectIndex => call checkSelect
  /- pdf.cc 1272-1288 -/
  | selectAll => call checkSelect
  /- `Phase::setup_weights`, `averageScatteringFactor` (pdf.cc 790-819): `sf` with the type of the data set -/
  | weights => loop (call sf)
  /- `getAtomPhaseFractions`, ... (pdf.cc 1654-1762): `averageScatteringFactor` -/
  | fractions => loop (call sf)
  /- pdf.cc 107-145 -/
  | applyQmax => may .calculation
  /- pdf.cc 154-413 -/
  | determine => call weights ;; call applyQmax
  /- output.cc 119-244: atom names (the selector is the constant 'i' or 'j'), phase fractions -/
  | dsOutput => call fractions
  /- pdf.cc 918-963 -/
  | saveRes => may .unassigned ;; loop (call dsOutput) ;; may .io
  /- pdf.cc 971-1004 -/
  | savePdf => may .unassigned ;; may .io
  /- pdf.cc 1037-1069 -/
  | saveDif => may .unassigned ;; may .io
  /- fit.cc 575-625 -/
  | constrain => may .constraint
  /- parser.cc 44-118 -/
  | substitutePars => may .parse ;; may .constraint
  /- parser.cc 122-351 -/
  | compute => may .parse
  /- parser.cc 357-400 -/
  | parse => may .parse ;; call substitutePars ;; loop (call compute)
  /- fit.cc 627-701 -/
  | fillVariables => loop (alt (call parse) (may .constraint))
  /- fit.cc 174-285 -/
  | fitSetup => call fillVariables ;; may .constraint
  /- fit.cc 303-342 -/
  | fitTheory => call fillVariables ;; loop (call lattice) ;; loop (call determine)
  /- fit.cc 288-299 -/
  | Fn.calc => may .unassigned ;; call fitTheory
  /- matrix.h 165-187 -/
  | matMul => may .other
  /- matrix.h 149-164 -/
  | matSd => may .other
  /- fit.cc 787-814 -/
  | fitErrors => call matSd ;; call matMul ;; call matMul ;; call matSd ;; loop (call lattice)
  /- gaussj.cc 31-112 -/
  | gaussj => may .calculation
  /- pdflsmin.cc 175-299 -/
  | mrqcof => call fitTheory ;; may .constraint ;; loop (call fitTheory)
  /- pdflsmin.cc 36-171 -/
  | mrqmin => loop (call mrqcof) ;; call gaussj
  /- fit.cc 54-146 -/
  | refineStep => call fitSetup ;; loop (call mrqmin) ;; call fitTheory ;; call fitErrors
  /- fit.cc 40-51 -/
  | refine => loop (call refineStep)
  /- fit.cc 716-729 -/
  | setpar => skip
  /- fit.cc 731-741 -/
  | getpar => may .unassigned
  /- fit.cc 743-775 -/
  | fixpar => may .unassigned
  /- pdffit.cc 257-327 -/
  | lists => may .unassigned
  /- pdffit.cc 329-354 -/
  | phaseFractions => may .unassigned ;; call fractions

/-- `Exec s o`: the statement can end normally (`none`) or with the exception `o`. -/
inductive Exec : Stm → Option Exc → Prop
  | skip : Exec skip none
  | mayNo (e) : Exec (may e) none
  | mayYes (e) : Exec (may e) (some e)
  | call {f o} : Exec (body f) o → Exec (call f) o
  | seqErr {a b e} : Exec a (some e) → Exec (a ;; b) (some e)
  | seqOk {a b o} : Exec a none → Exec b o → Exec (a ;; b) o
  | altL {a b o} : Exec a o → Exec (alt a b) o
  | altR {a b o} : Exec b o → Exec (alt a b) o
  | loopEnd {a} : Exec (loop a) none
  | loopErr {a e} : Exec a (some e) → Exec (loop a) (some e)
  | loopNext {a o} : Exec a none → Exec (loop a) o → Exec (loop a) o
  | convOk {a c d} : Exec a none → Exec (conv a c d) none
  | convHit {a c d} : Exec a (some c) → Exec (conv a c d) (some d)
  | convPass {a c d e} : Exec a (some e) → e ≠ c → Exec (conv a c d) (some e)

/-- `f` can throw `e`. -/
def CanThrow (f : Fn) (e : Exc) : Prop := Exec (body f) (some e)

/-! ## The bindings -/

/-- Python exceptions; `system` is the `SystemError` of the interpreter for a function that returns NULL without exception, or an
object together with an exception. -/
inductive Py where
  | valueError | unassignedError | ioError | dataError | structureError | constraintError | calculationError | system
  deriving DecidableEq, Repr

/-- The API calls that enter the engine (the getters of the eleven variables are one entry `refVar`, the selections of all or no atoms one). -/
inductive Api where
  | read_struct | read_struct_string | read_data | read_data_string | read_data_arrays | pdfrange | alloc | calc | refine | refine_step
  | save_pdf | save_dif | save_res | save_struct | show_struct | constrain_str | constrain_int | setpar | getpar | fixpar | freepar
  | setphase | setdata | psel | pdesel | selectAtomType | selectAtomIndex | selectAll | bond_angle | bond_length_atoms | bond_length_types
  | get_scat_string | get_scat | set_scat | reset_scat | lists | getAtoms | phase_fractions
  deriving DecidableEq, Repr

def allApi : List Api :=
  [.read_struct, .read_struct_string, .read_data, .read_data_string, .read_data_arrays, .pdfrange, .alloc, .calc, .refine, .refine_step,
   .save_pdf, .save_dif, .save_res, .save_struct, .show_struct, .constrain_str, .constrain_int, .setpar, .getpar, .fixpar, .freepar,
   .setphase, .setdata, .psel, .pdesel, .selectAtomType, .selectAtomIndex, .selectAll, .bond_angle, .bond_length_atoms, .bond_length_types,
   .get_scat_string, .get_scat, .set_scat, .reset_scat, .lists, .getAtoms, .phase_fractions]

/-- The function of the engine that is called inside the try block. -/
def entry : Api → Fn
  | .read_struct => readStruct | .read_struct_string => readStructString | .read_data => readData
  | .read_data_string => readDataString | .read_data_arrays => readDataArrays | .pdfrange => range | .alloc => Fn.alloc
  | .calc => Fn.calc | .refine => Fn.refine | .refine_step => refineStep
  | .save_pdf => savePdf | .save_dif => saveDif | .save_res => saveRes | .save_struct => saveStru | .show_struct => saveStruNoFile
  | .constrain_str => constrain | .constrain_int => constrain
  | .setpar => Fn.setpar | .getpar => Fn.getpar | .fixpar => Fn.fixpar | .freepar => Fn.fixpar
  | .setphase => Fn.setphase | .setdata => Fn.setdata | .psel => selphase | .pdesel => Fn.pdesel
  | .selectAtomType => selectType | .selectAtomIndex => selectIndex | .selectAll => Fn.selectAll
  | .bond_angle => bondAngle | .bond_length_atoms => bondLengthAtoms | .bond_length_types => bondLengthTypes
  | .get_scat_string => scatString | .get_scat => getScat | .set_scat => setScat | .reset_scat => resetScat
  | .lists => Fn.lists | .getAtoms => checkPhase | .phase_fractions => phaseFractions

/-- The handlers of the bindings, in the order of `misc.cc`; `none`: the exception leaves the binding (`std::terminate`).
`setpar` stands for `setpar_dbl` and `setpar_RV`, `lists` for getcrw, getR, getpdf_fit, getpdf_obs, getpdf_diff. -/
def handlers : Api → List (Exc × Py)
  /- misc.cc 99-118 -/
  | .read_struct => [(.structure, .structureError), (.value, .structureError), (.calculation, .calculationError), (.io, .ioError)]
  /- misc.cc 133-148 -/
  | .read_struct_string => [(.structure, .structureError), (.value, .structureError), (.calculation, .calculationError)]
  /- misc.cc 167-177, 198-208 -/
  | .read_data => [(.io, .ioError), (.data, .dataError)]
  | .read_data_string => [(.io, .ioError), (.data, .dataError)]
  /- misc.cc 260-272 -/
  | .read_data_arrays => [(.data, .dataError)]
  /- misc.cc 289-295 -/
  | .pdfrange => [(.value, .valueError)]
  /- misc.cc 328-338 -/
  | .alloc => [(.value, .valueError), (.unassigned, .unassignedError)]
  /- misc.cc 353-367 -/
  | .calc => [(.calculation, .calculationError), (.unassigned, .unassignedError), (.parse, .constraintError)]
  /- misc.cc 383-393 -/
  | .refine => [(.constraint, .constraintError), (.calculation, .calculationError)]
  /- misc.cc 446-473; the last handler is `catch(...)`, see `catchAll` -/
  | .refine_step =>
    [(.parse, .constraintError), (.constraint, .constraintError), (.calculation, .calculationError), (.unassigned, .unassignedError)]
  /- misc.cc 490-598 -/
  | .save_pdf => [(.io, .ioError), (.unassigned, .unassignedError)]
  | .save_dif => [(.io, .ioError), (.unassigned, .unassignedError)]
  | .save_res => [(.io, .ioError), (.unassigned, .unassignedError)]
  | .save_struct => [(.io, .ioError), (.unassigned, .unassignedError)]
  /- misc.cc 612-623 -/
  | .show_struct => [(.unassigned, .unassignedError)]
  /- misc.cc 648-660, 694-708 -/
  | .constrain_str => [(.constraint, .constraintError), (.unassigned, .unassignedError)]
  | .constrain_int => [(.constraint, .constraintError), (.unassigned, .unassignedError)]
  /- misc.cc 730-768, 1034-1190 -/
  | .setpar => [(.unassigned, .unassignedError)]
  | .getpar => [(.unassigned, .unassignedError)]
  | .fixpar => [(.unassigned, .unassignedError)]
  | .freepar => [(.unassigned, .unassignedError)]
  | .setphase => [(.unassigned, .unassignedError)]
  | .setdata => [(.unassigned, .unassignedError)]
  | .psel => [(.unassigned, .unassignedError)]
  | .pdesel => [(.unassigned, .unassignedError)]
  /- misc.cc 1205-1312 -/
  | .selectAtomType => [(.unassigned, .unassignedError), (.value, .valueError)]
  | .selectAtomIndex => [(.unassigned, .unassignedError), (.value, .valueError)]
  | .selectAll => [(.unassigned, .unassignedError), (.value, .valueError)]
  /- misc.cc 1329-1441 -/
  | .bond_angle => [(.value, .valueError), (.unassigned, .unassignedError)]
  | .bond_length_atoms => [(.value, .valueError), (.unassigned, .unassignedError)]
  | .bond_length_types => [(.value, .valueError), (.unassigned, .unassignedError)]
  /- misc.cc 1461-1556 -/
  | .get_scat_string => [(.runtime, .valueError)]
  | .get_scat => [(.value, .valueError)]
  | .set_scat => [(.value, .valueError), (.runtime, .valueError)]
  | .reset_scat => [(.value, .valueError)]
  /- misc.cc 841-1020 -/
  | .lists => [(.unassigned, .unassignedError)]
  /- misc.cc 2018-2080 -/
  | .getAtoms => [(.unassigned, .unassignedError)]
  /- misc.cc 2143-2151 -/
  | .phase_fractions => [(.unassigned, .unassignedError)]

/-- `catch(...)` of `refine_step` (misc.cc 470-473): returns 0 without setting a Python exception. -/
def catchAll : Api → Option Py
  | .refine_step => some .system
  | _ => none

/-- What Python sees of the exception `e`; `none` if it leaves the binding. -/
def translate (a : Api) (e : Exc) : Option Py :=
  match (handlers a).lookup e with
  | some p => some p
  | none => catchAll a

/-- The Python exception that corresponds to a kind of error. A formula error is a constraint error, a wrong scattering type a wrong value,
an unknown element in a structure a structure error (docstrings of pdffit.py 172-206). -/
def Corresponds (a : Api) : Exc → Py → Prop
  | .value, p => p = .valueError ∨ (p = .structureError ∧ (a = .read_struct ∨ a = .read_struct_string))
  | .unassigned, p => p = .unassignedError
  | .io, p => p = .ioError
  | .data, p => p = .dataError
  | .structure, p => p = .structureError
  | .constraint, p => p = .constraintError
  | .calculation, p => p = .calculationError
  | .parse, p => p = .constraintError
  | .runtime, p => p = .valueError
  | _, _ => False

/-- The property for one call. -/
def Covered (a : Api) : Prop := ∀ e, CanThrow (entry a) e → ∃ p, translate a e = some p ∧ Corresponds a e p

/-! ## Checks of the bindings themselves -/

/-- What the interpreter does with the pending exception `e` and the returned object (`obj` false: NULL): an object together
with an exception, or NULL without one, is a `SystemError`. -/
def interpret (e : Option Py) (obj : Bool) : Option Py :=
  match e, obj with
  | none, true => none
  | some p, false => some p
  | _, _ => some .system

/-- `constrain_str` (misc.cc 631-668) on a variable that is refinable and assigned or not, when the engine does not throw. -/
def constrainStrReply (refinable assigned : Bool) : Option Py :=
  if !refinable then interpret (some .constraintError) false
  else if assigned then interpret none true
  else interpret (some .unassignedError) true

/-- `constrain_int` (misc.cc 674-717). -/
def constrainIntReply (refinable assigned : Bool) : Option Py :=
  if !refinable then interpret (some .constraintError) false
  else if assigned then interpret none true
  else interpret (some .unassignedError) false

end Pdffit.Throws
