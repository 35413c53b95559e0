import Verif.Model.Quality
import Verif.Model.Report
import Verif.Model.ReportText

/-!
# Messages of a refinement

* fit.cc 66-134 (`refine_step`), fit.cc 149-169 (`Fit::out`), pdflsmin.cc 109-113 (`mrqmin`).
* The values that are printed are those of the refinement machine of `Model/Refine.lean`; their conversion to printed numbers is a parameter
  (`Shw`), since square roots and quotients by zero are not part of the machine.
* The stream `*pout` keeps the flag `fixed` from one output to the next; the field width is reset by each output. Its other settings are not changed
  by any output (precision 6, right adjustment).
* The readers are not part of the program; they say what can be read in the text.
-/

namespace Pdffit.Progress
open Stru RText
open DataRead (isSpace)

/-! ## Which messages -/

/-- The free parameters in the order of their numbers (fit.cc 153-160). -/
def shown {K : Type} [Zero K] (s : ParStore K) : List (ℕ × K) :=
  (Report.orderById s.id).filterMap fun i => if s.ip.getD i false then some (s.id.getD i 0, s.p.getD i 0) else none

/-- The figures that are printed: `red` and `rw` are printed as `chisq / nred` and the root of `rw2`. -/
structure Figs (K : Type) where
  pars : List (ℕ × K)
  chisq : K
  nred : ℤ
  rw2 : K

inductive Msg (K : Type) where
  /-- Data sets with their phases (fit.cc 70-82). -/
  | start (sets : List (ℕ × List ℕ))
  /-- fit.cc 105-114, pdflsmin.cc 109-113 -/
  | iter (n : ℕ) (f : Figs K) (stag : Bool)
  /-- fit.cc 122 -/
  | finalHead
  /-- fit.cc 130-134 -/
  | final (f : Figs K)

section
variable {K W : Type} [Field K] [LinearOrder K]

def figs (th : Theory K W) (e : Eng K W) : Figs K := ⟨shown e.par, e.chisq, e.nred th, e.rw2⟩

/-- The message of the first evaluation (pdflsmin.cc 93-114). -/
def initMsgs (th : Theory K W) (work : Option (Work K)) (e : Eng K W) : List (Msg K) :=
  if e.alambda < 0 then
    match mrqInit th work e with
    | (_, e1, none) => [.iter e1.iter (figs th e1) false]
    | _ => []
  else []

/-- The messages of `refine_step` after the set-up (fit.cc 92-145). -/
def bodyMsgs (th : Theory K W) (toler : K) (work : Option (Work K)) (e : Eng K W) : List (Msg K) :=
  if e.iter < 3 ∨ (e.stagnating < 3 ∧ e.iter < 100) then
    initMsgs th work { e with ochisq := e.chisq } ++
      match refineBody th toler work e with
      | (_, e2, .more) => [.iter e2.iter (figs th e2) (decide (e2.stagnating ≠ 0))]
      | _ => []
  else
    .finalHead ::
      match mrqmin th work { e with alambda := 0 } with
      | (_, e1, .more) => [.final (figs th { e1 with rw2 := e1.chisq / wnormOf (th.pts e1.world) })]
      | _ => []

/-- The messages of `refine_step` (fit.cc 54-146); `sets` are the numbers of the data sets and of their phases. -/
def stepMsgs (th : Theory K W) (sets : W → List (ℕ × List ℕ)) (toler : K) (s : Statics K) (e : Eng K W) : List (Msg K) :=
  if s.fitRunning = true ∧ e.iter ≠ 0 then bodyMsgs th toler s.work e
  else
    let e0 := { e with iter := 0, alambda := -1, stagnating := 0, chisq := th.dmax }
    .start (sets e.world) ::
      match th.setup e0.par e0.world with
      | (_, some _) => []
      | (w, none) => bodyMsgs th toler s.work { e0 with world := w }

/-- The messages of `refine` (fit.cc 40-51, pdffit.py 317-334). -/
def loopMsgs (th : Theory K W) (sets : W → List (ℕ × List ℕ)) (toler : K) : ℕ → Statics K × Eng K W → List (Msg K)
  | 0, _ => []
  | n + 1, s =>
    let r := refineStep th toler s.1 s.2
    stepMsgs th sets toler s.1 s.2 ++
      match r.2.2 with
      | .more => loopMsgs th sets toler n (r.1, r.2.1)
      | _ => []

end

/-! ## Text -/

/-- The printed numbers. -/
structure Shw (K : Type) where
  par : K → Val
  chisq : K → Val
  red : K → ℤ → Val
  rw : K → Val

/-- `fixed << x` with precision 6. -/
def fixText : Val → List Char
  | .num x => fixNum 6 x
  | v => text 6 v

/-- The stream `*pout`. -/
structure Out where
  text : List Char
  fixed : Bool

def Out.str (o : Out) (t : List Char) : Out := { o with text := o.text ++ t }

/-- `*pout << setw(w) << x` -/
def Out.val (o : Out) (w : ℕ) (x : Val) : Out := o.str (pad w (if o.fixed then fixText x else RText.text 6 x))

/-- The loop over the parameters (fit.cc 156-166); `j` of them have been printed. -/
def outPars : ℕ → List (ℕ × Val) → Out → Out
  | j, [], o => if j % 4 ≠ 0 then o.str ['\n'] else o
  | j, (i, x) :: l, o =>
    let o1 := o.str (pad 4 (natStr i) ++ ": ".toList)
    let o2 := { o1 with fixed := true }.val 9 x
    outPars (j + 1) l (o2.str (if (j + 1) % 4 ≠ 0 then "  ".toList else ['\n']))

/-- `Fit::out` (fit.cc 149-169) -/
def out (l : List (ℕ × Val)) (o : Out) : Out :=
  { (outPars 0 l (o.str "\n Refinement parameters :\n".toList)).str ['\n'] with fixed := false }

/-- fit.cc 112-114, 132 -/
def outFigs {K : Type} (S : Shw K) (f : Figs K) (stag : Bool) (o : Out) : Out :=
  let o1 := (o.str " chisq.: ".toList).val 0 (S.chisq f.chisq)
  let o2 := (o1.str "   red.chisq.: ".toList).val 0 (S.red f.chisq f.nred)
  let o3 := (o2.str "   Rw: ".toList).val 0 (S.rw f.rw2)
  (if stag then o3.str "    stagnating".toList else o3).str ['\n']

def stars (n : ℕ) : List Char := List.replicate n '*'
def bars (n : ℕ) : List Char := List.replicate n '='

/-- fit.cc 77-80 -/
def setText (s : ℕ × List ℕ) : List Char :=
  " Dataset: ".toList ++ natStr s.1 ++ "   Phase: ".toList ++ s.2.flatMap fun p => natStr p ++ "  ".toList

def valPars {K : Type} (S : Shw K) (l : List (ℕ × K)) : List (ℕ × Val) := l.map fun x => (x.1, S.par x.2)

/-- Output of one message. -/
def put {K : Type} (S : Shw K) (o : Out) : Msg K → Out
  | .start sets => sets.foldl (fun o s => o.str (setText s ++ ['\n'])) (o.str (unlines [stars 19, "Starting refinement".toList, stars 19]))
  | .iter n f stag => outFigs S f stag (out (valPars S f.pars) (o.str ('\n' :: stars 32 ++ " ITER: ".toList ++ natStr n ++ ' ' :: stars 32 ++ ['\n'])))
  | .finalHead => o.str ('\n' :: bars 32 ++ " FINAL ".toList ++ bars 34 ++ ['\n'])
  | .final f => (outFigs S f false (out (valPars S f.pars) o)).str ('\n' :: bars 73 ++ "\n\n".toList)

/-- The text of some messages. -/
def logText {K : Type} (S : Shw K) (l : List (Msg K)) : List Char := (l.foldl (put S) ⟨[], false⟩).text

/-! ## Reading -/

/-- What can be read of a message. -/
inductive MsgS where
  | start (sets : List (ℕ × List ℕ))
  | iter (n : ℕ) (pars : List (ℕ × Val)) (chisq red rw : Val) (stag : Bool)
  | finalHead
  | final (pars : List (ℕ × Val)) (chisq red rw : Val)
  deriving DecidableEq

/-- At most `n` parameters in a line. -/
def readWords : ℕ → List Char → Option (List (ℕ × Val))
  | n, s =>
    if s.all isSpace then some []
    else match n with
      | 0 => none
      | n + 1 => do
        let i ← scanInt s
        if i.2.head? = some ':' then do
          let x ← readVal i.2.tail
          let r ← readWords n x.2
          some ((i.1.toNat, x.1) :: r)
        else none

/-- Lines with parameters up to an empty line. -/
def readParLines : List (List Char) → Option (List (ℕ × Val) × List (List Char))
  | [] => none
  | l :: ls =>
    if l = [] then some ([], ls)
    else do
      let a ← readWords 4 l
      let r ← readParLines ls
      some (a ++ r.1, r.2)

/-- The line with the figures. -/
def readFigLine (l : List Char) : Option (Val × Val × Val × Bool) := do
  let a ← readVal (l.drop 9)
  let b ← readVal (a.2.drop 15)
  let c ← readVal (b.2.drop 7)
  some (a.1, b.1, c.1, decide (c.2 ≠ []))

/-- Parameters and figures. -/
def readFigs : List (List Char) → Option ((List (ℕ × Val) × Val × Val × Val × Bool) × List (List Char))
  | _ :: _ :: ls => do
    let p ← readParLines ls
    match p.2 with
    | l :: ls => do
      let f ← readFigLine l
      some ((p.1, f), ls)
    | [] => none
  | _ => none

/-- Numbers up to the end of the line, at most `n`. -/
def readNats : ℕ → List Char → Option (List ℕ)
  | n, s =>
    if s.all isSpace then some []
    else match n with
      | 0 => none
      | n + 1 => do
        let i ← scanInt s
        let r ← readNats n i.2
        some (i.1.toNat :: r)

/-- A data set and its phases. -/
def readSet (l : List Char) : Option (ℕ × List ℕ) := do
  let i ← scanInt (l.drop 10)
  let p ← readNats l.length (i.2.drop 10)
  some (i.1.toNat, p)

/-- All the lines of data sets. -/
def readSets : List (List Char) → Option (List (ℕ × List ℕ) × List (List Char))
  | [] => some ([], [])
  | l :: ls =>
    if l.take 10 = " Dataset: ".toList then do
      let a ← readSet l
      let r ← readSets ls
      some (a :: r.1, r.2)
    else some ([], l :: ls)

/-- One message. -/
def readMsg : List (List Char) → Option (MsgS × List (List Char))
  | [] => none
  | l :: ls =>
    if l = stars 19 then (readSets (ls.drop 2)).map fun x => (.start x.1, x.2)
    else match ls with
      | [] => none
      | m :: ms =>
        if m.take 39 = stars 32 ++ " ITER: ".toList then do
          let i ← scanInt (m.drop 39)
          let f ← readFigs ms
          some (.iter i.1.toNat f.1.1 f.1.2.1 f.1.2.2.1 f.1.2.2.2.1 f.1.2.2.2.2, f.2)
        else if m.take 1 = ['='] then some (.finalHead, ms)
        else do
          let f ← readFigs (l :: ls)
          some (.final f.1.1 f.1.2.1 f.1.2.2.1 f.1.2.2.2.1, f.2.drop 3)

/-- All messages, at most `n`. -/
def readLog : ℕ → List (List Char) → Option (List MsgS)
  | n, ls =>
    if ls = [] then some []
    else match n with
      | 0 => none
      | n + 1 => do
        let m ← readMsg ls
        let r ← readLog n m.2
        some (m.1 :: r)

/-- The messages in a text. -/
def readText (t : List Char) : Option (List MsgS) := readLog (lines t).length (lines t)

end Pdffit.Progress
