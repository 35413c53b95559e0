import Verif.Model.BondText

/-!
# Section of a data set in the results report (`DataSet::output`, output.cc 162-243)

* Numbers and the values with standard deviation are those of `Model/ReportText.lean`. The stream has precision 6 and no other flags than `left`, which
  this function sets before the first padded number.
* The descriptions of the selected atoms (`Model/SelText.lean`) and the phase fractions (`Model/Fractions.lean`) are members of the record.
* The readers are not part of the program; they say what somebody who knows the layout can read in the text.
-/

namespace Pdffit.DText
open Stru RText
open BText (skipTo)
open DataRead (isSpace)

/-- A phase: the texts for both ends of the pairs if it is selected, and the fractions of atoms, cells and mass with their standard deviations. -/
structure PhR where
  sel : Option (List Char × List Char)
  frac : Fin 3 → Val
  dfrac : Fin 3 → Val

/-- What is written. -/
structure DataR where
  iset : ℕ
  name : List Char
  rmin : Val
  rmax : Val
  deltar : Val
  rcmin : Val
  rcmax : Val
  rfmin : Val
  rfmax : Val
  nfmin : ℤ
  nfmax : ℤ
  redchisq : Val
  rw : Val
  xray : Bool
  qmax : Val
  qdamp : Val
  dqdamp : Val
  qbroad : Val
  dqbroad : Val
  dscale : Val
  ddscale : Val
  phases : List PhR

/-- A setting that is not applied unless it is positive (output.cc 194-206). -/
def setting (x : Val) (t : List Char) : List Char := if nonpos x then "not applied".toList else t ++ " A**-1".toList

/-- The selected phases (output.cc 214-223); `k` is the number of phases before. -/
def selLines : ℕ → List PhR → List (List Char)
  | _, [] => []
  | k, p :: l => (match p.sel with
    | none => []
    | some s => ["   Phase ".toList ++ natStr (k + 1) ++ " :".toList, "     Atoms (i) :".toList ++ s.1, "     Atoms (j) :".toList ++ s.2]) ++
      selLines (k + 1) l

/-- The contents (output.cc 234-242). -/
def fracLines : ℕ → List PhR → List (List Char)
  | _, [] => []
  | k, p :: l => (" Phase ".toList ++ natStr (k + 1) ++ " :".toList ++ cell true 24 (p.frac 0) (p.dfrac 0) ++ cell true 24 (p.frac 1) (p.dfrac 1) ++
      cell true 0 (p.frac 2) (p.dfrac 2)) :: fracLines (k + 1) l

/-- The first lines (output.cc 166-211). -/
def headLines (d : DataR) : List (List Char) :=
  [rule, " DATA SET : ".toList ++ natStr d.iset ++ " (".toList ++ d.name ++ [')'], rule,
    " Data range in r [A]    : ".toList ++ padr 8 (text 6 d.rmin) ++ " -> ".toList ++ padr 8 (text 6 d.rmax) ++ "      Step dr  : ".toList ++
      text 6 d.deltar,
    " Calculated range       : ".toList ++ padr 8 (text 6 d.rcmin) ++ " -> ".toList ++ text 6 d.rcmax,
    " Refinement r range     : ".toList ++ padr 8 (text 6 d.rfmin) ++ " -> ".toList ++ padr 8 (text 6 d.rfmax) ++ "      Data pts : ".toList ++
      padr 5 (intStr d.nfmin) ++ " -> ".toList ++ intStr d.nfmax,
    " Reduced chi squared    : ".toList ++ text 6 d.redchisq,
    " Rw - value             : ".toList ++ text 6 d.rw, [], [],
    " Experimental settings  :".toList,
    "   Radiation            : ".toList ++ (if d.xray then "X-Rays".toList else "Neutrons".toList),
    "   Termination at Qmax  : ".toList ++ setting d.qmax (text 6 d.qmax),
    "   DQ dampening Qdamp   : ".toList ++ setting d.qdamp (cell false 0 d.qdamp d.dqdamp),
    "   DQ broadening Qbroad : ".toList ++ setting d.qbroad (cell false 0 d.qbroad d.dqbroad),
    "   Scale factor         : ".toList ++ cell false 0 d.dscale d.ddscale, [],
    " Selected phases and atoms for this data set :".toList]

/-- `DataSet::output` -/
def dataLines (d : DataR) : List (List Char) :=
  headLines d ++ (selLines 0 d.phases ++ ([] :: " Relative phase content in terms of".toList ::
    "           atoms                   unit cells              mass".toList :: (fracLines 0 d.phases ++ [[]])))

def dataText (d : DataR) : List Char := RText.unlines (dataLines d)

/-! ## Reading -/

/-- What is read. -/
structure DataS where
  iset : ℕ
  name : List Char
  data : Val × Val × Val
  crange : Val × Val
  fit : Val × Val
  points : ℤ × ℤ
  redchisq : Val
  rw : Val
  xray : Bool
  qmax : Option Val
  qdamp : Option (Val × Option Val)
  qbroad : Option (Val × Option Val)
  dscale : Val × Option Val
  sel : List (ℕ × List Char × List Char)
  frac : List (List (Val × Option Val))
  deriving DecidableEq

/-- Two numbers with an arrow between them. -/
def readRange (s : List Char) : Option ((Val × Val) × List Char) := do
  let x ← readVal s
  let t ← skipTo '-' x.2
  let y ← readVal (t.drop 1)
  some ((x.1, y.1), y.2)

/-- Two integers with an arrow between them. -/
def readPoints (s : List Char) : Option (ℤ × ℤ) := do
  let x ← scanInt s
  let t ← skipTo '-' x.2
  let y ← scanInt (t.drop 1)
  some (x.1, y.1)

/-- What follows the first colon. -/
def colon (s : List Char) : List Char := (s.dropWhile (· != ':')).drop 1

def readName (s : List Char) : Option (ℕ × List Char) := do
  let x ← scanInt s
  some (x.1.toNat, (x.2.drop 2).dropLast)

def readQ (s : List Char) : Option (Option Val) :=
  if s = "not applied".toList then some none else (readVal s).map fun x => some x.1

def readC (s : List Char) : Option (Option (Val × Option Val)) :=
  if s = "not applied".toList then some none else (readCell s).map fun x => some x.1

def readSel : List (List Char) → Option (List (ℕ × List Char × List Char) × List (List Char))
  | [] :: ls => some ([], ls)
  | l :: i :: j :: ls => do
    let n ← scanInt (l.drop 9)
    let x ← readSel ls
    some ((n.1.toNat, i.drop 16, j.drop 16) :: x.1, x.2)
  | _ => none

def readFrac : List (List Char) → Option (List (List (Val × Option Val)))
  | [] => none
  | l :: ls =>
    if l = [] then some []
    else do
      let c ← readCells 3 (colon l)
      let r ← readFrac ls
      some (c.1 :: r)

/-- The section of a data set. -/
def readData (s : List Char) : Option DataS :=
  match lines s with
  | _ :: l1 :: _ :: l3 :: l4 :: l5 :: l6 :: l7 :: _ :: _ :: _ :: l11 :: l12 :: l13 :: l14 :: l15 :: _ :: _ :: ls => do
    let n ← readName (l1.drop 12)
    let a ← readRange (field l3)
    let st ← readVal (colon a.2)
    let b ← readRange (field l4)
    let c ← readRange (field l5)
    let p ← readPoints (colon c.2)
    let x ← readVal (field l6)
    let y ← readVal (field l7)
    let q ← readQ (field l12)
    let qd ← readC (field l13)
    let qb ← readC (field l14)
    let sc ← readCell (field l15)
    let sl ← readSel ls
    let fr ← readFrac (sl.2.drop 2)
    some ⟨n.1, n.2, (a.1.1, a.1.2, st.1), b.1, c.1, p, x.1, y.1, decide (field l11 = "X-Rays".toList), q, qd, qb, sc.1, sl.1, fr⟩
  | _ => none

end Pdffit.DText
