import Verif.Model.StruNum
import Mathlib.Data.Int.Log
import Mathlib.Data.List.DropRight

/-!
# Text of the results: numbers, values with standard deviation, sections of phases and parameters

* StringUtils.cc 37-58 (`FormatValueWithStd`), output.cc 37-116 (`Phase::output`), output.cc 252-286 (`Fit::output`, the list of parameters),
  pdffit.py 31-46 (`_format_value_std`).
* Finite numbers are rational with a sign, as in `Model/StruNum.lean`; a `double` is such a number, and the printed digits are the correctly rounded ones.
* Simplified: the threshold `fabs(x)*1e-8` is computed exactly.
* The readers (`scanG`, `readCell`, `readPhase`, `readPars`) are not part of the program; they say what somebody who knows the layout can read
  in the text.
-/

namespace Pdffit.RText
open DataRead (isSpace)
open Stru

/-- A `double`. -/
inductive Val where
  | num (x : Num)
  | inf (neg : Bool)
  | nan (neg : Bool)
  deriving DecidableEq

/-! ## `%g` -/

/-- `p` digits of the positive number `q` as an integer, and the decimal exponent of the first one. -/
def gDig (p : ℕ) (q : ℚ) : ℕ × ℤ :=
  let n := rhe (q * 10 ^ ((p : ℤ) - 1 - Int.log 10 q))
  if n = 10 ^ p then (10 ^ (p - 1), Int.log 10 q + 1) else (n, Int.log 10 q)

/-- Without the zeros at the end. -/
def trim (l : List Char) : List Char := l.rdropWhile (· == '0')

/-- The point and the digits after it; nothing if there are none. -/
def frac (l : List Char) : List Char := if trim l = [] then [] else '.' :: trim l

/-- The exponent has at least two digits. -/
def expText (e : ℤ) : List Char :=
  'e' :: (if e < 0 then '-' else '+') :: (if e.natAbs < 10 then '0' :: natStr e.natAbs else natStr e.natAbs)

/-- `%.{p}g`: a number that is not negative, `p > 0`. -/
def gMag (p : ℕ) (q : ℚ) : List Char :=
  if q = 0 then ['0']
  else
    let x := gDig p q
    if -4 ≤ x.2 ∧ x.2 < p then
      let d := ((p : ℤ) - 1 - x.2).toNat
      natStr (x.1 / 10 ^ d) ++ frac (fracStr d (x.1 % 10 ^ d))
    else natStr (x.1 / 10 ^ (p - 1)) ++ frac (fracStr (p - 1) (x.1 % 10 ^ (p - 1))) ++ expText x.2

/-- `stream << x` with precision `p`, and `"%g" % x` with precision 6 except for the letters of `nan` (Python never writes `-nan`). -/
def text (p : ℕ) : Val → List Char
  | .num x => sign x.neg ++ gMag p x.mag
  | .inf s => sign s ++ "inf".toList
  | .nan s => sign s ++ "nan".toList

/-! ## Values with standard deviation -/

/-- `dx > fabs(x)*1e-8` (StringUtils.cc 43). -/
def shows : Val → Val → Bool
  | .num x, .num d => !d.neg && decide (x.mag / 10 ^ 8 < d.mag)
  | .num _, .inf s => !s
  | _, _ => false

def isNan : Val → Bool
  | .nan _ => true
  | _ => false

/-- The standard deviation in parentheses (StringUtils.cc 42-44); `q` is its precision. -/
def std (q : ℕ) (x dx : Val) : List Char :=
  if shows x dx then " (".toList ++ text q dx ++ [')'] else if isNan dx then " (NaN)".toList else []

/-- `FormatValueWithStd::operator()` (StringUtils.cc 38-58): leading blank, width; always `left()` in the uses below. -/
def cell (lead : Bool) (w : ℕ) (x dx : Val) : List Char :=
  padr w ((if lead then [' '] else []) ++ text 6 x ++ std 2 x dx)

/-- `_format_value_std` (pdffit.py 31-46). -/
def pyCell (x dx : Val) : List Char := text 6 x ++ std 6 x dx

/-! ## Section of a phase -/

structure AtomR where
  symb : List Char
  pos : Fin 3 → Val
  dpos : Fin 3 → Val
  occ : Val
  docc : Val
  u : Fin 6 → Val
  du : Fin 6 → Val

structure PhaseR where
  iphase : ℕ
  name : List Char
  pscale : Val
  dpscale : Val
  spdiameter : Val
  dspdiameter : Val
  stepcut : Val
  corrMax : Val
  delta2 : Val
  ddelta2 : Val
  delta1 : Val
  ddelta1 : Val
  sratio : Val
  dsratio : Val
  rcut : Val
  a0 : Fin 3 → Val
  da0 : Fin 3 → Val
  win : Fin 3 → Val
  dwin : Fin 3 → Val
  atoms : List AtomR

def zero : Val := .num ⟨false, 0⟩

/-- `x <= 0.0` -/
def nonpos : Val → Bool
  | .num x => x.neg || decide (x.mag = 0)
  | .inf s => s
  | .nan _ => false

/-- `x > 0.0` -/
def pos : Val → Bool
  | .num x => !x.neg && decide (x.mag ≠ 0)
  | .inf s => !s
  | .nan _ => false

/-- `if (x)` -/
def truth : Val → Bool
  | .num x => decide (x.mag ≠ 0)
  | _ => true

/-- `toupper` (StringUtils.cc 28-35). -/
def upper (s : List Char) : List Char := s.map Char.toUpper

def rule : List Char := ' ' :: List.replicate 78 '-'

/-- A value that is not applied unless it is positive (output.cc 49-55). -/
def applied (x dx : Val) : List Char := if nonpos x then "not applied".toList else cell false 0 x dx ++ " A".toList

/-- Three columns of width 20, 20 and 0. -/
def three (x dx : Fin 3 → Val) : List Char := cell true 20 (x 0) (dx 0) ++ cell true 20 (x 1) (dx 1) ++ cell true 0 (x 2) (dx 2)

/-- Position and occupancy of an atom (output.cc 86-96). -/
def posLine (a : AtomR) : List Char :=
  "   ".toList ++ padr 4 (upper a.symb) ++ cell true 20 (a.pos 0) (a.dpos 0) ++ cell true 20 (a.pos 1) (a.dpos 1) ++
    cell true 20 (a.pos 2) (a.dpos 2) ++ cell true 0 a.occ a.docc

/-- `u[3] || u[4] || u[5]` -/
def off (a : AtomR) : Bool := truth (a.u 3) || truth (a.u 4) || truth (a.u 5)

/-- Displacement parameters of an atom (output.cc 101-115). -/
def uLines (a : AtomR) : List (List Char) :=
  ("   ".toList ++ padr 4 (upper a.symb) ++ three (fun i => a.u (Fin.castLE (by norm_num) i)) (fun i => a.du (Fin.castLE (by norm_num) i))) ::
    if off a then ["       ".toList ++ three ![a.u 3, a.u 4, a.u 5] ![a.du 3, a.du 4, a.du 5]] else []

/-- The lines of `Phase::output` (output.cc 37-116). -/
def phaseLines (p : PhaseR) : List (List Char) :=
  [rule, " PHASE ".toList ++ natStr p.iphase ++ " : ".toList ++ p.name, rule,
    " Scale factor           : ".toList ++ cell false 0 p.pscale p.dpscale,
    "   Particle diameter    : ".toList ++ applied p.spdiameter p.dspdiameter,
    "   Step cutoff          : ".toList ++ applied p.stepcut zero] ++
  (if pos p.corrMax then [" Correlation limit [A]  : ".toList ++ text 6 p.corrMax] else []) ++
  [" Quad. corr. factor     : ".toList ++ cell false 0 p.delta2 p.ddelta2,
    " Lin. corr. factor      : ".toList ++ cell false 0 p.delta1 p.ddelta1,
    " Low r sigma ratio      : ".toList ++ cell false 0 p.sratio p.dsratio,
    " R cutoff [A]           : ".toList ++ cell false 0 p.rcut zero,
    " Lattice parameters     :".toList ++ three p.a0 p.da0,
    "           & angles     :".toList ++ three p.win p.dwin, [],
    " Atom positions & occupancies :".toList] ++ p.atoms.map posLine ++
  [[], " Anisotropic temperature factors :".toList] ++ p.atoms.flatMap uLines

def unlines (l : List (List Char)) : List Char := l.flatMap fun x => x ++ ['\n']

/-- `Phase::output` -/
def phaseText (p : PhaseR) : List Char := unlines (phaseLines p)

/-! ## List of the parameters -/

/-- Entries with the number of the word (output.cc 277-286); `n` is the number of parameters. -/
def parsFrom (n : ℕ) : ℕ → List (ℕ × Val × Val) → List Char
  | _, [] => []
  | k, (i, x, dx) :: l =>
    let last : Bool := (k + 1) % 3 = 0 || k + 1 = n
    ' ' :: pad 3 (natStr i) ++ ':' :: cell true (if last then 0 else 20) x dx ++ (if last then ['\n'] else "  ".toList) ++ parsFrom n (k + 1) l

/-- The list of parameters. -/
def parsText (l : List (ℕ × Val × Val)) : List Char := parsFrom l.length 0 l

/-! ## Reading -/

/-- An exponent, if there is one. -/
def scanExp (s : List Char) : Option (ℤ × List Char) :=
  match s with
  | 'e' :: t =>
    let x := getSign t
    let a := x.2.takeWhile isDig
    if a = [] then none else some (if x.1 then -(val a : ℤ) else val a, x.2.dropWhile isDig)
  | _ => some (0, s)

/-- A decimal number with or without exponent. -/
def scanG (s : List Char) : Option (Num × List Char) := do
  let x ← scanNum s
  let y ← scanExp x.2
  some (⟨x.1.neg, x.1.mag * 10 ^ y.1⟩, y.2)

/-- A number, infinity or "not a number" after blanks. -/
def readVal (s : List Char) : Option (Val × List Char) :=
  let x := getSign (s.dropWhile isSpace)
  if x.2.take 3 = "inf".toList then some (.inf x.1, x.2.drop 3)
  else if x.2.take 3 = "nan".toList then some (.nan x.1, x.2.drop 3)
  else (scanG s).map fun y => (.num y.1, y.2)

/-- A value and its standard deviation, if it is given. -/
def readCell (s : List Char) : Option ((Val × Option Val) × List Char) := do
  let x ← readVal s
  if x.2.take 2 = " (".toList then
    if (x.2.drop 2).take 4 = "NaN)".toList then some ((x.1, some (.nan false)), x.2.drop 6)
    else do
      let d ← readVal (x.2.drop 2)
      if d.2.head? = some ')' then some ((x.1, some d.1), d.2.tail) else none
  else some ((x.1, none), x.2)

/-- `n` of them. -/
def readCells : ℕ → List Char → Option (List (Val × Option Val) × List Char)
  | 0, s => some ([], s)
  | n + 1, s => do
    let x ← readCell s
    let y ← readCells n x.2
    some (x.1 :: y.1, y.2)

/-- The lines of a text; what follows the last line end is not a line. -/
def lines (s : List Char) : List (List Char) :=
  go [] s
where
  go (acc : List Char) : List Char → List (List Char)
    | [] => []
    | c :: s => if c = '\n' then acc.reverse :: go [] s else go (c :: acc) s

structure AtomS where
  symb : List Char
  pos : List (Val × Option Val)
  u : List (Val × Option Val)
  /-- The off-diagonal ones, if they are given. -/
  v : Option (List (Val × Option Val))
  deriving DecidableEq

structure PhaseS where
  iphase : ℕ
  name : List Char
  pscale : Val × Option Val
  spdiameter : Option (Val × Option Val)
  stepcut : Option (Val × Option Val)
  corrMax : Option Val
  delta2 : Val × Option Val
  delta1 : Val × Option Val
  sratio : Val × Option Val
  rcut : Val × Option Val
  a0 : List (Val × Option Val)
  win : List (Val × Option Val)
  atoms : List AtomS
  deriving DecidableEq

/-- The symbol and the columns after it. -/
def readAtom (n : ℕ) (l : List Char) : Option (List Char × List (Val × Option Val)) :=
  (readCells n ((l.drop 3).dropWhile fun c => !isSpace c)).map fun x => ((l.drop 3).takeWhile (fun c => !isSpace c), x.1)

/-- Lines up to an empty one. -/
def readPos : List (List Char) → Option (List (List Char × List (Val × Option Val)) × List (List Char))
  | [] => none
  | l :: ls =>
    if l = [] then some ([], ls)
    else do
      let a ← readAtom 4 l
      let r ← readPos ls
      some (a :: r.1, r.2)

/-- A second line of an atom begins with seven blanks. -/
def isOff (l : List Char) : Bool := decide (l.take 7 = "       ".toList)

/-- All other lines. -/
def readU : List (List Char) → Option (List (List (Val × Option Val) × Option (List (Val × Option Val))))
  | [] => some []
  | [l] => do
    let a ← readAtom 3 l
    some [(a.2, none)]
  | l :: m :: ls => do
    let a ← readAtom 3 l
    if isOff m then
      let b ← readCells 3 m
      let r ← readU ls
      some ((a.2, some b.1) :: r)
    else
      let r ← readU (m :: ls)
      some ((a.2, none) :: r)

/-- What follows the label of a line. -/
def field (l : List Char) : List Char := l.drop 26

def readApplied (l : List Char) : Option (Option (Val × Option Val)) :=
  if field l = "not applied".toList then some none else (readCell (field l)).map fun x => some x.1

/-- The lines after the one of the step cutoff. -/
def readRest (corr : Option Val) (ls : List (List Char)) : Option (PhaseS → PhaseS) :=
  match ls with
  | l7 :: l8 :: l9 :: l10 :: l11 :: l12 :: _ :: _ :: ls => do
    let d2 ← readCell (field l7)
    let d1 ← readCell (field l8)
    let sr ← readCell (field l9)
    let rc ← readCell (field l10)
    let a ← readCells 3 (l11.drop 25)
    let w ← readCells 3 (l12.drop 25)
    let ps ← readPos ls
    let us ← readU (ps.2.drop 1)
    some fun s => { s with corrMax := corr, delta2 := d2.1, delta1 := d1.1, sratio := sr.1, rcut := rc.1, a0 := a.1, win := w.1,
                           atoms := ps.1.zipWith (fun p u => ⟨p.1, p.2, u.1, u.2⟩) us }
  | _ => none

/-- The section of a phase. -/
def readPhase (s : List Char) : Option PhaseS :=
  match lines s with
  | _ :: l1 :: _ :: l3 :: l4 :: l5 :: l6 :: ls => do
    let n ← scanInt (l1.drop 7)
    let sc ← readCell (field l3)
    let dm ← readApplied l4
    let st ← readApplied l5
    let f ← if l6.take 12 = " Correlation".toList then do
        let c ← readVal (field l6)
        readRest (some c.1) ls
      else readRest none (l6 :: ls)
    some (f ⟨n.1.toNat, n.2.drop 3, sc.1, dm, st, none, sc.1, sc.1, sc.1, sc.1, [], [], []⟩)
  | _ => none

/-- `n` parameters. -/
def readPars : ℕ → List Char → Option (List (ℕ × Val × Option Val))
  | 0, _ => some []
  | n + 1, s => do
    let i ← scanInt s
    if i.2.head? = some ':' then do
      let x ← readCell i.2.tail
      let r ← readPars n x.2
      some ((i.1.toNat, x.1) :: r)
    else none

end Pdffit.RText
