import Verif.Model.Stru
import Verif.Model.Scat
import Mathlib.Data.Rat.Floor

/-!
# Printing and extraction of numbers in structure files, and lookup of labels

A finite `double` is a sign and a magnitude, so that `-0.000000` is covered. Arithmetic is exact: the printed decimal number is the
one closest to the value (`rhe`, ties to even) and the extraction gives that decimal number. Exponents, hexadecimal numbers, infinities and NaN
are not extracted; `save_struct` prints none of them for finite numbers.
-/

namespace Pdffit.Stru
open DataRead

/-- A finite number; `mag` is not negative. -/
structure Num where
  neg : Bool
  mag : ℚ
  deriving DecidableEq

/-- Closest integer, ties to even. -/
def rhe (q : ℚ) : ℕ :=
  if q - ⌊q⌋ < 1 / 2 then ⌊q⌋.toNat else if 1 / 2 < q - ⌊q⌋ then ⌊q⌋.toNat + 1
  else if ⌊q⌋.toNat % 2 = 0 then ⌊q⌋.toNat else ⌊q⌋.toNat + 1

def digit (n : ℕ) : Char := Char.ofNat (48 + n)

/-- Decimal digits of a number. -/
def natStr (n : ℕ) : List Char := if n < 10 then [digit n] else natStr (n / 10) ++ [digit (n % 10)]
termination_by n

/-- The last `d` decimal digits. -/
def fracStr : ℕ → ℕ → List Char
  | 0, _ => []
  | d + 1, n => fracStr d (n / 10) ++ [digit (n % 10)]

def sign (b : Bool) : List Char := if b then ['-'] else []

/-- `fixed << setprecision(d)`, for `d > 0`. -/
def fixNum (d : ℕ) (x : Num) : List Char :=
  sign x.neg ++ natStr (rhe (x.mag * 10 ^ d) / 10 ^ d) ++ '.' :: fracStr d (rhe (x.mag * 10 ^ d) % 10 ^ d)

/-- The printed decimal number. -/
def rndNum (d : ℕ) (x : Num) : Num := ⟨x.neg, (rhe (x.mag * 10 ^ d) : ℚ) / 10 ^ d⟩

def intStr (z : ℤ) : List Char := sign (z < 0) ++ natStr z.natAbs

def isDig (c : Char) : Bool := decide (48 ≤ c.toNat ∧ c.toNat ≤ 57)

def val (l : List Char) : ℕ := l.foldl (fun n c => 10 * n + (c.toNat - 48)) 0

/-- The sign and what follows. -/
def getSign : List Char → Bool × List Char
  | [] => (false, [])
  | c :: s => if c = '-' then (true, s) else if c = '+' then (false, s) else (false, c :: s)

/-- The digits after a decimal point, if there is one, and what follows. -/
def getFrac : List Char → List Char × List Char
  | [] => ([], [])
  | c :: s => if c = '.' then (s.takeWhile isDig, s.dropWhile isDig) else ([], c :: s)

/-- `stream >> double` -/
def scanNum (s : List Char) : Option (Num × List Char) :=
  let x := getSign (s.dropWhile isSpace)
  let a := x.2.takeWhile isDig
  let y := getFrac (x.2.dropWhile isDig)
  if a ++ y.1 = [] then none else some (⟨x.1, (val (a ++ y.1) : ℚ) / 10 ^ y.1.length⟩, y.2)

/-- `stream >> int` -/
def scanInt (s : List Char) : Option (ℤ × List Char) :=
  let x := getSign (s.dropWhile isSpace)
  let a := x.2.takeWhile isDig
  if a = [] then none else some (if x.1 then -(val a : ℤ) else val a, x.2.dropWhile isDig)

theorem getSign_le (s : List Char) : (getSign s).2.length ≤ s.length := by
  cases s with
  | nil => simp [getSign]
  | cons c s => simp only [getSign]; split_ifs <;> simp

theorem drop_le (p : Char → Bool) (s : List Char) : (s.dropWhile p).length ≤ s.length :=
  (List.dropWhile_suffix (p := p) (l := s)).length_le

theorem take_add_drop (p : Char → Bool) (s : List Char) : (s.takeWhile p).length + (s.dropWhile p).length = s.length := by
  rw [← List.length_append, List.takeWhile_append_dropWhile]

theorem getFrac_le (s : List Char) : (getFrac s).1.length + (getFrac s).2.length ≤ s.length := by
  cases s with
  | nil => simp [getFrac]
  | cons c s =>
    simp only [getFrac]
    split_ifs
    · have := take_add_drop isDig s
      simp only [List.length_cons]
      omega
    · simp

def scanNumS : Scan Num where
  f := scanNum
  lt := by
    intro s x r h
    unfold scanNum at h
    simp only at h
    split_ifs at h with hc
    simp only [Option.some.injEq, Prod.mk.injEq] at h
    obtain ⟨_, rfl⟩ := h
    have h1 := getFrac_le ((getSign (s.dropWhile isSpace)).2.dropWhile isDig)
    have h2 := take_add_drop isDig (getSign (s.dropWhile isSpace)).2
    have h3 := getSign_le (s.dropWhile isSpace)
    have h4 := drop_le isSpace s
    have h5 : 0 < ((getSign (s.dropWhile isSpace)).2.takeWhile isDig).length +
        (getFrac ((getSign (s.dropWhile isSpace)).2.dropWhile isDig)).1.length := by
      rw [← List.length_append]
      exact List.length_pos_iff.2 hc
    omega

def scanIntS : Scan ℤ where
  f := scanInt
  lt := by
    intro s x r h
    unfold scanInt at h
    simp only at h
    split_ifs at h with hc
    all_goals
      simp only [Option.some.injEq, Prod.mk.injEq] at h
      obtain ⟨_, rfl⟩ := h
      have h2 := take_add_drop isDig (getSign (s.dropWhile isSpace)).2
      have h3 := getSign_le (s.dropWhile isSpace)
      have h4 := drop_le isSpace s
      have h5 := List.length_pos_iff.2 hc
      omega

/-- Entries of the table. -/
abbrev Entry := { e : Scat.AtomType // e ∈ Scat.table }

def symbStr (e : Entry) : List Char := e.1.symbol.map Char.ofNat

/-- The entry whose symbol or name is the label in some capitalisation, or that of D or T (C38). -/
def lookStr (p : Scat.PT) (s : List Char) : Option Scat.AtomType :=
  match p.lookup (s.map Char.toNat) with
  | .ok e => some e
  | _ => none

open Classical in
/-- The reader and writer of the program. `eight`: the rational number that stands for 1/(8π²). -/
noncomputable def env (p : Scat.PT) (eight : ℚ) : Env Num Entry where
  S := scanNumS
  I := scanIntS
  fix := fixNum
  int := intStr
  look := fun s => (lookStr p s).bind fun e => if h : e ∈ Scat.table then some ⟨e, h⟩ else none
  symb := symbStr
  zero := ⟨false, 0⟩
  one := ⟨false, 1⟩
  ofB := fun x => ⟨x.neg, x.mag * eight⟩
  pos := fun x => !x.neg && decide (0 < x.mag)

end Pdffit.Stru
