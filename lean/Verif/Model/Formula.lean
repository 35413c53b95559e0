import Mathlib.Algebra.Field.Defs
import Mathlib.Data.Nat.Digits.Defs

/-!
# Constraint formulas: syntax and meaning

This file is the specification of formulas; it uses nothing of the evaluator.  A formula is a tree; `Txt` relates it
to the texts that denote it (usual precedences, operators of equal precedence associate to the left, blanks
allowed around operators and signs, function names directly in front of the bracket).
-/

namespace Pdffit.Formula

/-- Decimal literal: digits before and after the point, exponent (`true` = negative).  -/
structure Lit where
  ip : List (Fin 10)
  fp : Option (List (Fin 10))
  ex : Option (Bool × List (Fin 10))

/-- Character of a digit. -/
def digitChar (d : Fin 10) : Char := Char.ofNat ('0'.toNat + d)

/-- Number denoted by a digit string. -/
def digitsVal (ds : List (Fin 10)) : Nat := Nat.ofDigits 10 (ds.reverse.map Fin.val)

namespace Lit
variable {K : Type} [Field K]

/-- There is at least one digit in the mantissa, and one in the exponent. -/
def Ok (l : Lit) : Prop :=
  (l.ip ≠ [] ∨ l.fp.getD [] ≠ []) ∧ ∀ e ∈ l.ex, e.2 ≠ []

/-- Power of ten of the exponent. -/
def scale : Option (Bool × List (Fin 10)) → K
  | none => 1
  | some (false, ds) => 10 ^ digitsVal ds
  | some (true, ds) => (10 ^ digitsVal ds)⁻¹

/-- Value: `(ip + fp / 10^|fp|) * 10^ex`. -/
def val (l : Lit) : K :=
  ((digitsVal l.ip : K) + (digitsVal (l.fp.getD []) : K) / 10 ^ (l.fp.getD []).length) * scale l.ex

/-- Texts of the exponent: `e5`, `e+5`, `E-5`. -/
def ExpText : Option (Bool × List (Fin 10)) → List Char → Prop
  | none, e => e = []
  | some (true, ds), e => ∃ c, (c = 'e' ∨ c = 'E') ∧ e = c :: '-' :: ds.map digitChar
  | some (false, ds), e => ∃ c, (c = 'e' ∨ c = 'E') ∧
      (e = c :: ds.map digitChar ∨ e = c :: '+' :: ds.map digitChar)

/-- Text of the fraction. -/
def fracText : Option (List (Fin 10)) → List Char
  | none => []
  | some f => '.' :: f.map digitChar

/-- Texts of a literal. -/
def Text (l : Lit) (s : List Char) : Prop :=
  ∃ e, ExpText l.ex e ∧ s = l.ip.map digitChar ++ fracText l.fp ++ e

end Lit

/-- Binary operators. -/
inductive Op
  | add | sub | mul | div

/-- Character of an operator. -/
def Op.char : Op → Char
  | add => '+' | sub => '-' | mul => '*' | div => '/'

/-- Formula trees. -/
inductive Ex
  | num (l : Lit)
  | par (n : Nat)
  | neg (e : Ex)
  | bin (o : Op) (a b : Ex)
  | fn (name : List Char) (e : Ex)

namespace Ex
variable {K : Type} [Field K] [DecidableEq K]

/-- Meaning of an operator; division by zero has no value. -/
def opVal : Op → K → K → Option K
  | .add, x, y => some (x + y)
  | .sub, x, y => some (x - y)
  | .mul, x, y => some (x * y)
  | .div, x, y => if y = 0 then none else some (x / y)

/-- Meaning of a formula for given parameter values and (partial) functions; `none`: no value. -/
def val (par : Nat → Option K) (fns : List Char → Option (K → Option K)) : Ex → Option K
  | num l => some l.val
  | Ex.par n => par n
  | neg e => (e.val par fns).map (- ·)
  | bin o a b => (a.val par fns).bind fun x => (b.val par fns).bind fun y => opVal o x y
  | fn name e => (fns name).bind fun f => (e.val par fns).bind f

end Ex

/-- Precedence levels: factor, product, sum. -/
inductive Lvl
  | fac | term | expr

/-- Blank characters. -/
def Blank (c : Char) : Prop := c = ' ' ∨ c = '\t' ∨ c = '\n' ∨ c = '\x0b' ∨ c = '\x0c' ∨ c = '\r'

/-- `Txt l e s`: the text `s` denotes the formula `e` at precedence level `l`. -/
inductive Txt : Lvl → Ex → List Char → Prop
  /-- a number -/
  | num {l s} (hl : l.Ok) (h : Lit.Text l s) : Txt .fac (.num l) s
  /-- `@n` (`n` fits into an `int`) -/
  | par {ds} (hne : ds ≠ []) (hb : digitsVal ds ≤ 2147483647) :
      Txt .fac (.par (digitsVal ds)) ('@' :: ds.map digitChar)
  /-- `( … )` -/
  | paren {e s w} (h : Txt .expr e s) (hw : ∀ c ∈ w, Blank c) : Txt .fac e ('(' :: (s ++ w ++ [')']))
  /-- `name( … )` -/
  | fn {name e s w} (hne : name ≠ []) (hn : ∀ c ∈ name, 'a' ≤ c ∧ c ≤ 'z') (h : Txt .expr e s)
      (hw : ∀ c ∈ w, Blank c) : Txt .fac (.fn name e) (name ++ '(' :: (s ++ w ++ [')']))
  /-- unary minus -/
  | neg {e s} (h : Txt .fac e s) : Txt .fac (.neg e) ('-' :: s)
  /-- unary plus -/
  | pos {e s} (h : Txt .fac e s) : Txt .fac e ('+' :: s)
  /-- leading blanks -/
  | sp {c e s} (hc : Blank c) (h : Txt .fac e s) : Txt .fac e (c :: s)
  /-- a factor is a product -/
  | term {e s} (h : Txt .fac e s) : Txt .term e s
  /-- product, quotient -/
  | mul {o a b s w t} (ho : o = .mul ∨ o = .div) (ha : Txt .term a s) (hw : ∀ c ∈ w, Blank c)
      (hb : Txt .fac b t) : Txt .term (.bin o a b) (s ++ (w ++ o.char :: t))
  /-- a product is a sum -/
  | expr {e s} (h : Txt .term e s) : Txt .expr e s
  /-- sum, difference -/
  | add {o a b s w t} (ho : o = .add ∨ o = .sub) (ha : Txt .expr a s) (hw : ∀ c ∈ w, Blank c)
      (hb : Txt .term b t) : Txt .expr (.bin o a b) (s ++ (w ++ o.char :: t))

/-- `line` is a text of the formula `e` (blanks allowed at the end). -/
def IsFormula (e : Ex) (line : List Char) : Prop := ∃ s w, line = s ++ w ∧ Txt .expr e s ∧ ∀ c ∈ w, Blank c

end Pdffit.Formula
