import Verif.Model.Params
import Mathlib.Algebra.Field.Defs

/-!
# Formula evaluator (parser.cc 34-400, character level)

* A text is a list of characters; an `istringstream` at a read position is the list of the remaining characters.
  `tellg` at the end of a stream gives -1; the `replace` calls that use it then replace up to the end of
  the text, which is what the model does with the remaining characters.
* Numbers are read as libstdc++ does (digits, point, exponent); their values are exact.
  Numbers outside the range of `double` (which libstdc++ rejects) are not distinguished.
* `vstack` and `dstack` (static, grown in parallel) are one list of pairs; an empty derivative
  vector is `[]`.  Access behind the end of the stack is undefined behaviour.
* `used.size()` is `nu`.
* Loops have a fuel argument; `none` means that the fuel was used up (shown not to happen).
-/

namespace Pdffit.Parser

/-- `isspace` in the "C" locale. -/
def isWs (c : Char) : Bool := c = ' ' || c = '\t' || c = '\n' || c = '\x0b' || c = '\x0c' || c = '\r'

/-- Decimal digit. -/
def isDig (c : Char) : Bool := '0' ≤ c && c ≤ '9'

/-- `c>='a' && c<='z'` (parser.cc 156). -/
def isLow (c : Char) : Bool := 'a' ≤ c && c ≤ 'z'

/-- Skipping of white space by `operator>>`. -/
def skipWs (s : List Char) : List Char := s.dropWhile isWs

/-- Value of a digit string. -/
def natOf (ds : List Char) : Nat := ds.foldl (fun n c => 10 * n + (c.toNat - '0'.toNat)) 0

/-- An optional sign: is it a minus sign, and the text after it. -/
def splitSign : List Char → Bool × List Char
  | [] => (false, [])
  | c :: t => if c = '-' then (true, t) else if c = '+' then (false, t) else (false, c :: t)

/-- An optional sign and digits; `none` when there are no digits. -/
def readSigned (s : List Char) : Option (Int × List Char) :=
  if (splitSign s).2.takeWhile isDig = [] then none
  else some ((if (splitSign s).1 then -(natOf ((splitSign s).2.takeWhile isDig) : Int)
    else natOf ((splitSign s).2.takeWhile isDig)), (splitSign s).2.dropWhile isDig)

/-- `stream >> int`: value and remaining text, `none` when the extraction fails. -/
def readInt (s : List Char) : Option (Int × List Char) := readSigned (skipWs s)

/-- Decimal text of a number (`ostream << int`). -/
def natText (n : Nat) : List Char := Nat.toDigits 10 n

/-- `stackvar` (parser.cc 34-39). -/
def stackvar (i : Nat) : List Char := '#' :: natText i

section
variable {K : Type} [Field K]

/-- `10^e`. -/
def pow10 (e : Int) : K := (10 : K) ^ e

/-- The exponent part of a number: `none` when it is not complete. -/
def readExp (s : List Char) : Option (Int × List Char) :=
  match s with
  | c :: t =>
    if c = 'e' || c = 'E' then readSigned t else some (0, s)
  | [] => some (0, s)

/-- An optional fraction: its digits and the text after it. -/
def splitFrac : List Char → List Char × List Char
  | [] => ([], [])
  | c :: t => if c = '.' then (t.takeWhile isDig, t.dropWhile isDig) else ([], c :: t)

/-- `stream >> double` without leading white space or sign (the callers have removed them). -/
def readNum (s : List Char) : Option (K × List Char) :=
  let i := s.takeWhile isDig
  let f := (splitFrac (s.dropWhile isDig)).1
  if i = [] ∧ f = [] then none
  else match readExp (splitFrac (s.dropWhile isDig)).2 with
    | none => none
    | some (e, s3) => some ((natOf (i ++ f) : K) * pow10 (e - f.length), s3)

/-- `struct Builtin` (pdffit.h 120-126): function and derivative; `builtin` map by name. -/
abbrev BTab (K : Type) := List Char → Option ((K → K) × (K → K))

/-- A number with its derivative vector. -/
abbrev Num (K : Type) := K × List K

/-- Evaluation environment: builtin table, `deriv`, `used.size()`. -/
structure Env (K : Type) where
  tab : BTab K
  deriv : Bool
  nu : Nat

/-- Stack access by an index read from the text. -/
def stackAt (st : List (Num K)) (id : Int) : Res (Num K) :=
  if 0 ≤ id then Res.at? st id.toNat else .ub

/-- `getnum` after white space and signs (parser.cc 154-207). -/
def getfac (E : Env K) (st : List (Num K)) (s : List Char) : Res (Num K × List Char) :=
  match s with
  | [] => .err .parse
  | c :: t =>
    if isLow c then
      match s.dropWhile (· ≠ '#') with
      | [] => .err .parse
      | _ :: r =>
        match E.tab (s.takeWhile (· ≠ '#')) with
        | none => .err .parse
        | some (f, df) =>
          match readInt r with
          | none => .err .parse
          | some (id, r') => do
            let a ← stackAt st id
            .ok ((f a.1, if E.deriv && !a.2.isEmpty then a.2.map (df a.1 * ·) else []), r')
    else if c = '#' then
      match readInt t with
      | none => .err .parse
      | some (id, r') => do
        let a ← stackAt st id
        .ok ((a.1, if E.deriv then a.2 else []), r')
    else
      match readNum s with
      | none => .err .parse
      | some (x, r') => .ok ((x, []), r')

/-- `getnum` (parser.cc 122-208). -/
def getnum (E : Env K) (st : List (Num K)) : List Char → Res (Num K × List Char)
  | [] => .err .parse
  | c :: s =>
    if isWs c then getnum E st s
    else if c = '-' then do
      let r ← getnum E st s
      .ok ((-r.1.1, r.1.2.map (- ·)), r.2)
    else if c = '+' then getnum E st s
    else getfac E st (c :: s)

/-- `dnumdp = vector(used.size())` when one of the operands has derivatives (parser.cc 275-276). -/
def base (E : Env K) (d1 d2 : List K) : List K :=
  if d1.isEmpty && d2.isEmpty then [] else List.replicate E.nu 0

/-- `dnumdp[i] += g(d[i])` for all `i`, if `d` is not empty. -/
def accum (d0 d : List K) (g : K → K) : List K :=
  if d.isEmpty then d0 else List.zipWith (fun a b => a + g b) d0 d

/-- The `switch` on the operator (parser.cc 278-331). -/
def apply (E : Env K) (op : Char) (a b : Num K) : Num K :=
  if op = '+' then (a.1 + b.1, accum (if a.2.isEmpty then base E a.2 b.2 else a.2) b.2 id)
  else if op = '-' then (a.1 - b.1, accum (if a.2.isEmpty then base E a.2 b.2 else a.2) b.2 (- ·))
  else if op = '*' then (a.1 * b.1, accum (accum (base E a.2 b.2) a.2 (· * b.1)) b.2 (a.1 * ·))
  else (a.1 / b.1, accum (accum (base E a.2 b.2) a.2 (· / b.1)) b.2 (fun x => -(a.1 * x / (b.1 * b.1))))

/-- `opstring.find(op)` (parser.cc 264). -/
def isOp (c : Char) : Bool := c = '*' || c = '/' || c = '+' || c = '-'

/-- First pass of `compute` (parser.cc 228-347): `pre` is the text before the read position.
Result: stack and text at the end of the pass. -/
def pass1 (E : Env K) : Nat → List (Num K) → List Char → List Char →
    Option (Res (List (Num K) × List Char))
  | 0, _, _, _ => none
  | fuel + 1, st, pre, s =>
    match getnum E st s with
    | .err e => some (.err e)
    | .ub => some .ub
    | .ok (a, r) =>
      match skipWs r with
      | [] => some (.ok (st, pre ++ s))
      | op :: r2 =>
        if !isOp op then some (.err .parse)
        else if op = '+' || op = '-' then
          pass1 E fuel st (pre ++ s.take (s.length - r2.length)) r2
        else
          match getnum E st r2 with
          | .err e => some (.err e)
          | .ub => some .ub
          | .ok (b, r3) =>
            pass1 E fuel (st ++ [apply E op a b]) pre (stackvar st.length ++ r3)

/-- Second pass of `compute`: the read position is always at the beginning of the text. -/
def pass2 (E : Env K) : Nat → List (Num K) → List Char → Option (Res (List (Num K) × Num K))
  | 0, _, _ => none
  | fuel + 1, st, s =>
    match getnum E st s with
    | .err e => some (.err e)
    | .ub => some .ub
    | .ok (a, r) =>
      match skipWs r with
      | [] => some (.ok (st, a))
      | op :: r2 =>
        if !isOp op then some (.err .parse)
        else
          match getnum E st r2 with
          | .err e => some (.err e)
          | .ub => some .ub
          | .ok (b, r3) => pass2 E fuel (st ++ [apply E op a b]) (stackvar st.length ++ r3)

/-- Number of operator characters. -/
def nops (s : List Char) : Nat := s.countP isOp

/-- `compute` (parser.cc 213-351). -/
def compute (E : Env K) (st : List (Num K)) (s : List Char) : Option (Res (List (Num K) × Num K)) :=
  match pass1 E (nops s + 1) st [] s with
  | none => none
  | some (.err e) => some (.err e)
  | some .ub => some .ub
  | some (.ok (st1, s1)) => pass2 E (nops s1 + 1) st1 s1

/-- Position of the last `(`: text before it and text after it. -/
def splitLast (s : List Char) : Option (List Char × List Char) :=
  let r := s.reverse
  match r.dropWhile (· ≠ '(') with
  | [] => none
  | _ :: l => some (l.reverse, (r.takeWhile (· ≠ '(')).reverse)

/-- The loop over brackets of `parse` (parser.cc 374-394) and the final evaluation (parser.cc 397).
When the first `)` is at position 0, `rfind('(', -1)` searches the whole text; `substr` and `replace` then get
negative lengths, that is, "up to the end" (or an insertion, when the `(` is at position 1). -/
def brackets (E : Env K) : Nat → List (Num K) → List Char → Option (Res (Num K))
  | 0, _, _ => none
  | fuel + 1, st, line =>
    let pre := line.takeWhile (· ≠ ')')
    match line.dropWhile (· ≠ ')') with
    | [] =>
      match compute E st line with
      | none => none
      | some (.err e) => some (.err e)
      | some .ub => some .ub
      | some (.ok (_, a)) => some (.ok a)
    | _ :: post =>
      if pre = [] then
        match splitLast post with
        | none => some (.err .parse)
        | some (l, inner) =>
          match compute E st inner with
          | none => none
          | some (.err e) => some (.err e)
          | some .ub => some .ub
          | some (.ok (st1, a)) =>
            brackets E fuel (st1 ++ [a])
              (if l = [] then ')' :: stackvar st1.length ++ '(' :: inner
               else ')' :: l ++ stackvar st1.length)
      else
        match splitLast pre with
        | none => some (.err .parse)
        | some (l, inner) =>
          match compute E st inner with
          | none => none
          | some (.err e) => some (.err e)
          | some .ub => some .ub
          | some (.ok (st1, a)) => brackets E fuel (st1 ++ [a]) (l ++ stackvar st1.length ++ post)

/-- `substitute_pars`, the loop over `@` (parser.cc 44-89). Result: text and `used`. -/
def substLoop (par : ParStore K) : Nat → List Nat → List Char → Option (Res (List Nat × List Char))
  | 0, _, _ => none
  | fuel + 1, used, s =>
    let pre := s.takeWhile (· ≠ '@')
    match s.dropWhile (· ≠ '@') with
    | [] => some (.ok (used, s))
    | _ :: r =>
      match readInt r with
      | none => some (.err .parse)
      | some (id, r') =>
        if id < -2147483648 ∨ 2147483647 < id then some (.err .parse)
        else
          match par.parfind (toUnsigned id) with
          | none => some (.err .constraint)
          | some ipar =>
            if ipar < par.p.length then
              let used' := if ipar ∈ used then used else used ++ [ipar]
              substLoop par fuel used' (pre ++ stackvar (used'.idxOf ipar) ++ r')
            else some .ub

/-- Unit vector number `i`. -/
def unitVec (n i : Nat) : List K := (List.range n).map fun k => if k = i then 1 else 0

/-- The stack after `substitute_pars` (parser.cc 81-85, 96-115). -/
def initStack (par : ParStore K) (used : List Nat) : List (Num K) :=
  let deriv := used.any fun j => par.ip.getD j false
  used.mapIdx fun i j => (par.p.getD j 0,
    if deriv && par.ip.getD j false then unitVec used.length i else [])

/-- The environment after `substitute_pars`: `deriv` is set when a used parameter is free (parser.cc 91-94). -/
def envOf (tab : BTab K) (par : ParStore K) (used : List Nat) : Env K :=
  ⟨tab, used.any (fun j => par.ip.getD j false), used.length⟩

/-- `parse` (parser.cc 357-400): value, derivative vector and `used`. -/
def parse (tab : BTab K) (par : ParStore K) (line : List Char) :
    Option (Res (Num K × List Nat)) :=
  if '#' ∈ line then some (.err .parse)
  else
    match substLoop par (line.count '@' + 1) [] line with
    | none => none
    | some (.err e) => some (.err e)
    | some .ub => some .ub
    | some (.ok (used, line')) =>
      match brackets (envOf tab par used) (2 * line'.length + 2) (initStack par used) line' with
      | none => none
      | some (.err e) => some (.err e)
      | some .ub => some .ub
      | some (.ok a) => some (.ok (a, used))

end
end Pdffit.Parser
