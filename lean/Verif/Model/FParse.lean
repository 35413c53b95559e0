import Verif.Model.Parser
import Verif.Model.Constr

/-!
# The formula evaluator as used by `fill_variables` (fit.cc 637-657)

`fill_variables` reads `dnumdp[iu]` for the free parameters among `used`.  For formulas of the
grammar the vector is long enough (`C10.gradient`).  For texts in which a closing bracket is directly followed
by a digit it can be empty, which is an out-of-range read in C++; the model gives 0 there.
-/

namespace Pdffit.Parser
variable {K : Type} [Field K]

/-- Value of a formula text, and the used parameter positions with their derivatives. -/
def fparse (tab : BTab K) : FParser (List Char) K := fun f par =>
  match parse tab par f with
  | some (.ok (a, used)) => .ok (a.1, used.mapIdx fun i j => (j, a.2.getD i 0))
  | some (.err e) => .error e
  | _ => .error .other

/-- The parameter numbers behind the `@` signs of a text. -/
def atIds : Nat → List Char → List Nat
  | 0, _ => []
  | fuel + 1, s =>
    match s.dropWhile (· ≠ '@') with
    | [] => []
    | _ :: r =>
      match readInt r with
      | none => []
      | some (id, r') => toUnsigned id :: atIds fuel r'

/-- The parameter numbers used in a text. -/
def textIds (s : List Char) : List Nat := atIds (s.count '@' + 1) s

end Pdffit.Parser
