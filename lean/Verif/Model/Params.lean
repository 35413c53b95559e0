import Verif.Basic

/-!
# Parameter store of `Fit` (fit.cc 703-775, pdffit.h 161-164)

`vector<double> p`, `vector<int> ip`, `vector<unsigned int> id` are three lists.
Values live in an arbitrary type `K` (C++: double).
-/

namespace Pdffit

/-- `p`, `ip`, `id` of class `Fit` (pdffit.h 161-164). -/
structure ParStore (K : Type) where
  p : List K := []
  ip : List Bool := []
  id : List Nat := []

/-- Conversion of a Python/C `int` to `unsigned int` (misc.cc 728 format "I",
fit.cc 750/767 implicit conversion): value modulo 2^32. -/
def toUnsigned (i : Int) : Nat := (i % 4294967296).toNat

/-- The constant `ALL` (pdffit.h: `enum {ALL=-1}`). -/
def ALL : Int := -1

namespace ParStore
variable {K : Type}

/-- `Fit::parfind` (fit.cc 703-714): position of the first match, `none` for -1. -/
def parfind (s : ParStore K) (pidx : Nat) : Option Nat :=
  s.id.findIdx? (· == pidx)

/-- `Fit::setpar` (fit.cc 716-729). -/
def setpar (s : ParStore K) (pidx : Nat) (val : K) : ParStore K :=
  match s.parfind pidx with
  | some i => { s with p := s.p.set i val }
  | none => { p := s.p ++ [val], ip := s.ip ++ [true], id := s.id ++ [pidx] }

/-- `Fit::getpar` (fit.cc 731-741). -/
def getpar (s : ParStore K) (pidx : Nat) : Res K :=
  match s.parfind pidx with
  | some i => Res.at? s.p i
  | none => .err .unassigned

/-- `Fit::fixpar` / `Fit::freepar` (fit.cc 743-758, 760-775) with the flag as argument.
A write behind the end of `ip` is undefined behaviour. -/
def setflag (s : ParStore K) (pidx : Int) (flag : Bool) : Res (ParStore K) :=
  if pidx = ALL then .ok { s with ip := s.ip.map fun _ => flag }
  else match s.parfind (toUnsigned pidx) with
    | some i => if i < s.ip.length then .ok { s with ip := s.ip.set i flag } else .ub
    | none => .err .unassigned

end ParStore

/-- API calls on parameters (pdffit.py setpar/getpar/fixpar/freepar; `isfree` is the
flag as it is used by the refinement, fit.cc 278). -/
inductive ParOp (K : Type) where
  | setpar (i : Int) (v : K)
  | getpar (i : Int)
  | fixpar (i : Int)
  | freepar (i : Int)

/-- Visible result of a call: nothing, a value, an exception, or undefined behaviour. -/
inductive ParOut (K : Type) where
  | unit | val (v : K) | err (e : Exc) | ub

/-- `true` when `i` fits in a C `int` (misc.cc 1054, 1078, format "i"). -/
def fitsInt (i : Int) : Bool := decide (-2147483648 ≤ i ∧ i ≤ 2147483647)

/-- One API call: binding (misc.cc 723-742, 1027-1092) followed by the engine method.
A call that raises leaves the state as it is. -/
def ParStore.step {K : Type} (s : ParStore K) : ParOp K → ParStore K × ParOut K
  | .setpar i v => (s.setpar (toUnsigned i) v, .unit)
  | .getpar i => (s, match s.getpar (toUnsigned i) with
      | .ok v => .val v | .err e => .err e | .ub => .ub)
  | .fixpar i => if fitsInt i then
      match s.setflag i false with
      | .ok s' => (s', .unit) | .err e => (s, .err e) | .ub => (s, .ub)
      else (s, .err .overflow)
  | .freepar i => if fitsInt i then
      match s.setflag i true with
      | .ok s' => (s', .unit) | .err e => (s, .err e) | .ub => (s, .ub)
      else (s, .err .overflow)

/-- A history of API calls with the outputs in order. -/
def ParStore.run {K : Type} (s : ParStore K) : List (ParOp K) → ParStore K × List (ParOut K)
  | [] => (s, [])
  | o :: os =>
    let (s1, r) := s.step o
    let (s2, rs) := s1.run os
    (s2, r :: rs)

end Pdffit
