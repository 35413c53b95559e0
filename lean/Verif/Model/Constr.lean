import Verif.Model.Params
import Verif.Model.Matrix
import Verif.Model.Refine
import Mathlib.Algebra.Order.Floor.Ring

/-!
# Constraints: `Fit::vfind`, `Fit::constrain`, `Fit::fill_variables` (fit.cc 564-701) and the
constraint part of `fit_setup` / `fit_theory` (fit.cc 174-285, 303-342)

* Refinable variables are addressed by numbers (C++: `double*`); `var[i]` is the `addr` of the
  constraint number `i`.
* The formula evaluator is a parameter `parse` here (modelled in `Model/Parser.lean`): formula text
  and parameters to value, and list of used parameter positions with derivatives.
* `fconstraint` (C function pointers) cannot be set through the Python API and is left out.
* Everything behind the variables (metric, PDF, derivatives, data) is an abstract `det`.
-/

namespace Pdffit

/-- `enum FCON` (pdffit.h 59). -/
inductive FCon where
  | user | ident | fcomp | fsqr
  deriving DecidableEq, Repr

/-- One entry of the parallel vectors `var, form, idef, ctype, vref` (pdffit.h 168-175).
`form = none` is the empty string. -/
structure Constr (F : Type) where
  addr : Nat
  form : Option F
  idef : Int
  ctype : FCon
  vref : Bool

/-- Why a function stopped. -/
inductive Stop where
  | exc (e : Exc) | ub
  deriving DecidableEq, Repr

section
variable {F K : Type}

/-- `Fit::vfind` (fit.cc 564-572): position of the first entry with this address, provided that
it is marked refinable; `none` is -1. -/
def vfind (cs : List (Constr F)) (a : Nat) : Option Nat :=
  match cs.findIdx? (fun c => c.addr == a) with
  | none => none
  | some i => if (cs[i]?.map Constr.vref).getD false then some i else none

/-- `Fit::constrain(a, form, f, ipar, type)` (fit.cc 575-596). -/
def constrainRaw (cs : List (Constr F)) (a : Nat) (form : Option F) (ipar : Int) (t : FCon) :
    List (Constr F) :=
  match vfind cs a with
  | some i => cs.set i ⟨a, form, ipar, t, true⟩
  | none => cs ++ [⟨a, form, ipar, t, true⟩]

/-- `Fit::constrain(a, string)` (fit.cc 599-602). -/
def constrainStr (cs : List (Constr F)) (a : Nat) (f : Option F) : List (Constr F) :=
  constrainRaw cs a f (-1) .user

/-- Binding `constrain_int` (misc.cc 674-717) with `Fit::constrain(a, ipar[, type])`
(fit.cc 609-625): type 0 (`USER`) and no type mean `IDENT`. -/
def constrainInt (cs : List (Constr F)) (a : Nat) (ipar : Int) (t : FCon) : List (Constr F) :=
  constrainRaw cs a none ipar (if t = .user then .ident else t)

/-- Formula evaluator: value and derivatives with respect to the used parameter positions. -/
abbrev FParser (F K : Type) := F → ParStore K → Except Exc (K × List (Nat × K))

/-- Storing the derivatives of one formula (fit.cc 643-656): row `i` of `dvdp`, free parameters
only; also the new value of `vref`. -/
def storeDers [Zero K] (ip : List Bool) (i : Nat) : List (Nat × K) → Bool → Mat K → Bool × Mat K × Option Stop
  | [], r, m => (r, m, none)
  | (j, d) :: l, r, m =>
    match ip[j]? with
    | none => (r, m, some .ub)
    | some true =>
      match m.set i j d with
      | .ok m' => storeDers ip i l true m'
      | _ => (true, m, some .ub)
    | some false => storeDers ip i l r m

variable [Ring K]

/-- One round of the loop of `Fit::fill_variables` (fit.cc 631-700).
Result: entry with new `vref`, variables, `dvdp`, reason for stopping. -/
def fillOne (parse : FParser F K) (par : ParStore K) (i : Nat) (c : Constr F) (v : Nat → K)
    (m : Mat K) : Constr F × (Nat → K) × Mat K × Option Stop :=
  match c.form with
  | some f =>
    match parse f par with
    | .error x => ({ c with vref := false }, v, m, some (.exc x))
    | .ok (x, ders) =>
      let r := storeDers par.ip i ders false m
      ({ c with vref := r.1 }, upd v c.addr x, r.2.1, r.2.2)
  | none =>
    match par.parfind (toUnsigned c.idef) with
    | none => ({ c with vref := false }, v, m, some (.exc .constraint))
    | some j =>
      match par.ip[j]?, par.p[j]? with
      | some fr, some x =>
        let w : Option (K × K) := match c.ctype with
          | .ident => some (x, 1)
          | .fcomp => some (1 - x, -1)
          | .fsqr => some (x * x, 2 * x)
          | .user => none
        match w with
        | none => ({ c with vref := fr }, v, m, none)
        | some (val, d) =>
          match m.set i j d with
          | .ok m' => ({ c with vref := fr }, upd v c.addr val, m', none)
          | _ => ({ c with vref := fr }, upd v c.addr val, m, some .ub)
      | _, _ => ({ c with vref := false }, v, m, some .ub)

/-- The loop of `Fit::fill_variables`, from entry `i` on. -/
def fillLoop (parse : FParser F K) (par : ParStore K) :
    Nat → List (Constr F) → (Nat → K) → Mat K → List (Constr F) × (Nat → K) × Mat K × Option Stop
  | _, [], v, m => ([], v, m, none)
  | i, c :: cs, v, m =>
    match fillOne parse par i c v m with
    | (c', v', m', some s) => (c' :: cs, v', m', some s)
    | (c', v', m', none) =>
      let r := fillLoop parse par (i + 1) cs v' m'
      (c' :: r.1, r.2.1, r.2.2.1, r.2.2.2)

/-- `Fit::fill_variables` (fit.cc 627-701). -/
def fillVariables (parse : FParser F K) (par : ParStore K) (cs : List (Constr F)) (v : Nat → K)
    (m : Mat K) : List (Constr F) × (Nat → K) × Mat K × Option Stop :=
  match m.resize cs.length par.p.length 0 with
  | .ok m' => fillLoop parse par 0 cs v m'
  | _ => (cs, v, m, some .ub)

end

/-! ### The world of the refinement machine -/

section
variable {F K C : Type} [Field K] [LinearOrder K] [FloorRing K]

/-- `fmod(x, n)`: remainder with the sign of `x`. -/
def fmodK (x n : K) : K := x - n * (if 0 ≤ x / n then (⌊x / n⌋ : K) else (⌈x / n⌉ : K))

/-- The part of a `PdfFit` object that calculations change. -/
structure CWorld (F K C : Type) where
  vars : Nat → K
  cons : List (Constr F)
  dvdp : Mat K
  refvar : List (Option Nat)
  curve : C

/-- What stays fixed during calculations. `icc a` is the supercell dimension (`icc[i]` of its
phase) if `a` is an atom coordinate; `slots` lists all refinable variables in the order of
`fit_setup` (fit.cc 198-262); `npar` is `getnpar()`; `det` is everything after the variables are set:
`lattice()` of all phases, `determine` of all data sets (fit.cc 324-341). -/
structure CStatic (F K C : Type) where
  parse : FParser F K
  icc : Nat → Option K
  slots : List Nat
  npar : Nat
  det : (Nat → K) → List (Option Nat) → List Bool → Mat K → C → C × Option Exc
  pts : C → List (List (Pt K))
  dmax : K

/-- Wrapping of the atom coordinates (fit.cc 312-322). -/
def wrapVars (icc : Nat → Option K) (v : Nat → K) : Nat → K := fun a =>
  match icc a with
  | some n => fmodK (v a) n
  | none => v a

/-- Conversion of a stop into an exception; undefined behaviour is shown not to occur. -/
def Stop.toExc : Stop → Exc
  | .exc e => e
  | .ub => .other

/-- `PdfFit::fit_theory` (fit.cc 303-342). -/
def fitTheory (S : CStatic F K C) (par : ParStore K) (w : CWorld F K C) :
    CWorld F K C × Option Stop :=
  let r := fillVariables S.parse par w.cons w.vars w.dvdp
  let w1 := { w with cons := r.1, vars := r.2.1, dvdp := r.2.2.1 }
  match r.2.2.2 with
  | some s => (w1, some s)
  | none =>
    let w2 := { w1 with vars := wrapVars S.icc w1.vars }
    let d := S.det w2.vars w2.refvar (w2.cons.map Constr.vref) w2.dvdp w2.curve
    ({ w2 with curve := d.1 }, d.2.map Stop.exc)

/-- `PdfFit::fit_setup` (fit.cc 174-285). -/
def fitSetup (S : CStatic F K C) (par : ParStore K) (w : CWorld F K C) :
    CWorld F K C × Option Stop :=
  let r := fillVariables S.parse par w.cons w.vars w.dvdp
  let w1 := { w with cons := r.1, vars := r.2.1, dvdp := r.2.2.1 }
  match r.2.2.2 with
  | some s => (w1, some s)
  | none =>
    let w2 := { w1 with refvar := S.slots.map (vfind w1.cons) }
    if S.slots.length ≠ S.npar then (w2, some (.exc .constraint)) else (w2, none)

/-- The refinement machine with constraints. -/
def constrTheory (S : CStatic F K C) : Theory K (CWorld F K C) where
  setup par w := let r := fitSetup S par w; (r.1, r.2.map Stop.toExc)
  eval par w := let r := fitTheory S par w; (r.1, r.2.map Stop.toExc)
  pts w := S.pts w.curve
  dmax := S.dmax

end
end Pdffit
