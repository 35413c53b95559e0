import Verif.Model.Constr

/-!
# Histories of calls that concern parameters and constraints

`setpar`, `fixpar`/`freepar`, `constrain` and evaluations (`calc`, every evaluation of a refinement).
A refinement is any sequence of parameter changes (`values`) and evaluations; `eval` carries the values that
the variables have before the evaluation, since the user may set them in between.
-/

namespace Pdffit

/-- Parameters, constraints and derivative matrix of one `Fit` object. -/
structure CState (F K : Type) where
  par : ParStore K := {}
  cons : List (Constr F) := []
  dvdp : Mat K := .empty

/-- Calls. -/
inductive COp (F K : Type) where
  | setpar (i : Int) (v : K)
  | flag (i : Int) (b : Bool)
  | str (a : Nat) (f : Option F)
  | int (a : Nat) (i : Int) (t : FCon)
  | values (p : Nat → K)
  | eval (v : Nat → K)

variable {F K : Type} [Ring K]

/-- One call; a call that raises is not distinguished here, but its effect on the state is kept. -/
def CState.exec (parse : FParser F K) (s : CState F K) : COp F K → CState F K
  | .setpar i v => { s with par := s.par.setpar (toUnsigned i) v }
  | .flag i b => match s.par.setflag i b with
    | .ok par => { s with par := par }
    | _ => s
  | .str a f => { s with cons := constrainStr s.cons a f }
  | .int a i t => { s with cons := constrainInt s.cons a i t }
  | .values p => { s with par := { s.par with p := (List.range s.par.p.length).map p } }
  | .eval v =>
    let r := fillVariables parse s.par s.cons v s.dvdp
    { s with cons := r.1, dvdp := r.2.2.1 }

/-- A history. -/
def CState.run (parse : FParser F K) (s : CState F K) (ops : List (COp F K)) : CState F K :=
  ops.foldl (CState.exec parse) s

end Pdffit
