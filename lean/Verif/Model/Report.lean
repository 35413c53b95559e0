import Verif.Model.Params
import Mathlib.Data.List.Sort

/-! # Parameter section of the results report (output.cc 246-347) -/

namespace Pdffit.Report

/-- `operator<` of `pair<unsigned int,int>` in its "not greater" form, as used by `std::sort`. -/
def le (a b : Nat × Nat) : Bool := decide (a.1 < b.1 ∨ (a.1 = b.1 ∧ a.2 ≤ b.2))

/-- `Fit::order_by_id` (output.cc 328-347).  `std::sort` on pairs, whose order is total, has one possible
result; it is computed here by insertion sort. -/
def orderById (id : List Nat) : List Nat := ((id.zipIdx).insertionSort fun a b => le a b = true).map Prod.snd

/-- One printed parameter (output.cc 280-284): index, value, error. -/
def line {K : Type} [Zero K] (s : ParStore K) (dp : List K) (i : Nat) : Res (Nat × K × K) := do
  let f ← Res.at? s.ip i
  let d ← if f then Res.at? dp i else .ok 0
  let n ← Res.at? s.id i
  let v ← Res.at? s.p i
  .ok (n, v, d)

/-- Lines printed one after the other. -/
def lines {K : Type} [Zero K] (s : ParStore K) (dp : List K) : List Nat → Res (List (Nat × K × K))
  | [] => .ok []
  | i :: is => do
    let a ← line s dp i
    let as ← lines s dp is
    .ok (a :: as)

/-- Number of refined parameters (output.cc 258-263). -/
def npar {K : Type} (s : ParStore K) : Nat := s.ip.count true

/-- The parameters listed by `Fit::output` (output.cc 252-286) when the errors are `dp`. -/
def report {K : Type} [Zero K] (s : ParStore K) (dp : List K) : Res (List (Nat × K × K)) :=
  if npar s ≠ 0 then lines s dp (orderById s.id) else .ok []

end Pdffit.Report
