import Verif.Basic
import Mathlib.Data.Matrix.Basic
import Mathlib.Algebra.Order.Field.Basic
import Mathlib.Algebra.Order.Group.Abs
import Mathlib.Data.List.FinRange
import Mathlib.Logic.Equiv.Basic

/-!
# Gauss-Jordan elimination `gaussj` (gaussj.cc 31-112)

Indices are `Fin n` (C++: 1..n).  `double` is an arbitrary linearly ordered field.
-/

namespace Pdffit
variable {K : Type} [Field K] [LinearOrder K]

/-- Local state of `gaussj`: matrices `a`, `b`, the flags `ipiv`, the variables `irow`, `icol`
(`none` for the initial value 0) and the pairs `(indxr[i], indxc[i])`, latest first. -/
structure GJ (n m : Nat) (K : Type) where
  a : Matrix (Fin n) (Fin n) K
  b : Matrix (Fin n) (Fin m) K
  ipiv : Fin n → Nat
  piv : Option (Fin n × Fin n)
  idx : List (Fin n × Fin n)

/-- Pivot search (gaussj.cc 47-65): state is `big` and `(irow, icol)`. -/
def gjSearch {n : Nat} (a : Matrix (Fin n) (Fin n) K) (ipiv : Fin n → Nat)
    (init : Option (Fin n × Fin n)) : K × Option (Fin n × Fin n) :=
  (List.finRange n).foldl (fun s j =>
    if ipiv j ≠ 1 then
      (List.finRange n).foldl (fun s k =>
        if ipiv k = 0 then
          if |a j k| ≥ s.1 then (|a j k|, some (j, k)) else s
        else s) s
    else s) (0, init)

/-- Row interchange (gaussj.cc 74-77). -/
def gjSwapRows {n k : Nat} (x : Matrix (Fin n) (Fin k) K) (r c : Fin n) :
    Matrix (Fin n) (Fin k) K :=
  fun i j => x (Equiv.swap r c i) j

/-- Reduction with pivot `(c,c)` of the square matrix (gaussj.cc 89-98).  The loop over `ll`
treats independent rows, so it is written as one expression per row. -/
def gjReduceA {n : Nat} (a : Matrix (Fin n) (Fin n) K) (c : Fin n) : Matrix (Fin n) (Fin n) K :=
  let pivinv := 1 / a c c
  let rowc : Fin n → K := fun l => (if l = c then 1 else a c l) * pivinv
  fun ll l => if ll = c then rowc l
    else (if l = c then 0 else a ll l) - rowc l * a ll c

/-- The same reduction of the right-hand sides (gaussj.cc 92, 98); `a` is the matrix before
the reduction. -/
def gjReduceB {n m : Nat} (a : Matrix (Fin n) (Fin n) K) (b : Matrix (Fin n) (Fin m) K)
    (c : Fin n) : Matrix (Fin n) (Fin m) K :=
  let pivinv := 1 / a c c
  fun ll l => if ll = c then b c l * pivinv else b ll l - (b c l * pivinv) * a ll c

/-- One pass of the main loop (gaussj.cc 46-100).  `++ipiv[icol]` with `icol = 0` would write
outside `ipiv`. -/
def gjStep {n m : Nat} (s : GJ n m K) : Res (GJ n m K) :=
  match (gjSearch s.a s.ipiv s.piv).2 with
  | none => .ub
  | some (irow, icol) =>
    let ipiv := fun k => if k = icol then s.ipiv k + 1 else s.ipiv k
    let a := gjSwapRows s.a irow icol
    let b := gjSwapRows s.b irow icol
    if a icol icol = 0 then .err .calculation
    else .ok {
      a := gjReduceA a icol
      b := gjReduceB a b icol
      ipiv := ipiv
      piv := some (irow, icol)
      idx := (irow, icol) :: s.idx }

/-- The main loop, `k` passes. -/
def gjLoop {n m : Nat} : Nat → GJ n m K → Res (GJ n m K)
  | 0, s => .ok s
  | k + 1, s => gjStep s >>= gjLoop k

/-- Column unscrambling (gaussj.cc 104-108), latest pivot first. -/
def gjUnscramble {n : Nat} (a : Matrix (Fin n) (Fin n) K) :
    List (Fin n × Fin n) → Matrix (Fin n) (Fin n) K
  | [] => a
  | (r, c) :: rest => gjUnscramble (fun k l => a k (Equiv.swap r c l)) rest

/-- `gaussj(a, n, b, m)` (gaussj.cc 31-112): new contents of `a` and `b`, or the exception. -/
def gaussj {n m : Nat} (a : Matrix (Fin n) (Fin n) K) (b : Matrix (Fin n) (Fin m) K) :
    Res (Matrix (Fin n) (Fin n) K × Matrix (Fin n) (Fin m) K) :=
  match gjLoop n (GJ.mk a b (fun _ => 0) none []) with
  | .ok s => .ok (gjUnscramble s.a s.idx, s.b)
  | .err e => .err e
  | .ub => .ub

end Pdffit
