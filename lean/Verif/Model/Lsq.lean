import Verif.Basic
import Mathlib.Algebra.Order.Field.Basic
import Mathlib.Logic.Equiv.Basic

/-!
# Least-squares kernels `mrqcof` (accumulation part) and `covsrt` (pdflsmin.cc)

C++ arrays `x[1..n]` are total functions `Nat → K` with 0-based index; only the cells below
the array size matter.  The loops that only assign a constant or copy a block are written as
one expression, the accumulation loops are kept as loops.
-/

namespace Pdffit
variable {K : Type} [Field K]

/-- `a[i] = v`. -/
def upd (a : Nat → K) (i : Nat) (v : K) : Nat → K := fun k => if k = i then v else a k

/-- `a[i][j] = v`. -/
def upd2 (a : Nat → Nat → K) (i j : Nat) (v : K) : Nat → Nat → K :=
  fun r c => if r = i ∧ c = j then v else a r c

/-- One fitted point of a data set: `wic[i]`, `obs[i]`, `pdftot[i]`, row `fit_b[i]`
(pdflsmin.cc 273-277). -/
structure Pt (K : Type) where
  w : K
  obs : K
  mod : K
  d : Nat → K

/-- Number of free parameters among the first `l` (the counters `mfit`, `j`, `k` of
pdflsmin.cc 100-101, 281-285). -/
def nfree (ia : Nat → Bool) : Nat → Nat
  | 0 => 0
  | l + 1 => if ia l then nfree ia l + 1 else nfree ia l

/-- Inner loop `for (k = 0, m = 1; m <= l; m++)` (pdflsmin.cc 284-285) for row `j`:
value of `k` and matrix after `cnt` passes. -/
def accRow (ia : Nat → Bool) (d : Nat → K) (wt : K) (j : Nat) (al : Nat → Nat → K) :
    Nat → Nat × (Nat → Nat → K)
  | 0 => (0, al)
  | m + 1 =>
    let s := accRow ia d wt j al m
    if ia m then (s.1 + 1, upd2 s.2 j s.1 (s.2 j s.1 + wt * d m)) else s

/-- Loop over `l` for one point (pdflsmin.cc 281-288): value of `j`, `alpha`, `beta` after
`cnt` passes. -/
def accPoint (ia : Nat → Bool) (pt : Pt K) (al : Nat → Nat → K) (be : Nat → K) :
    Nat → Nat × (Nat → Nat → K) × (Nat → K)
  | 0 => (0, al, be)
  | l + 1 =>
    let s := accPoint ia pt al be l
    if ia l then
      let wt := pt.d l * pt.w
      (s.1 + 1, (accRow ia pt.d wt s.1 s.2.1 (l + 1)).2,
        upd s.2.2 s.1 (s.2.2 s.1 + (pt.obs - pt.mod) * wt))
    else s

/-- `dy * dy * sig2i` (pdflsmin.cc 290). -/
def contrib (pt : Pt K) : K := (pt.obs - pt.mod) * (pt.obs - pt.mod) * pt.w

/-- `cumchisq` of a data set (pdflsmin.cc 289-291), starting from the last value `prev`. -/
def cumChisq (prev : K) : List (Pt K) → List K
  | [] => []
  | p :: ps => (prev + contrib p) :: cumChisq (prev + contrib p) ps

/-- `cumchisq.empty() ? 0.0 : cumchisq.back()` (pdflsmin.cc 293). -/
def lastOr0 (l : List K) : K := l.getLast?.getD 0

/-- Accumulation part of `mrqcof` (pdflsmin.cc 184-187, 262-296), after `fit_theory` has
produced the points of every data set. Result: `alpha`, `beta`, `chisq`, `cumchisq`s. -/
def mrqAcc (ia : Nat → Bool) (ma : Nat) (dss : List (List (Pt K)))
    (alpha : Nat → Nat → K) (beta : Nat → K) :
    (Nat → Nat → K) × (Nat → K) × K × List (List K) :=
  let mfit := nfree ia ma
  let al0 := fun j k => if j < mfit ∧ k ≤ j then 0 else alpha j k
  let be0 := fun j => if j < mfit then 0 else beta j
  let ab := dss.flatten.foldl (fun s pt => (accPoint ia pt s.1 s.2 ma).2) (al0, be0)
  let al := fun k j => if k < j ∧ j < mfit then ab.1 j k else ab.1 k j
  let cums := dss.map (cumChisq 0)
  (al, ab.2, cums.foldl (fun c l => c + lastOr0 l) 0, cums)

/-- First block of `covsrt` (pdflsmin.cc 308-314). -/
def covZero (c : Nat → Nat → K) (ma mfit : Nat) : Nat → Nat → K :=
  fun i j => if (mfit ≤ i ∧ i < ma ∧ j ≤ i) ∨ (mfit ≤ j ∧ j < ma ∧ i ≤ j) then 0 else c i j

/-- `swap(covar[i][k], covar[i][j])` for all `i`, then `swap(covar[k][i], covar[j][i])` for
all `i` (pdflsmin.cc 319-320). -/
def covSwap (c : Nat → Nat → K) (k j : Nat) : Nat → Nat → K :=
  let c1 := fun i l => c i (Equiv.swap k j l)
  fun i l => c1 (Equiv.swap k j i) l

/-- Loop `for (j = ma; j >= 1; j--)` of `covsrt` (pdflsmin.cc 316-323); `k` is the C++ value,
a swap with `k = 0` is out of range. -/
def covLoop (ia : Nat → Bool) : Nat → Nat → (Nat → Nat → K) → Res (Nat → Nat → K)
  | 0, _, c => .ok c
  | j + 1, k, c =>
    if ia j then
      match k with
      | 0 => .ub
      | k' + 1 => covLoop ia j k' (covSwap c k' j)
    else covLoop ia j k c

/-- `covsrt(covar, ma, ia, mfit)` (pdflsmin.cc 305-324). -/
def covsrt (c : Nat → Nat → K) (ma : Nat) (ia : Nat → Bool) (mfit : Nat) :
    Res (Nat → Nat → K) :=
  covLoop ia ma mfit (covZero c ma mfit)

end Pdffit
