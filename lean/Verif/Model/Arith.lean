import Verif.Model.Refine

/-!
# The refinement in any arithmetic (gaussj.cc 31-112, pdflsmin.cc 36-327, fit.cc 40-146)

The machine of `Model/Gaussj.lean`, `Model/Lsq.lean` and `Model/Refine.lean` once more, with the operations in the order of the source, for
numbers of which nothing is known: the operations are any functions and the comparisons any relations. This covers IEEE doubles with
every rounding mode, overflow, infinities and NaN, and other formats. Sums and differences with a product are operations of their own, so that
a compiler may fuse them. Not covered: intermediate results of a higher precision than what is stored.
-/

namespace Pdffit

/-- The numbers of a machine. `lt`, `le`, `eq` are `<`, `<=`, `==`; `madd s x y` is `s += x * y` and `msub s x y` is `s -= x * y`. -/
class Arith (F : Type) where
  zero : F
  one : F
  minusOne : F
  thousandth : F
  tenth : F
  ten : F
  add : F → F → F
  sub : F → F → F
  mul : F → F → F
  div : F → F → F
  madd : F → F → F → F
  msub : F → F → F → F
  fabs : F → F
  lt : F → F → Bool
  le : F → F → Bool
  eq : F → F → Bool

/-- Exact arithmetic. -/
abbrev Arith.exact (K : Type) [Field K] [LinearOrder K] : Arith K where
  zero := 0
  one := 1
  minusOne := -1
  thousandth := 1 / 1000
  tenth := 1 / 10
  ten := 10
  add := (· + ·)
  sub := (· - ·)
  mul := (· * ·)
  div := (· / ·)
  madd s x y := s + x * y
  msub s x y := s - x * y
  fabs x := |x|
  lt x y := decide (x < y)
  le x y := decide (x ≤ y)
  eq x y := decide (x = y)

/-- Arithmetic in which every result is rounded. -/
abbrev Arith.rounded {K : Type} [Field K] [LinearOrder K] (rnd : K → K) : Arith K where
  zero := 0
  one := 1
  minusOne := -1
  thousandth := rnd (1 / 1000)
  tenth := rnd (1 / 10)
  ten := 10
  add x y := rnd (x + y)
  sub x y := rnd (x - y)
  mul x y := rnd (x * y)
  div x y := rnd (x / y)
  madd s x y := rnd (s + rnd (x * y))
  msub s x y := rnd (s - rnd (x * y))
  fabs x := |x|
  lt x y := decide (x < y)
  le x y := decide (x ≤ y)
  eq x y := decide (x = y)

/-- The doubles of Lean. -/
abbrev Arith.float : Arith Float where
  zero := 0
  one := 1
  minusOne := -1
  thousandth := 0.001
  tenth := 0.1
  ten := 10
  add := (· + ·)
  sub := (· - ·)
  mul := (· * ·)
  div := (· / ·)
  madd s x y := s + x * y
  msub s x y := s - x * y
  fabs := Float.abs
  lt x y := decide (x < y)
  le x y := decide (x ≤ y)
  eq x y := x == y

namespace Any
open Arith
variable {F W : Type} [Arith F]

/-! ## `gaussj` -/

/-- Pivot search (gaussj.cc 47-65) -/
def gjSearch {n : ℕ} (a : Matrix (Fin n) (Fin n) F) (ipiv : Fin n → ℕ) (init : Option (Fin n × Fin n)) : F × Option (Fin n × Fin n) :=
  (List.finRange n).foldl (fun s j =>
    if ipiv j ≠ 1 then
      (List.finRange n).foldl (fun s k =>
        if ipiv k = 0 then
          if le s.1 (fabs (a j k)) then (fabs (a j k), some (j, k)) else s
        else s) s
    else s) (zero, init)

/-- Row interchange (gaussj.cc 74-77). -/
def gjSwapRows {n k : ℕ} (x : Matrix (Fin n) (Fin k) F) (r c : Fin n) : Matrix (Fin n) (Fin k) F := fun i j => x (Equiv.swap r c i) j

/-- Reduction of the square matrix (gaussj.cc 89-98). -/
def gjReduceA {n : ℕ} (a : Matrix (Fin n) (Fin n) F) (c : Fin n) : Matrix (Fin n) (Fin n) F :=
  let pivinv := div one (a c c)
  let rowc : Fin n → F := fun l => mul (if l = c then one else a c l) pivinv
  fun ll l => if ll = c then rowc l else msub (if l = c then zero else a ll l) (rowc l) (a ll c)

/-- Reduction of the right-hand sides (gaussj.cc 92, 98). -/
def gjReduceB {n m : ℕ} (a : Matrix (Fin n) (Fin n) F) (b : Matrix (Fin n) (Fin m) F) (c : Fin n) : Matrix (Fin n) (Fin m) F :=
  let pivinv := div one (a c c)
  fun ll l => if ll = c then mul (b c l) pivinv else msub (b ll l) (mul (b c l) pivinv) (a ll c)

/-- One pass of the main loop (gaussj.cc 46-100). When no element has been taken as pivot `icol` is 0: `ipiv[0]` is allocated (`NR_END`, nrutil.cc
37-46), and the check in line 84 throws. In a later pass `irow` and `icol` keep their values. -/
def gjStep {n m : ℕ} (s : GJ n m F) : Res (GJ n m F) :=
  match (gjSearch s.a s.ipiv s.piv).2 with
  | none => .err .calculation
  | some (irow, icol) =>
    let ipiv := fun k => if k = icol then s.ipiv k + 1 else s.ipiv k
    let a := gjSwapRows s.a irow icol
    let b := gjSwapRows s.b irow icol
    if eq (a icol icol) zero then .err .calculation
    else .ok {
      a := gjReduceA a icol
      b := gjReduceB a b icol
      ipiv := ipiv
      piv := some (irow, icol)
      idx := (irow, icol) :: s.idx }

/-- The main loop, `k` passes. -/
def gjLoop {n m : ℕ} : ℕ → GJ n m F → Res (GJ n m F)
  | 0, s => .ok s
  | k + 1, s => gjStep s >>= gjLoop k

/-- Column unscrambling (gaussj.cc 104-108), latest pivot first. -/
def gjUnscramble {n : ℕ} (a : Matrix (Fin n) (Fin n) F) : List (Fin n × Fin n) → Matrix (Fin n) (Fin n) F
  | [] => a
  | (r, c) :: rest => gjUnscramble (fun k l => a k (Equiv.swap r c l)) rest

/-- `gaussj` (gaussj.cc 31-112) -/
def gaussj {n m : ℕ} (a : Matrix (Fin n) (Fin n) F) (b : Matrix (Fin n) (Fin m) F) :
    Res (Matrix (Fin n) (Fin n) F × Matrix (Fin n) (Fin m) F) :=
  match gjLoop n (GJ.mk a b (fun _ => 0) none []) with
  | .ok s => .ok (gjUnscramble s.a s.idx, s.b)
  | .err e => .err e
  | .ub => .ub

/-! ## `mrqcof`, `covsrt` -/

/-- `a[i] = v` -/
def upd (a : ℕ → F) (i : ℕ) (v : F) : ℕ → F := fun k => if k = i then v else a k

/-- `a[i][j] = v` -/
def upd2 (a : ℕ → ℕ → F) (i j : ℕ) (v : F) : ℕ → ℕ → F := fun r c => if r = i ∧ c = j then v else a r c

/-- Inner loop over `m` (pdflsmin.cc 284-285). -/
def accRow (ia : ℕ → Bool) (d : ℕ → F) (wt : F) (j : ℕ) (al : ℕ → ℕ → F) : ℕ → ℕ × (ℕ → ℕ → F)
  | 0 => (0, al)
  | m + 1 =>
    let s := accRow ia d wt j al m
    if ia m then (s.1 + 1, upd2 s.2 j s.1 (madd (s.2 j s.1) wt (d m))) else s

/-- Loop over `l` for one point (pdflsmin.cc 281-288). -/
def accPoint (ia : ℕ → Bool) (pt : Pt F) (al : ℕ → ℕ → F) (be : ℕ → F) : ℕ → ℕ × (ℕ → ℕ → F) × (ℕ → F)
  | 0 => (0, al, be)
  | l + 1 =>
    let s := accPoint ia pt al be l
    if ia l then
      let wt := mul (pt.d l) pt.w
      (s.1 + 1, (accRow ia pt.d wt s.1 s.2.1 (l + 1)).2, upd s.2.2 s.1 (madd (s.2.2 s.1) (sub pt.obs pt.mod) wt))
    else s

/-- `prev + dy * dy * sig2i` (pdflsmin.cc 289-291) -/
def addSquare (prev : F) (pt : Pt F) : F := madd prev (mul (sub pt.obs pt.mod) (sub pt.obs pt.mod)) pt.w

/-- `cumchisq` of a data set (pdflsmin.cc 289-291). -/
def cumChisq (prev : F) : List (Pt F) → List F
  | [] => []
  | p :: ps => addSquare prev p :: cumChisq (addSquare prev p) ps

/-- `cumchisq.empty() ? 0.0 : cumchisq.back()` (pdflsmin.cc 293) -/
def lastOr0 (l : List F) : F := l.getLast?.getD zero

/-- Accumulation part of `mrqcof` (pdflsmin.cc 184-187, 262-296). -/
def mrqAcc (ia : ℕ → Bool) (ma : ℕ) (dss : List (List (Pt F))) (alpha : ℕ → ℕ → F) (beta : ℕ → F) : (ℕ → ℕ → F) × (ℕ → F) × F × List (List F) :=
  let mfit := nfree ia ma
  let al0 := fun j k => if j < mfit ∧ k ≤ j then zero else alpha j k
  let be0 := fun j => if j < mfit then zero else beta j
  let ab := dss.flatten.foldl (fun s pt => (accPoint ia pt s.1 s.2 ma).2) (al0, be0)
  let al := fun k j => if k < j ∧ j < mfit then ab.1 j k else ab.1 k j
  let cums := dss.map (cumChisq zero)
  (al, ab.2, cums.foldl (fun c l => add c (lastOr0 l)) zero, cums)

/-- First block of `covsrt` (pdflsmin.cc 308-314). -/
def covZero (c : ℕ → ℕ → F) (ma mfit : ℕ) : ℕ → ℕ → F :=
  fun i j => if (mfit ≤ i ∧ i < ma ∧ j ≤ i) ∨ (mfit ≤ j ∧ j < ma ∧ i ≤ j) then zero else c i j

/-- Swaps of `covsrt` (pdflsmin.cc 319-320). -/
def covSwap (c : ℕ → ℕ → F) (k j : ℕ) : ℕ → ℕ → F :=
  let c1 := fun i l => c i (Equiv.swap k j l)
  fun i l => c1 (Equiv.swap k j i) l

/-- Loop of `covsrt` (pdflsmin.cc 316-323). -/
def covLoop (ia : ℕ → Bool) : ℕ → ℕ → (ℕ → ℕ → F) → Res (ℕ → ℕ → F)
  | 0, _, c => .ok c
  | j + 1, k, c =>
    if ia j then
      match k with
      | 0 => .ub
      | k' + 1 => covLoop ia j k' (covSwap c k' j)
    else covLoop ia j k c

/-- `covsrt` (pdflsmin.cc 305-324) -/
def covsrt (c : ℕ → ℕ → F) (ma : ℕ) (ia : ℕ → Bool) (mfit : ℕ) : Res (ℕ → ℕ → F) := covLoop ia ma mfit (covZero c ma mfit)

/-- `fit.wnorm` (fit.cc 330-341, pdf.cc 1141-1149) -/
def wnormOf (dss : List (List (Pt F))) : F := dss.foldl (fun s l => add s (l.foldl (fun x p => madd x (mul p.w p.obs) p.obs) zero)) zero

/-! ## `mrqmin`, `refine_step`, `refine` -/

/-- `ia` as function. -/
def ia (e : Eng F W) : ℕ → Bool := fun l => e.par.ip.getD l false

/-- The array `_a` (pdflsmin.cc 41-44). -/
def arr (e : Eng F W) : ℕ → F := fun l => e.par.p.getD l zero

/-- `a.size()` -/
def ma (e : Eng F W) : ℕ := e.par.p.length

/-- Store an array into `fit.p` (pdflsmin.cc 46, 190-191). -/
def setP (e : Eng F W) (a : ℕ → F) : Eng F W := { e with par := { e.par with p := (List.range (ma e)).map a } }

/-- `mrqcof` (pdflsmin.cc 175-299) -/
def mrqcof (th : Theory F W) (e : Eng F W) (a : ℕ → F) (alpha : ℕ → ℕ → F) (beta : ℕ → F) : Eng F W × Except Exc ((ℕ → ℕ → F) × (ℕ → F)) :=
  let e1 := setP e a
  match th.eval e1.par e1.world with
  | (w, some x) => ({ e1 with world := w }, .error x)
  | (w, none) =>
    let r := mrqAcc (ia e1) (ma e1) (th.pts w) alpha beta
    ({ e1 with world := w, chisq := r.2.2.1, cum := r.2.2.2 }, .ok (r.1, r.2.1))

/-- Initialization branch of `mrqmin` (pdflsmin.cc 93-114). -/
def mrqInit (th : Theory F W) (old : Option (Work F)) (e : Eng F W) : Work F × Eng F W × Option Exc :=
  let mfit := nfree (ia e) (ma e)
  let w0 : Work F := ⟨ma e, mfit, (old.map Work.ochisq).getD zero, fun _ => zero, fun _ => zero, fun _ => zero⟩
  let e1 := { e with alambda := thousandth }
  match mrqcof th e1 (arr e1) e1.alpha w0.beta with
  | (e2, .error x) => (w0, e2, some x)
  | (e2, .ok (al, be)) =>
    let e3 := { e2 with alpha := al }
    ({ w0 with ochisq := e3.chisq, atry := arr e3, beta := be }, { e3 with rw2 := div e3.chisq (wnormOf (th.pts e3.world)) }, none)

/-- Augmented matrix (pdflsmin.cc 116-121). -/
def augmented (e : Eng F W) : ℕ → ℕ → F := fun j k => if j = k then mul (e.alpha j j) (add one e.alambda) else e.alpha j k

/-- `gaussj(covar, mfit, oneda, 1)` (pdflsmin.cc 131) -/
def solveNormal (mfit : ℕ) (m : ℕ → ℕ → F) (beta : ℕ → F) (covar : ℕ → ℕ → F) (da : ℕ → F) : Res ((ℕ → ℕ → F) × (ℕ → F)) :=
  match gaussj (n := mfit) (m := 1) (fun i j => m i j) (fun i _ => beta i) with
  | .ok (inv, x) =>
    .ok (fun i j => if h : i < mfit ∧ j < mfit then inv ⟨i, h.1⟩ ⟨j, h.2⟩ else covar i j, fun i => if h : i < mfit then x ⟨i, h⟩ 0 else da i)
  | .err x => .err x
  | .ub => .ub

/-- The trial values (pdflsmin.cc 153-154). -/
def trial (wk : Work F) (e : Eng F W) (da : ℕ → F) : ℕ → F :=
  fun l => if l < ma e ∧ ia e l = true then add (arr e l) (da (nfree (ia e) l)) else wk.atry l

/-- Rest of `mrqmin` (pdflsmin.cc 116-171). -/
def mrqTry (th : Theory F W) (wk : Work F) (e : Eng F W) : Option (Work F) × Eng F W × Outcome :=
  match solveNormal wk.mfit (augmented e) wk.beta e.covar wk.da with
  | .err x => (some wk, e, .exc x)
  | .ub => (some wk, e, .corrupt)
  | .ok (cov, da) =>
    if eq e.alambda zero then
      match covsrt cov (ma e) (ia e) wk.mfit, covsrt e.alpha (ma e) (ia e) wk.mfit with
      | .ok c, .ok al => (none, { e with covar := c, alpha := al }, .more)
      | _, _ => (none, e, .corrupt)
    else
      match mrqcof th { e with covar := cov } (trial wk e da) cov da with
      | (e1, .error x) => (some { wk with atry := trial wk e da, da := da }, e1, .exc x)
      | (e1, .ok (cov1, da1)) =>
        let e2 := { e1 with covar := cov1 }
        if lt e2.chisq wk.ochisq then
          (some { wk with ochisq := e2.chisq, atry := trial wk e da, da := da1, beta := da1 },
            { (setP e2 (trial wk e da)) with alambda := mul e2.alambda tenth, alpha := cov1 }, .more)
        else
          (some { wk with atry := trial wk e da, da := da1 }, { (setP e2 (arr e)) with alambda := mul e2.alambda ten, chisq := wk.ochisq }, .more)

/-- `PdfFit::mrqmin` (pdflsmin.cc 36-171) -/
def mrqmin (th : Theory F W) (old : Option (Work F)) (e : Eng F W) : Option (Work F) × Eng F W × Outcome :=
  if lt e.alambda zero then
    match mrqInit th old e with
    | (wk, e1, some x) => (some wk, e1, .exc x)
    | (wk, e1, none) => mrqTry th wk e1
  else
    match old with
    | none => (none, e, .corrupt)
    | some wk => if wk.ma = ma e ∧ wk.mfit = nfree (ia e) (ma e) then mrqTry th wk e else (old, e, .corrupt)

/-- Body of `refine_step` after the optional set-up (fit.cc 92-145). -/
def refineBody (th : Theory F W) (toler : F) (work : Option (Work F)) (e : Eng F W) : Statics F × Eng F W × Outcome :=
  if e.iter < 3 ∨ (e.stagnating < 3 ∧ e.iter < 100) then
    match mrqmin th work { e with ochisq := e.chisq } with
    | (wk, e1, .more) =>
      let stag := if e1.iter ≠ 0 ∧ le (sub e1.ochisq e1.chisq) (mul toler e1.ochisq) then e1.stagnating + 1 else 0
      (⟨true, wk⟩, { e1 with stagnating := stag, iter := e1.iter + 1, rw2 := div e1.chisq (wnormOf (th.pts e1.world)) }, .more)
    | (wk, e1, o) => (⟨true, wk⟩, e1, o)
  else
    match mrqmin th work { e with alambda := zero } with
    | (wk, e1, .more) =>
      let e2 := { e1 with rw2 := div e1.chisq (wnormOf (th.pts e1.world)) }
      match th.eval e2.par e2.world with
      | (w, some x) => (⟨true, wk⟩, { e2 with world := w }, .exc x)
      | (w, none) => (⟨false, wk⟩, { e2 with world := w }, .done)
    | (wk, e1, o) => (⟨true, wk⟩, e1, o)

/-- `PdfFit::refine_step(true, toler)` (fit.cc 54-146) -/
def refineStep (th : Theory F W) (toler : F) (s : Statics F) (e : Eng F W) : Statics F × Eng F W × Outcome :=
  if s.fitRunning = true ∧ e.iter ≠ 0 then refineBody th toler s.work e
  else
    let e0 := { e with iter := 0, alambda := minusOne, stagnating := 0, chisq := th.dmax }
    match th.setup e0.par e0.world with
    | (w, some x) => (⟨true, s.work⟩, { e0 with world := w }, .exc x)
    | (w, none) => refineBody th toler s.work { e0 with world := w }

/-- `refine` (pdffit.py 317-334, fit.cc 40-51), at most `fuel` calls: state, last outcome and number of calls. -/
def refineLoop (th : Theory F W) (toler : F) : ℕ → Statics F × Eng F W → (Statics F × Eng F W) × Outcome × ℕ
  | 0, s => (s, .more, 0)
  | n + 1, s =>
    let r := refineStep th toler s.1 s.2
    match r.2.2 with
    | .more => let t := refineLoop th toler n (r.1, r.2.1); (t.1, t.2.1, t.2.2 + 1)
    | o => ((r.1, r.2.1), o, 1)

end Any
end Pdffit
