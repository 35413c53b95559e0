import Verif.Model.Refine
import Verif.Model.Matrix

/-!
# The refinement with numbers that may be NaN (gaussj.cc 31-112, pdflsmin.cc 36-327, fit.cc 40-146)

The machine of `Model/Gaussj.lean`, `Model/Lsq.lean` and `Model/Refine.lean` once more, with the same steps, for numbers that may be
NaN. Every operation with a NaN gives NaN, and every comparison with one is false. Arithmetic is exact and there are no infinities:
a quotient `x / 0` is as in the field. `gaussj` divides by a pivot only after comparing it with zero; the other division is that of
the residual by the norm of the data.
-/

namespace Pdffit.Nan

/-- A number or NaN. -/
inductive Nm (K : Type) where
  | num (x : K)
  | nan

namespace Nm
variable {K : Type}

instance [Zero K] : Zero (Nm K) := ⟨num 0⟩
instance [One K] : One (Nm K) := ⟨num 1⟩

/-- A function of two numbers. -/
def map2 (f : K → K → K) : Nm K → Nm K → Nm K
  | num x, num y => num (f x y)
  | _, _ => nan

instance [Add K] : Add (Nm K) := ⟨map2 (· + ·)⟩
instance [Sub K] : Sub (Nm K) := ⟨map2 (· - ·)⟩
instance [Mul K] : Mul (Nm K) := ⟨map2 (· * ·)⟩
instance [Div K] : Div (Nm K) := ⟨map2 (· / ·)⟩

/-- `fabs` -/
def fabs [Lattice K] [AddGroup K] : Nm K → Nm K
  | num x => num |x|
  | nan => nan

/-- `<` -/
def lt [LT K] : Nm K → Nm K → Prop
  | num x, num y => x < y
  | _, _ => False

/-- `<=` -/
def le [LE K] : Nm K → Nm K → Prop
  | num x, num y => x ≤ y
  | _, _ => False

instance [LT K] : LT (Nm K) := ⟨lt⟩
instance [LE K] : LE (Nm K) := ⟨le⟩

end Nm

open Nm
variable {K W : Type} [Field K] [LinearOrder K]

open Classical in
/-- Pivot search (gaussj.cc 47-65) -/
noncomputable def gjSearch {n : ℕ} (a : Matrix (Fin n) (Fin n) (Nm K)) (ipiv : Fin n → ℕ) (init : Option (Fin n × Fin n)) :
    Nm K × Option (Fin n × Fin n) :=
  (List.finRange n).foldl (fun s j =>
    if ipiv j ≠ 1 then
      (List.finRange n).foldl (fun s k =>
        if ipiv k = 0 then
          if s.1 ≤ fabs (a j k) then (fabs (a j k), some (j, k)) else s
        else s) s
    else s) (0, init)

/-- Row interchange (gaussj.cc 74-77). -/
def gjSwapRows {n k : ℕ} (x : Matrix (Fin n) (Fin k) (Nm K)) (r c : Fin n) : Matrix (Fin n) (Fin k) (Nm K) :=
  fun i j => x (Equiv.swap r c i) j

/-- Reduction of the square matrix (gaussj.cc 89-98). -/
def gjReduceA {n : ℕ} (a : Matrix (Fin n) (Fin n) (Nm K)) (c : Fin n) : Matrix (Fin n) (Fin n) (Nm K) :=
  let pivinv := 1 / a c c
  let rowc : Fin n → Nm K := fun l => (if l = c then 1 else a c l) * pivinv
  fun ll l => if ll = c then rowc l else (if l = c then 0 else a ll l) - rowc l * a ll c

/-- Reduction of the right-hand sides (gaussj.cc 92, 98). -/
def gjReduceB {n m : ℕ} (a : Matrix (Fin n) (Fin n) (Nm K)) (b : Matrix (Fin n) (Fin m) (Nm K)) (c : Fin n) :
    Matrix (Fin n) (Fin m) (Nm K) :=
  let pivinv := 1 / a c c
  fun ll l => if ll = c then b c l * pivinv else b ll l - (b c l * pivinv) * a ll c

open Classical in
/-- One pass of the main loop (gaussj.cc 46-100). When no element is comparable in the first pass `icol` is 0; `ipiv[0]` is allocated
(`NR_END`, nrutil.cc 37-46) and the check in line 86 throws. In a later pass `irow` and `icol` keep their values. -/
noncomputable def gjStep {n m : ℕ} (s : GJ n m (Nm K)) : Res (GJ n m (Nm K)) :=
  match (gjSearch s.a s.ipiv s.piv).2 with
  | none => .err .calculation
  | some (irow, icol) =>
    let ipiv := fun k => if k = icol then s.ipiv k + 1 else s.ipiv k
    let a := gjSwapRows s.a irow icol
    let b := gjSwapRows s.b irow icol
    if a icol icol = 0 then .err .calculation
    else .ok {
      a := gjReduceA a icol
      b := gjReduceB a b icol
      ipiv := ipiv
      piv := some (irow, icol)
      idx := (irow, icol) :: s.idx }

/-- The main loop, `k` passes. -/
noncomputable def gjLoop {n m : ℕ} : ℕ → GJ n m (Nm K) → Res (GJ n m (Nm K))
  | 0, s => .ok s
  | k + 1, s => gjStep s >>= gjLoop k

/-- Column unscrambling (gaussj.cc 104-108), latest pivot first. -/
def gjUnscramble {n : ℕ} (a : Matrix (Fin n) (Fin n) (Nm K)) : List (Fin n × Fin n) → Matrix (Fin n) (Fin n) (Nm K)
  | [] => a
  | (r, c) :: rest => gjUnscramble (fun k l => a k (Equiv.swap r c l)) rest

/-- `gaussj` (gaussj.cc 31-112) -/
noncomputable def gaussj {n m : ℕ} (a : Matrix (Fin n) (Fin n) (Nm K)) (b : Matrix (Fin n) (Fin m) (Nm K)) :
    Res (Matrix (Fin n) (Fin n) (Nm K) × Matrix (Fin n) (Fin m) (Nm K)) :=
  match gjLoop n (GJ.mk a b (fun _ => 0) none []) with
  | .ok s => .ok (gjUnscramble s.a s.idx, s.b)
  | .err e => .err e
  | .ub => .ub

/-- `a[i] = v` -/
def upd (a : ℕ → Nm K) (i : ℕ) (v : Nm K) : ℕ → Nm K := fun k => if k = i then v else a k

/-- `a[i][j] = v` -/
def upd2 (a : ℕ → ℕ → Nm K) (i j : ℕ) (v : Nm K) : ℕ → ℕ → Nm K := fun r c => if r = i ∧ c = j then v else a r c

/-- Inner loop over `m` (pdflsmin.cc 284-285). -/
def accRow (ia : ℕ → Bool) (d : ℕ → Nm K) (wt : Nm K) (j : ℕ) (al : ℕ → ℕ → Nm K) : ℕ → ℕ × (ℕ → ℕ → Nm K)
  | 0 => (0, al)
  | m + 1 =>
    let s := accRow ia d wt j al m
    if ia m then (s.1 + 1, upd2 s.2 j s.1 (s.2 j s.1 + wt * d m)) else s

/-- Loop over `l` for one point (pdflsmin.cc 281-288). -/
def accPoint (ia : ℕ → Bool) (pt : Pt (Nm K)) (al : ℕ → ℕ → Nm K) (be : ℕ → Nm K) : ℕ → ℕ × (ℕ → ℕ → Nm K) × (ℕ → Nm K)
  | 0 => (0, al, be)
  | l + 1 =>
    let s := accPoint ia pt al be l
    if ia l then
      let wt := pt.d l * pt.w
      (s.1 + 1, (accRow ia pt.d wt s.1 s.2.1 (l + 1)).2, upd s.2.2 s.1 (s.2.2 s.1 + (pt.obs - pt.mod) * wt))
    else s

/-- `dy * dy * sig2i` (pdflsmin.cc 290) -/
def contrib (pt : Pt (Nm K)) : Nm K := (pt.obs - pt.mod) * (pt.obs - pt.mod) * pt.w

/-- `cumchisq` of a data set (pdflsmin.cc 289-291). -/
def cumChisq (prev : Nm K) : List (Pt (Nm K)) → List (Nm K)
  | [] => []
  | p :: ps => (prev + contrib p) :: cumChisq (prev + contrib p) ps

/-- `cumchisq.empty() ? 0.0 : cumchisq.back()` (pdflsmin.cc 293) -/
def lastOr0 (l : List (Nm K)) : Nm K := l.getLast?.getD 0

/-- Accumulation part of `mrqcof` (pdflsmin.cc 184-187, 262-296). -/
def mrqAcc (ia : ℕ → Bool) (ma : ℕ) (dss : List (List (Pt (Nm K)))) (alpha : ℕ → ℕ → Nm K) (beta : ℕ → Nm K) :
    (ℕ → ℕ → Nm K) × (ℕ → Nm K) × Nm K × List (List (Nm K)) :=
  let mfit := nfree ia ma
  let al0 := fun j k => if j < mfit ∧ k ≤ j then 0 else alpha j k
  let be0 := fun j => if j < mfit then 0 else beta j
  let ab := dss.flatten.foldl (fun s pt => (accPoint ia pt s.1 s.2 ma).2) (al0, be0)
  let al := fun k j => if k < j ∧ j < mfit then ab.1 j k else ab.1 k j
  let cums := dss.map (cumChisq 0)
  (al, ab.2, cums.foldl (fun c l => c + lastOr0 l) 0, cums)

/-- First block of `covsrt` (pdflsmin.cc 308-314). -/
def covZero (c : ℕ → ℕ → Nm K) (ma mfit : ℕ) : ℕ → ℕ → Nm K :=
  fun i j => if (mfit ≤ i ∧ i < ma ∧ j ≤ i) ∨ (mfit ≤ j ∧ j < ma ∧ i ≤ j) then 0 else c i j

/-- Swaps of `covsrt` (pdflsmin.cc 319-320). -/
def covSwap (c : ℕ → ℕ → Nm K) (k j : ℕ) : ℕ → ℕ → Nm K :=
  let c1 := fun i l => c i (Equiv.swap k j l)
  fun i l => c1 (Equiv.swap k j i) l

/-- Loop of `covsrt` (pdflsmin.cc 316-323). -/
def covLoop (ia : ℕ → Bool) : ℕ → ℕ → (ℕ → ℕ → Nm K) → Res (ℕ → ℕ → Nm K)
  | 0, _, c => .ok c
  | j + 1, k, c =>
    if ia j then
      match k with
      | 0 => .ub
      | k' + 1 => covLoop ia j k' (covSwap c k' j)
    else covLoop ia j k c

/-- `covsrt` (pdflsmin.cc 305-324) -/
def covsrt (c : ℕ → ℕ → Nm K) (ma : ℕ) (ia : ℕ → Bool) (mfit : ℕ) : Res (ℕ → ℕ → Nm K) :=
  covLoop ia ma mfit (covZero c ma mfit)

/-- `fit.wnorm` (fit.cc 330-341, pdf.cc 1141-1149) -/
def wnormOf (dss : List (List (Pt (Nm K)))) : Nm K := dss.flatten.foldr (fun p s => p.w * p.obs * p.obs + s) 0

/-- `ia` as function. -/
def ia (e : Eng (Nm K) W) : ℕ → Bool := fun l => e.par.ip.getD l false

/-- The array `_a` (pdflsmin.cc 41-44). -/
def arr (e : Eng (Nm K) W) : ℕ → Nm K := fun l => e.par.p.getD l 0

/-- `a.size()` -/
def ma (e : Eng (Nm K) W) : ℕ := e.par.p.length

/-- Store an array into `fit.p` (pdflsmin.cc 46, 190-191). -/
def setP (e : Eng (Nm K) W) (a : ℕ → Nm K) : Eng (Nm K) W := { e with par := { e.par with p := (List.range (ma e)).map a } }

/-- `mrqcof` (pdflsmin.cc 175-299) -/
def mrqcof (th : Theory (Nm K) W) (e : Eng (Nm K) W) (a : ℕ → Nm K) (alpha : ℕ → ℕ → Nm K) (beta : ℕ → Nm K) :
    Eng (Nm K) W × Except Exc ((ℕ → ℕ → Nm K) × (ℕ → Nm K)) :=
  let e1 := setP e a
  match th.eval e1.par e1.world with
  | (w, some x) => ({ e1 with world := w }, .error x)
  | (w, none) =>
    let r := mrqAcc (ia e1) (ma e1) (th.pts w) alpha beta
    ({ e1 with world := w, chisq := r.2.2.1, cum := r.2.2.2 }, .ok (r.1, r.2.1))

/-- Initialization branch of `mrqmin` (pdflsmin.cc 93-114). -/
def mrqInit (th : Theory (Nm K) W) (old : Option (Work (Nm K))) (e : Eng (Nm K) W) : Work (Nm K) × Eng (Nm K) W × Option Exc :=
  let mfit := nfree (ia e) (ma e)
  let w0 : Work (Nm K) := ⟨ma e, mfit, (old.map Work.ochisq).getD 0, fun _ => 0, fun _ => 0, fun _ => 0⟩
  let e1 := { e with alambda := num (1 / 1000) }
  match mrqcof th e1 (arr e1) e1.alpha w0.beta with
  | (e2, .error x) => (w0, e2, some x)
  | (e2, .ok (al, be)) =>
    let e3 := { e2 with alpha := al }
    ({ w0 with ochisq := e3.chisq, atry := arr e3, beta := be }, { e3 with rw2 := e3.chisq / wnormOf (th.pts e3.world) }, none)

/-- Augmented matrix (pdflsmin.cc 116-121). -/
def augmented (e : Eng (Nm K) W) : ℕ → ℕ → Nm K := fun j k => if j = k then e.alpha j j * (1 + e.alambda) else e.alpha j k

/-- `gaussj(covar, mfit, oneda, 1)` (pdflsmin.cc 131) -/
noncomputable def solveNormal (mfit : ℕ) (m : ℕ → ℕ → Nm K) (beta : ℕ → Nm K) (covar : ℕ → ℕ → Nm K) (da : ℕ → Nm K) :
    Res ((ℕ → ℕ → Nm K) × (ℕ → Nm K)) :=
  match gaussj (n := mfit) (m := 1) (fun i j => m i j) (fun i _ => beta i) with
  | .ok (inv, x) =>
    .ok (fun i j => if h : i < mfit ∧ j < mfit then inv ⟨i, h.1⟩ ⟨j, h.2⟩ else covar i j, fun i => if h : i < mfit then x ⟨i, h⟩ 0 else da i)
  | .err x => .err x
  | .ub => .ub

open Classical in
/-- Rest of `mrqmin` (pdflsmin.cc 116-171). -/
noncomputable def mrqTry (th : Theory (Nm K) W) (wk : Work (Nm K)) (e : Eng (Nm K) W) : Option (Work (Nm K)) × Eng (Nm K) W × Outcome :=
  match solveNormal wk.mfit (augmented e) wk.beta e.covar wk.da with
  | .err x => (some wk, e, .exc x)
  | .ub => (some wk, e, .corrupt)
  | .ok (cov, da) =>
    if e.alambda = 0 then
      match covsrt cov (ma e) (ia e) wk.mfit, covsrt e.alpha (ma e) (ia e) wk.mfit with
      | .ok c, .ok al => (none, { e with covar := c, alpha := al }, .more)
      | _, _ => (none, e, .corrupt)
    else
      let a := arr e
      let atry := fun l => if l < ma e ∧ ia e l = true then a l + da (nfree (ia e) l) else wk.atry l
      match mrqcof th { e with covar := cov } atry cov da with
      | (e1, .error x) => (some { wk with atry := atry, da := da }, e1, .exc x)
      | (e1, .ok (cov1, da1)) =>
        let e2 := { e1 with covar := cov1 }
        if e2.chisq < wk.ochisq then
          (some { wk with ochisq := e2.chisq, atry := atry, da := da1, beta := da1 },
            { (setP e2 atry) with alambda := e2.alambda / num 10, alpha := cov1 }, .more)
        else
          (some { wk with atry := atry, da := da1 },
            { (setP e2 a) with alambda := e2.alambda * num 10, chisq := wk.ochisq }, .more)

open Classical in
/-- `PdfFit::mrqmin` (pdflsmin.cc 36-171) -/
noncomputable def mrqmin (th : Theory (Nm K) W) (old : Option (Work (Nm K))) (e : Eng (Nm K) W) :
    Option (Work (Nm K)) × Eng (Nm K) W × Outcome :=
  if e.alambda < 0 then
    match mrqInit th old e with
    | (wk, e1, some x) => (some wk, e1, .exc x)
    | (wk, e1, none) => mrqTry th wk e1
  else
    match old with
    | none => (none, e, .corrupt)
    | some wk => if wk.ma = ma e ∧ wk.mfit = nfree (ia e) (ma e) then mrqTry th wk e else (old, e, .corrupt)

open Classical in
/-- Body of `refine_step` after the optional set-up (fit.cc 92-145). -/
noncomputable def refineBody (th : Theory (Nm K) W) (toler : Nm K) (work : Option (Work (Nm K))) (e : Eng (Nm K) W) :
    Statics (Nm K) × Eng (Nm K) W × Outcome :=
  if e.iter < 3 ∨ (e.stagnating < 3 ∧ e.iter < 100) then
    match mrqmin th work { e with ochisq := e.chisq } with
    | (wk, e1, .more) =>
      let stag := if e1.iter ≠ 0 ∧ e1.ochisq - e1.chisq ≤ toler * e1.ochisq then e1.stagnating + 1 else 0
      (⟨true, wk⟩, { e1 with stagnating := stag, iter := e1.iter + 1, rw2 := e1.chisq / wnormOf (th.pts e1.world) }, .more)
    | (wk, e1, o) => (⟨true, wk⟩, e1, o)
  else
    match mrqmin th work { e with alambda := 0 } with
    | (wk, e1, .more) =>
      let e2 := { e1 with rw2 := e1.chisq / wnormOf (th.pts e1.world) }
      match th.eval e2.par e2.world with
      | (w, some x) => (⟨true, wk⟩, { e2 with world := w }, .exc x)
      | (w, none) => (⟨false, wk⟩, { e2 with world := w }, .done)
    | (wk, e1, o) => (⟨true, wk⟩, e1, o)

/-- `PdfFit::refine_step(true, toler)` (fit.cc 54-146) -/
noncomputable def refineStep (th : Theory (Nm K) W) (toler : Nm K) (s : Statics (Nm K)) (e : Eng (Nm K) W) :
    Statics (Nm K) × Eng (Nm K) W × Outcome :=
  if s.fitRunning = true ∧ e.iter ≠ 0 then refineBody th toler s.work e
  else
    let e0 := { e with iter := 0, alambda := num (-1), stagnating := 0, chisq := th.dmax }
    match th.setup e0.par e0.world with
    | (w, some x) => (⟨true, s.work⟩, { e0 with world := w }, .exc x)
    | (w, none) => refineBody th toler s.work { e0 with world := w }

/-- `refine` (pdffit.py 317-334, fit.cc 40-51), at most `fuel` calls: state, last outcome and number of calls. -/
noncomputable def refineLoop (th : Theory (Nm K) W) (toler : Nm K) :
    ℕ → Statics (Nm K) × Eng (Nm K) W → (Statics (Nm K) × Eng (Nm K) W) × Outcome × ℕ
  | 0, s => (s, .more, 0)
  | n + 1, s =>
    let r := refineStep th toler s.1 s.2
    match r.2.2 with
    | .more => let t := refineLoop th toler n (r.1, r.2.1); (t.1, t.2.1, t.2.2 + 1)
    | o => ((r.1, r.2.1), o, 1)

/-! ## Data (pdf.cc 1371-1453) -/

/-- Differences of neighbours. -/
def steps : List (Nm K) → List (Nm K)
  | a :: b :: l => (b - a) :: steps (b :: l)
  | _ => []

open Classical in
/-- `isRegular` (pdf.cc 1374-1383) for a list of at least one number. -/
noncomputable def isRegular (r : List (Nm K)) : Bool :=
  if r.length < 2 then true
  else (steps r).all fun d => ¬ num (1 / 1000) < fabs (d - (r.getLast?.getD 0 - r.head?.getD 0) / num ((r.length : K) - 1))

end Pdffit.Nan
