import Verif.Model.Params
import Verif.Model.Gaussj
import Verif.Model.Lsq

/-!
# Refinement machine: `mrqmin` (pdflsmin.cc 36-171) and `refine_step` (fit.cc 54-146)

* The PDF model is abstract here: a `Theory` says what `fit_setup` and `fit_theory` do with an
  arbitrary world `W` (structures, data sets, constraints), and which fitted points
  (`wic`, `obs`, `pdftot`, `fit_b`) the world holds afterwards.
* Function-local statics of the C++ code (`fit_running`; `mfit`, `ochisq`, `atry`, `beta`, `da`)
  are shared by all `PdfFit` objects; they form `Statics`.
* Only analytic derivatives (`deriv = true`), the only mode the Python API uses (misc.cc 447).
-/

namespace Pdffit

/-- What the refinement needs from the rest of the engine.  `setup` is `fit_setup`
(fit.cc 174-285), `eval` is `fit_theory` (fit.cc 303-342); both may throw after having changed
the world.  `dmax` is `double_max`. -/
structure Theory (K W : Type) where
  setup : ParStore K → W → W × Option Exc
  eval : ParStore K → W → W × Option Exc
  pts : W → List (List (Pt K))
  dmax : K

/-- Statics of `mrqmin` (pdflsmin.cc 90-91) while allocated. `ma` is the allocated size. -/
structure Work (K : Type) where
  ma : Nat
  mfit : Nat
  ochisq : K
  atry : Nat → K
  beta : Nat → K
  da : Nat → K

/-- All function-local statics. `work = none`: not allocated or freed. -/
structure Statics (K : Type) where
  fitRunning : Bool := false
  work : Option (Work K) := none

/-- Refinement part of a `PdfFit` object (pdffit.h 129-186, members of `Fit`) together with its
world.  `rw2` is `fit_rw` before the square root. -/
structure Eng (K W : Type) where
  par : ParStore K
  world : W
  iter : Nat
  stagnating : Nat
  alambda : K
  chisq : K
  ochisq : K
  alpha : Nat → Nat → K
  covar : Nat → Nat → K
  cum : List (List K)
  rw2 : K

/-- Result of one `refine_step` call: returned 0, returned 1, threw, or undefined behaviour
(use of freed work arrays, or of work arrays set up for another number of parameters). -/
inductive Outcome where
  | more | done | exc (e : Exc) | corrupt
  deriving DecidableEq, Repr

section
variable {K W : Type} [Field K] [LinearOrder K]

/-- `fit.wnorm` (fit.cc 330-341, pdf.cc 1141-1149) of the evaluated world. -/
def wnormOf (dss : List (List (Pt K))) : K := (dss.flatten.map fun p => p.w * p.obs * p.obs).sum

/-- `ia` as function. -/
def Eng.ia (e : Eng K W) : Nat → Bool := fun l => e.par.ip.getD l false

/-- The array `_a` (pdflsmin.cc 41-44). -/
def Eng.a (e : Eng K W) : Nat → K := fun l => e.par.p.getD l 0

/-- `a.size()`. -/
def Eng.ma (e : Eng K W) : Nat := e.par.p.length

/-- Store an array of length `ma` into `fit.p` (pdflsmin.cc 46, 190-191). -/
def Eng.setP (e : Eng K W) (a : Nat → K) : Eng K W :=
  { e with par := { e.par with p := (List.range e.ma).map a } }

/-- `mrqcof(a, ia, ma, alpha, beta, chisq, deriv)` (pdflsmin.cc 175-299): new engine and either
the new `alpha`, `beta` or the exception of `fit_theory`. -/
def mrqcof (th : Theory K W) (e : Eng K W) (a : Nat → K) (alpha : Nat → Nat → K)
    (beta : Nat → K) : Eng K W × Except Exc ((Nat → Nat → K) × (Nat → K)) :=
  let e1 := e.setP a
  match th.eval e1.par e1.world with
  | (w, some x) => ({ e1 with world := w }, .error x)
  | (w, none) =>
    let r := mrqAcc e1.ia e1.ma (th.pts w) alpha beta
    ({ e1 with world := w, chisq := r.2.2.1, cum := r.2.2.2 }, .ok (r.1, r.2.1))

/-- Initialization branch of `mrqmin` (pdflsmin.cc 93-114).  Freshly allocated arrays are
filled with zeros in the model; they are written before they are read. -/
def mrqInit (th : Theory K W) (old : Option (Work K)) (e : Eng K W) :
    Work K × Eng K W × Option Exc :=
  let mfit := nfree e.ia e.ma
  let w0 : Work K := ⟨e.ma, mfit, (old.map Work.ochisq).getD 0, fun _ => 0, fun _ => 0, fun _ => 0⟩
  let e1 := { e with alambda := 1 / 1000 }
  match mrqcof th e1 e1.a e1.alpha w0.beta with
  | (e2, .error x) => (w0, e2, some x)
  | (e2, .ok (al, be)) =>
    let e3 := { e2 with alpha := al }
    ({ w0 with ochisq := e3.chisq, atry := e3.a, beta := be },
      { e3 with rw2 := e3.chisq / wnormOf (th.pts e3.world) }, none)

/-- Augmented matrix (pdflsmin.cc 116-121). -/
def augmented (e : Eng K W) : Nat → Nat → K :=
  fun j k => if j = k then e.alpha j j * (1 + e.alambda) else e.alpha j k

/-- `gaussj(covar, mfit, oneda, 1)` on the leading block (pdflsmin.cc 131): new `covar` and
`oneda`. -/
def solveNormal (mfit : Nat) (m : Nat → Nat → K) (beta : Nat → K) (covar : Nat → Nat → K)
    (da : Nat → K) : Res ((Nat → Nat → K) × (Nat → K)) :=
  match gaussj (n := mfit) (m := 1) (fun i j => m i j) (fun i _ => beta i) with
  | .ok (inv, x) =>
    .ok (fun i j => if h : i < mfit ∧ j < mfit then inv ⟨i, h.1⟩ ⟨j, h.2⟩ else covar i j,
      fun i => if h : i < mfit then x ⟨i, h⟩ 0 else da i)
  | .err x => .err x
  | .ub => .ub

/-- Rest of `mrqmin` (pdflsmin.cc 116-171) with allocated work arrays; `more` stands for a
normal return.  When `gaussj` throws, `covar` holds scratch values that nobody reads before
they are overwritten; the model leaves it unchanged. -/
def mrqTry (th : Theory K W) (wk : Work K) (e : Eng K W) :
    Option (Work K) × Eng K W × Outcome :=
  match solveNormal wk.mfit (augmented e) wk.beta e.covar wk.da with
  | .err x => (some wk, e, .exc x)
  | .ub => (some wk, e, .corrupt)
  | .ok (cov, da) =>
    if e.alambda = 0 then
      match covsrt cov e.ma e.ia wk.mfit, covsrt e.alpha e.ma e.ia wk.mfit with
      | .ok c, .ok al => (none, { e with covar := c, alpha := al }, .more)
      | _, _ => (none, e, .corrupt)
    else
      let a := e.a
      let atry := fun l => if l < e.ma ∧ e.ia l = true then a l + da (nfree e.ia l) else wk.atry l
      match mrqcof th { e with covar := cov } atry cov da with
      | (e1, .error x) => (some { wk with atry := atry, da := da }, e1, .exc x)
      | (e1, .ok (cov1, da1)) =>
        let e2 := { e1 with covar := cov1 }
        if e2.chisq < wk.ochisq then
          (some { wk with ochisq := e2.chisq, atry := atry, da := da1, beta := da1 },
            { (e2.setP atry) with alambda := e2.alambda / 10, alpha := cov1 }, .more)
        else
          (some { wk with atry := atry, da := da1 },
            { (e2.setP a) with alambda := e2.alambda * 10, chisq := wk.ochisq }, .more)

/-- `PdfFit::mrqmin` (pdflsmin.cc 36-171).  Work arrays that are missing or belong to another
set of parameters give `corrupt`. -/
def mrqmin (th : Theory K W) (old : Option (Work K)) (e : Eng K W) :
    Option (Work K) × Eng K W × Outcome :=
  if e.alambda < 0 then
    match mrqInit th old e with
    | (wk, e1, some x) => (some wk, e1, .exc x)
    | (wk, e1, none) => mrqTry th wk e1
  else
    match old with
    | none => (none, e, .corrupt)
    | some wk =>
      if wk.ma = e.ma ∧ wk.mfit = nfree e.ia e.ma then mrqTry th wk e else (old, e, .corrupt)

/-- Body of `refine_step` after the optional set-up (fit.cc 92-145). -/
def refineBody (th : Theory K W) (toler : K) (work : Option (Work K)) (e : Eng K W) :
    Statics K × Eng K W × Outcome :=
  if e.iter < 3 ∨ (e.stagnating < 3 ∧ e.iter < 100) then
    match mrqmin th work { e with ochisq := e.chisq } with
    | (wk, e1, .more) =>
      let stag := if e1.iter ≠ 0 ∧ e1.ochisq - e1.chisq ≤ toler * e1.ochisq
        then e1.stagnating + 1 else 0
      (⟨true, wk⟩,
        { e1 with stagnating := stag, iter := e1.iter + 1,
                  rw2 := e1.chisq / wnormOf (th.pts e1.world) }, .more)
    | (wk, e1, o) => (⟨true, wk⟩, e1, o)
  else
    match mrqmin th work { e with alambda := 0 } with
    | (wk, e1, .more) =>
      let e2 := { e1 with rw2 := e1.chisq / wnormOf (th.pts e1.world) }
      match th.eval e2.par e2.world with
      | (w, some x) => (⟨true, wk⟩, { e2 with world := w }, .exc x)
      | (w, none) => (⟨false, wk⟩, { e2 with world := w }, .done)
    | (wk, e1, o) => (⟨true, wk⟩, e1, o)

/-- `PdfFit::refine_step(true, toler)` (fit.cc 54-146). -/
def refineStep (th : Theory K W) (toler : K) (s : Statics K) (e : Eng K W) :
    Statics K × Eng K W × Outcome :=
  if s.fitRunning = true ∧ e.iter ≠ 0 then refineBody th toler s.work e
  else
    let e0 := { e with iter := 0, alambda := -1, stagnating := 0, chisq := th.dmax }
    match th.setup e0.par e0.world with
    | (w, some x) => (⟨true, s.work⟩, { e0 with world := w }, .exc x)
    | (w, none) => refineBody th toler s.work { e0 with world := w }

/-- `n` calls of `refine_step` on one object, whatever they return (an exception does not stop
the caller from calling again). -/
def stepN (th : Theory K W) (toler : K) : Nat → Statics K × Eng K W → Statics K × Eng K W
  | 0, s => s
  | n + 1, s => let r := refineStep th toler s.1 s.2; stepN th toler n (r.1, r.2.1)

/-- Outcomes of these `n` calls. -/
def outN (th : Theory K W) (toler : K) : Nat → Statics K × Eng K W → List Outcome
  | 0, _ => []
  | n + 1, s => let r := refineStep th toler s.1 s.2; r.2.2 :: outN th toler n (r.1, r.2.1)

/-- `refine` (pdffit.py 317-334, fit.cc 40-51): `while not finished: refine_step()`, at most
`fuel` calls.  Result: state, last outcome and number of calls. -/
def refineLoop (th : Theory K W) (toler : K) :
    Nat → Statics K × Eng K W → (Statics K × Eng K W) × Outcome × Nat
  | 0, s => (s, .more, 0)
  | n + 1, s =>
    let r := refineStep th toler s.1 s.2
    match r.2.2 with
    | .more => let t := refineLoop th toler n (r.1, r.2.1); (t.1, t.2.1, t.2.2 + 1)
    | o => ((r.1, r.2.1), o, 1)

end
end Pdffit
