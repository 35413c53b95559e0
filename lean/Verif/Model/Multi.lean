import Verif.Model.Refine

/-!
# Several `PdfFit` objects in one process

The function-local statics of `refine_step` (fit.cc 56) and `mrqmin` (pdflsmin.cc 90-91) are shared
by all objects; everything else belongs to one object.
-/

namespace Pdffit

/-- A process: the shared statics and numbered objects. -/
structure Sys (K W : Type) where
  s : Statics K
  eng : Nat → Eng K W

/-- A call of user code on one object: a single `refine_step()`, a whole `refine()`, or any other
call, which changes only parameters and world of its object. -/
inductive Op (K W : Type) where
  | step (i : Nat)
  | refine (i : Nat)
  | edit (i : Nat) (f : ParStore K × W → ParStore K × W)

/-- The object an operation is called on. -/
def Op.obj {K W : Type} : Op K W → Nat
  | .step i => i
  | .refine i => i
  | .edit i _ => i

variable {K W : Type} [Field K] [LinearOrder K]

/-- Effect of user code other than refinement. -/
def Eng.edit (e : Eng K W) (f : ParStore K × W → ParStore K × W) : Eng K W :=
  { e with par := (f (e.par, e.world)).1, world := (f (e.par, e.world)).2 }

/-- Execute one operation; the outcome of an `edit` is `more` (normal return).
A `refine()` makes at most 101 steps (C03). -/
def Sys.exec (th : Theory K W) (toler : K) (x : Sys K W) : Op K W → Sys K W × Outcome
  | .step i =>
    let r := refineStep th toler x.s (x.eng i)
    (⟨r.1, fun k => if k = i then r.2.1 else x.eng k⟩, r.2.2)
  | .refine i =>
    let r := refineLoop th toler 101 (x.s, x.eng i)
    (⟨r.1.1, fun k => if k = i then r.1.2 else x.eng k⟩, r.2.1)
  | .edit i f => (⟨x.s, fun k => if k = i then (x.eng i).edit f else x.eng k⟩, .more)

/-- Execute a program; outcomes in order. -/
def Sys.run (th : Theory K W) (toler : K) : List (Op K W) → Sys K W → Sys K W × List Outcome
  | [], x => (x, [])
  | o :: l, x =>
    let r := x.exec th toler o
    let t := Sys.run th toler l r.1
    (t.1, r.2 :: t.2)

/-- Program restricted to one object. -/
def onlyObj (i : Nat) (l : List (Op K W)) : List (Op K W) := l.filter fun o => o.obj = i

/-- A newly constructed object (pdffit.h 143-186, `Fit` constructor) with given parameters and
world. -/
def freshEng (par : ParStore K) (world : W) : Eng K W where
  par := par
  world := world
  iter := 0
  stagnating := 0
  alambda := 0
  chisq := 0
  ochisq := 0
  alpha := fun _ _ => 0
  covar := fun _ _ => 0
  cum := []
  rw2 := 0

end Pdffit
