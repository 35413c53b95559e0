import Verif.Model.Constr

/-!
# The fitted points when the derivatives come from the constraints (fit.cc 361-560)

`determine(true, ...)` calculates the curve and the matrix `fit_a`, one column per constraint; the derivatives with respect to the
parameters are the product with the matrix of the derivatives of the constraints.
What `determine` calculates is left open here (`run`, `rows`; modelled in `Model/Determine.lean`, `Model/DerivMat.lean`): it can
depend on the variables, on `refvar`, on the marks of the constraints and on what was there before, but not on the parameters.
-/

namespace Pdffit

/-- One fitted point: `wic[i]`, `obs[i]`, `pdftot[i]` and the row `fit_a[i]`. -/
structure Row (K : Type) where
  w : K
  obs : K
  mod : K
  a : Nat → K

/-- `determine` of all data sets: new state and exception; fitted points in a state. -/
structure Engine (K C : Type) where
  run : (Nat → K) → List (Option Nat) → List Bool → C → C × Option Exc
  rows : C → List (List (Row K))

variable {F K C : Type} [Field K]

/-- A fitted point with `fit_b[i] = fit_a[i] * dvdp` (fit.cc 558). -/
def Row.pt (m : Mat K) (x : Row K) : Pt K :=
  ⟨x.w, x.obs, x.mod, fun l => ((List.range m.rows).map fun c => x.a c * (m.data[c * m.cols + l]?).getD 0).sum⟩

/-- The static part of the refinement machine for such an engine. -/
def Engine.static (G : Engine K C) (parse : FParser F K) (icc : Nat → Option K) (slots : List Nat) (npar : Nat) (dmax : K) :
    CStatic F K (C × List (List (Pt K))) where
  parse := parse
  icc := icc
  slots := slots
  npar := npar
  det v rv vr m c :=
    let r := G.run v rv vr c.1
    ((r.1, (G.rows r.1).map (List.map (Row.pt m))), r.2)
  pts c := c.2
  dmax := dmax

end Pdffit
