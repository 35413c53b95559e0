import Verif.Model.Matrix

/-!
# Standard deviations after a refinement: `PdfFit::fit_errors` (fit.cc 787-813), `Fit::fill_errors` (fit.cc 820-834)

The final loop of `fit_errors` over `Phase::lattice` (fit.cc 811-812) is not part of this model.
-/

namespace Pdffit
variable {K : Type}

/-- `fit_errors` up to `fit.dvar` (fit.cc 790-800): `fit.dp` and `fit.dvar`. -/
def fitErrors [Zero K] [Add K] [Mul K] (sqrt : K → K) (covar dvdp : Mat K) : Res (List K × List K) := do
  let dvdpt ← dvdp.transposed
  let dp ← covar.sd sqrt
  let a ← dvdp.mul covar
  let vcovar ← a.mul dvdpt
  let dvar ← vcovar.sd sqrt
  .ok (dp, dvar)

/-- `fill_errors` (fit.cc 820-834).  `sds` holds the deviations that `sdptr` points to, in the order of
`fit_setup`; -1 in `refvar` is `none`. -/
def fillErrors (refvar : List (Option Nat)) (dvar sds : List K) : Res (List K) :=
  Res.forN sds.length (fun i sds => do
    match ← Res.at? refvar i with
    | none => .ok sds
    | some icon => do
      let x ← Res.at? dvar icon
      Res.wr sds i x) sds

/-- The object `fit.covar`: `psize` rows and columns since `fit_setup` (fit.cc 282). -/
def covarMat (n : Nat) (c : Nat → Nat → K) : Mat K :=
  ⟨n, n, (List.range n).flatMap fun i => (List.range n).map fun j => c i j⟩

/-- One printed correlation (output.cc 310). -/
def corr [Div K] (covar : Nat → Nat → K) (dp : Nat → K) (i j : Nat) : K := covar i j / dp i / dp j

end Pdffit
