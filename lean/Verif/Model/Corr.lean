import Verif.Model.Report
import Verif.Model.Errors
import Verif.Model.Refine

/-!
# The correlations in the results report (output.cc 297-320, pdf.cc 918-926)

* A quotient by zero is not an error in C++: it is infinite, or "not a number" for `0/0`. `Ext` are these values; everything else is exact.
* `covar[i][j]` and `dp[i]` outside of their size are undefined behaviour. (`covar[i][j]` with a column behind the end of an inner row reads the next row,
  see `Model/Matrix.lean`.)
-/

namespace Pdffit.Corr
open Report

/-- A `double` that is the result of a division. -/
inductive Ext (K : Type) where
  | fin (x : K)
  | inf (neg : Bool)
  | nan
  deriving DecidableEq

variable {K : Type} [Field K] [LinearOrder K]

/-- `x / d`; a divisor zero is the positive zero, since deviations are square roots. -/
def Ext.div : Ext K → K → Ext K
  | .fin a, d => if d = 0 then if a = 0 then .nan else .inf (decide (a < 0)) else .fin (a / d)
  | .inf s, d => .inf (if d < 0 then !s else s)
  | .nan, _ => .nan

/-- `fabs(x) > 0.8` -/
def Ext.big : Ext K → Bool
  | .fin x => decide (4 / 5 < |x|)
  | .inf _ => true
  | .nan => false

/-- The row of `i` (output.cc 305-317): number of the other parameter and the value. -/
def row (s : ParStore K) (dp : List K) (covar : Mat K) (i : ℕ) : List ℕ → Res (List (ℕ × ℕ × Ext K))
  | [] => .ok []
  | j :: js => do
    let f ← Res.at? s.ip j
    if f then do
      let c ← covar.get i j
      let di ← Res.at? dp i
      let dj ← Res.at? dp j
      let r ← row s dp covar i js
      if (((Ext.fin c).div di).div dj).big then do
        let a ← Res.at? s.id i
        let b ← Res.at? s.id j
        .ok ((a, b, ((Ext.fin c).div di).div dj) :: r)
      else .ok r
    else row s dp covar i js

/-- The rows one after the other (output.cc 301-318). -/
def rows (s : ParStore K) (dp : List K) (covar : Mat K) : List ℕ → Res (List (ℕ × ℕ × Ext K))
  | [] => .ok []
  | i :: is => do
    let f ← Res.at? s.ip i
    let a ← if f then row s dp covar i is else .ok []
    let b ← rows s dp covar is
    .ok (a ++ b)

/-- The correlations listed by `Fit::output`; "none" is the empty list. -/
def corrs (s : ParStore K) (dp : List K) (covar : Mat K) : Res (List (ℕ × ℕ × Ext K)) :=
  if npar s ≠ 0 then rows s dp covar (orderById s.id) else .ok []

/-- `PdfFit::save_res` (pdf.cc 918-944) as far as the correlations are concerned. -/
def saveRes {W : Type} (e : Eng K W) (dp : List K) (covar : Mat K) : Res (List (ℕ × ℕ × Ext K)) :=
  if e.iter = 0 then .err .unassigned else corrs e.par dp covar

end Pdffit.Corr
