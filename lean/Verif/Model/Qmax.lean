import Mathlib.Analysis.SpecialFunctions.Complex.Circle
import Mathlib.Algebra.Order.Floor.Ring

/-!
# Termination filter (pdf.cc 106-145)

* `gsl_fft_complex_radix2_forward/inverse` are modelled by what they compute, the discrete Fourier transform and its
  inverse (GSL is not part of the repository); they do not fail for a power of two.
* The buffer `ycpad` of `2*padlen` doubles is a sequence of `padlen` complex numbers. Writes with an index outside
  the buffer are recorded (`zeroed` is `none`).
-/

namespace Pdffit.Qmax
open Complex

/-- The forward transform of `x_0 … x_{N-1}` (gsl_fft_complex_radix2_forward). -/
noncomputable def dft (N : ℕ) (x : ℕ → ℂ) (k : ℕ) : ℂ :=
  ∑ n ∈ Finset.range N, x n * exp (-(2 * Real.pi * I * (n * k / N)))

/-- The inverse transform including the factor `1/N` (gsl_fft_complex_radix2_inverse). -/
noncomputable def idft (N : ℕ) (x : ℕ → ℂ) (n : ℕ) : ℂ :=
  (1 / N) * ∑ k ∈ Finset.range N, x k * exp (2 * Real.pi * I * (n * k / N))

/-- `padlen` (pdf.cc 110-112): `2^ceil(log2(2*len))`. -/
def padlen (len : ℕ) : ℕ := 2 ^ Nat.clog 2 (2 * len)

/-- The step in Q used by the code (pdf.cc 127). -/
noncomputable def dQ (deltar : ℝ) (len : ℕ) : ℝ := 2 * Real.pi / ((padlen len - 1) * deltar)

/-- `loQidx` (pdf.cc 130). -/
noncomputable def loQ (deltar qmax : ℝ) (len : ℕ) : ℤ := ⌈qmax / dQ deltar len⌉

/-- `hiQidx` (pdf.cc 131). -/
noncomputable def hiQ (deltar qmax : ℝ) (len : ℕ) : ℤ := padlen len + 1 - loQ deltar qmax len

/-- The loop that clears high frequencies (pdf.cc 133-136). `none`: an index is outside the buffer. -/
def zeroed (N : ℕ) (lo hi : ℤ) (x : ℕ → ℂ) : Option (ℕ → ℂ) :=
  if hi ≤ lo ∨ (0 ≤ lo ∧ hi ≤ N) then
    some fun k => if lo ≤ (k : ℤ) ∧ (k : ℤ) < hi then 0 else x k
  else none

/-- The padded complex buffer (pdf.cc 113-118). -/
def pad (len : ℕ) (y : ℕ → ℝ) : ℕ → ℂ := fun n => if n < len then (y n : ℂ) else 0

/-- The buffer after the second transform (pdf.cc 119-142). -/
noncomputable def filtered (deltar qmax : ℝ) (len : ℕ) (y : ℕ → ℝ) : Option (ℕ → ℂ) :=
  (zeroed (padlen len) (loQ deltar qmax len) (hiQ deltar qmax len) (dft (padlen len) (pad len y))).map
    (idft (padlen len))

/-- `DataSet::applyQmaxCutoff` (pdf.cc 106-145): the new values of `y[0] … y[len-1]`. -/
noncomputable def applyQmaxCutoff (deltar qmax : ℝ) (len : ℕ) (y : ℕ → ℝ) : Option (ℕ → ℝ) :=
  (filtered deltar qmax len y).map fun x n => if n < len then (x n).re else y n

end Pdffit.Qmax
