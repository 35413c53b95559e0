import Verif.Basic
import Verif.Model.Builtins
import Mathlib.LinearAlgebra.Matrix.Determinant.Basic
import Mathlib.Algebra.BigOperators.Fin

/-!
# Unit cell and metric (metric.cc)

* Standard deviations (`dgten`, `dar`, ...) and the permutation tensors are left out, except where stated.
* `cosd`, `sind`, `acosd` are the functions of MathUtils.h (`Model/Builtins.lean`).
-/

namespace Pdffit.Geom
open Parser

/-- `double_eps` (MathUtils.h 29): `(1 + sqrt(2^-52)) - 1`. -/
noncomputable def eps : ℝ := 1 / 2 ^ 26

/-- Cell edges `a0` and angles `win` (in degrees) of a phase. -/
structure Cell where
  a0 : Fin 3 → ℝ
  win : Fin 3 → ℝ

/-- The index `3-(i+j)` for `i ≠ j` (metric.cc 264). -/
def third (i j : Fin 3) : Fin 3 := -(i + j)

/-- `Phase::tensor` (metric.cc 250-271). -/
noncomputable def tensor (vec win : Fin 3 → ℝ) (i j : Fin 3) : ℝ :=
  if i ≠ j then
    if |vec i * vec j * bcosd (win (third i j))| < eps then 0
    else vec i * vec j * bcosd (win (third i j))
  else vec i * vec j

/-- `voll` (metric.cc 60). -/
noncomputable def voll (c : Cell) : ℝ :=
  1 - bcosd (c.win 0) ^ 2 - bcosd (c.win 1) ^ 2 - bcosd (c.win 2) ^ 2 +
    2 * bcosd (c.win 0) * bcosd (c.win 1) * bcosd (c.win 2)

/-- What `lattice` computes. -/
structure Metric where
  v : ℝ
  gten : Fin 3 → Fin 3 → ℝ
  ar : Fin 3 → ℝ
  wrez : Fin 3 → ℝ
  rten : Fin 3 → Fin 3 → ℝ

/-- Cell volume (metric.cc 66). -/
noncomputable def vol (c : Cell) : ℝ := √(voll c) * c.a0 0 * c.a0 1 * c.a0 2

/-- Reciprocal edges (metric.cc 97). -/
noncomputable def recEdge (c : Cell) (i : Fin 3) : ℝ :=
  c.a0 (i + 1) * c.a0 (i + 2) * bsind (c.win i) / vol c

/-- Cosine of a reciprocal angle (metric.cc 98). -/
noncomputable def recArg (c : Cell) (i : Fin 3) : ℝ :=
  (bcosd (c.win (i + 1)) * bcosd (c.win (i + 2)) - bcosd (c.win i)) /
    (bsind (c.win (i + 1)) * bsind (c.win (i + 2)))

/-- `Phase::lattice` (metric.cc 36-173). -/
noncomputable def lattice (c : Cell) : Res Metric :=
  if voll c ≤ eps then .err .structure
  else .ok {
    v := vol c
    gten := tensor c.a0 c.win
    ar := recEdge c
    wrez := fun i => bacosd (recArg c i)
    rten := tensor (recEdge c) (fun i => bacosd (recArg c i)) }

/-- `Phase::skalpro` (metric.cc 309-321). -/
def skalpro (g : Fin 3 → Fin 3 → ℝ) (h k : Fin 3 → ℝ) : ℝ := ∑ i, ∑ j, h i * k j * g i j

end Pdffit.Geom
