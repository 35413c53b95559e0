import Verif.Model.Bonds

/-!
# Standard deviations of derived cell quantities (metric.cc 53-179)

`c` is the cell, `d` its standard deviations (`da0`, `dwin`). `dtensor` and `dskalpro` are in `Model/Bonds.lean`; the permutation
tensors are left out.
-/

namespace Pdffit.CellErr
open Geom Bonds Parser

/-- `dcosa`, `dcosb`, `dcosg` (metric.cc 56-58). -/
noncomputable def dcos (c d : Cell) (i : Fin 3) : ℝ := |bsind (c.win i) * rad * d.win i|

/-- `abscosa`, ... (metric.cc 52-54). -/
noncomputable def abscos (c : Cell) (i : Fin 3) : ℝ := |bcosd (c.win i)|

/-- `dvoll` (metric.cc 68-69). -/
noncomputable def dvoll (c d : Cell) : ℝ :=
  2 * (abscos c 0 * dcos c d 0 + abscos c 1 * dcos c d 1 + abscos c 2 * dcos c d 2 +
    dcos c d 0 * abscos c 1 * abscos c 2 + abscos c 0 * dcos c d 1 * abscos c 2 + abscos c 0 * abscos c 1 * dcos c d 2)

/-- `dv` (metric.cc 70-71). -/
noncomputable def dv (c d : Cell) : ℝ :=
  0.5 / √(voll c) * dvoll c d * c.a0 0 * c.a0 1 * c.a0 2 +
    √(voll c) * (d.a0 0 * c.a0 1 * c.a0 2 + c.a0 0 * d.a0 1 * c.a0 2 + c.a0 0 * c.a0 1 * d.a0 2)

/-- `vr` (metric.cc 73). -/
noncomputable def vr (c : Cell) : ℝ := 1 / vol c

/-- `dvr` (metric.cc 74). -/
noncomputable def dvr (c d : Cell) : ℝ := 1 / (vol c * vol c) * dv c d

/-- `dar[i]` (metric.cc 108-109). -/
noncomputable def dar (c d : Cell) (i : Fin 3) : ℝ :=
  ((d.a0 (i + 1) * c.a0 (i + 2) + c.a0 (i + 1) * d.a0 (i + 2)) * bsind (c.win i) +
    c.a0 (i + 1) * c.a0 (i + 2) * (bcosd (c.win i) * rad * d.win i)) / vol c +
    c.a0 (i + 1) * c.a0 (i + 2) * bsind (c.win i) / (vol c * vol c) * dv c d

/-- `darg` (metric.cc 110-111). -/
noncomputable def darg (c d : Cell) (i : Fin 3) : ℝ :=
  (bsind (c.win (i + 1)) * rad * d.win (i + 1) * bcosd (c.win (i + 2)) +
      bcosd (c.win (i + 1)) * (bsind (c.win (i + 2)) * rad * d.win (i + 2)) + bsind (c.win i) * rad * d.win i) /
      (bsind (c.win (i + 1)) * bsind (c.win (i + 2))) +
    recArg c i / bsind (c.win (i + 1)) * (bcosd (c.win (i + 1)) * rad * d.win (i + 1)) +
    recArg c i / bsind (c.win (i + 2)) * (bcosd (c.win (i + 2)) * rad * d.win (i + 2))

/-- `dwrez[i]` (metric.cc 112). -/
noncomputable def dwrez (c d : Cell) (i : Fin 3) : ℝ := 1 / √(1 - recArg c i * recArg c i) * darg c d i / rad

/-- `rho0` (metric.cc 172-173); `np` is the sum of the occupancies, `ncc` the number of cells. -/
noncomputable def rho0 (ncc : ℕ) (np v : ℝ) : ℝ := np / (ncc * v)

/-- `drho0` (metric.cc 176-177). -/
noncomputable def drho0 (np v dnp dv : ℝ) : ℝ := √((dnp / v) ^ 2 + (dv * np / v ^ 2) ^ 2)

end Pdffit.CellErr
