import Verif.Lemmas.RefineChi
import Mathlib.Algebra.Order.Ring.Rat
import Mathlib.Algebra.Field.Rat

/-!
A small concrete model used by the examples beside the theorems: one data point with weight 1
and observed value 2, one free parameter `x` (id 1) and one fixed parameter (id 2);
calculated value `1 - x - 8 x²`, with its true derivatives.
-/

namespace Pdffit

def demoTheory : Theory ℚ (List ℚ) where
  setup := fun _ w => (w, none)
  eval := fun par _ => (par.p, none)
  pts := fun w =>
    let x := w.headD 0
    [[⟨1, 2, 1 - x - 8 * x * x, fun l => if l = 0 then -1 - 16 * x else 0⟩]]
  dmax := 1000000

def demoEng (x : ℚ) : Eng ℚ (List ℚ) where
  par := { p := [x, 5], ip := [true, false], id := [1, 2] }
  world := []
  iter := 0
  stagnating := 1
  alambda := 1
  chisq := 1
  ochisq := 1
  alpha := fun _ _ => 0
  covar := fun _ _ => 0
  cum := []
  rw2 := 1

set_option maxRecDepth 4000 in
example : (refineLoop demoTheory (1/100000000) 101 ({}, demoEng 0)).2 = (.done, 5) := by
  decide +kernel

end Pdffit
