import Verif.Lemmas.ConstrVal
import Mathlib.Data.Rat.Floor

/-!
# C05  After refine() the structure, the model curve and the parameters agree

The machine is the refinement machine of `Model/Refine.lean` run with the constraint machinery of
`Model/Constr.lean`; what lies behind the variables (`det`) is arbitrary.

The statement does not hold for atom coordinates: `fit_theory` wraps them into the cell after
`fill_variables` (`C05_coordinate_not_constraint_value`).  What holds for them is equality up to whole
supercells, and exact equality while the constraint's value stays inside.
-/

namespace Pdffit.C05
variable {F K C : Type} [Field K] [LinearOrder K] [IsStrictOrderedRing K] [FloorRing K]

/-- **C05** When `refine` returns normally (after any number of calls, from any state), let `c` be
the constraint in force for its variable (no later one on the same variable) that can assign.
Then the constraint has a value `x` for the parameters returned by `getpar`; `getvar` is exactly `x` if
the variable is no atom coordinate; for a coordinate in a supercell of size `n` it is `x` minus a multiple of
`n`, and exactly `x` if `|x| < n`. -/
theorem C05_variables_agree_partial (S : CStatic F K C) (toler : K) (n : Nat)
    (st : Statics K × Eng K (CWorld F K C)) (e : Eng K (CWorld F K C))
    (hicc : ∀ a n, S.icc a = some n → 0 < n)
    (hdone : (refineLoop (constrTheory S) toler n st).2.1 = .done)
    (he : (refineLoop (constrTheory S) toler n st).1.2 = e)
    (l r : List (Constr F)) (c : Constr F) (hc : e.world.cons = l ++ c :: r)
    (hlast : ∀ c' ∈ r, c'.addr ≠ c.addr) (has : c.assigns) :
    ∃ x, c.value S.parse e.par = some x ∧
      (S.icc c.addr = none → e.world.vars c.addr = x) ∧
      (∀ n, S.icc c.addr = some n → |e.world.vars c.addr| < n ∧
        (∃ k : ℤ, e.world.vars c.addr = x - n * k) ∧
        (|x| < n → e.world.vars c.addr = x)) := by
  obtain ⟨w, hw⟩ := refineLoop_evaluated n hdone
  rw [he] at hw
  simp only [constrTheory, fitTheory] at hw
  generalize hr : fillVariables S.parse e.par w.cons w.vars w.dvdp = fr at hw
  obtain ⟨cs', v', m', so⟩ := fr
  cases so with
  | some s => simp at hw
  | none =>
    obtain ⟨h1, h2, h3⟩ := fillVariables_value hr
    simp only [Prod.mk.injEq] at hw
    obtain ⟨hwd, -⟩ := hw
    have hcons : cs' = l ++ c :: r := by rw [← hc, ← hwd]
    have hvars : e.world.vars = wrapVars S.icc v' := by rw [← hwd]
    -- the same split of the list before the evaluation
    rw [hcons, List.map_append, List.map_cons] at h1
    obtain ⟨l0, q0, hq0, hl0, hq⟩ := List.map_eq_append_iff.1 h1.symm
    obtain ⟨c0, r0, rfl, hc0, hr0⟩ := List.map_eq_cons_iff.1 hq
    have hadr : c0.addr = c.addr := congrArg (·.1) hc0
    have has0 : c0.assigns := by
      have e1 : c0.form = c.form := congrArg (·.2.1) hc0
      have e2 : c0.ctype = c.ctype := congrArg (·.2.2.2) hc0
      unfold Constr.assigns at has ⊢
      rw [e1, e2]; exact has
    obtain ⟨x, hx⟩ := h3 c0 (by rw [hq0]; simp) has0
    have hval : v' c.addr = x := by
      rw [h2, hq0, ← hadr]
      refine foldl_value_last l0 r0 c0 ?_ hx _
      intro c' hc'
      have : c'.core ∈ r.map Constr.core := by rw [← hr0]; exact List.mem_map_of_mem hc'
      obtain ⟨c2, hm, he2⟩ := List.mem_map.1 this
      have : c2.addr = c'.addr := congrArg (·.1) he2
      rw [← this, hadr]
      exact hlast c2 hm
    refine ⟨x, by rw [← Constr.value_core hc0]; exact hx, ?_, ?_⟩
    · intro hi
      rw [hvars, wrapVars, hi]
      exact hval
    · intro nn hi
      have hpos := hicc _ _ hi
      have : e.world.vars c.addr = fmodK x nn := by
        rw [hvars, wrapVars, hi, ← hval]
      rw [this]
      obtain ⟨a1, a2⟩ := fmodK_spec x hpos
      exact ⟨a1, a2, fun hs => fmodK_small hpos hs⟩

/-- **C05** (curve) If the calculated curve `pdf` that `determine` leaves is a function `f` of the variables
(C40 and following describe it), then after a normal return `getpdf_fit` is the curve of the state
reported by `getvar`. -/
theorem C05_curve_agrees {P : Type} (S : CStatic F K C) (pdf : C → P) (f : (Nat → K) → P)
    (hf : ∀ v rv vr m cu cu', S.det v rv vr m cu = (cu', none) → pdf cu' = f v)
    (toler : K) (n : Nat) (st : Statics K × Eng K (CWorld F K C)) (e : Eng K (CWorld F K C))
    (hdone : (refineLoop (constrTheory S) toler n st).2.1 = .done)
    (he : (refineLoop (constrTheory S) toler n st).1.2 = e) :
    pdf e.world.curve = f e.world.vars := by
  obtain ⟨w, hw⟩ := refineLoop_evaluated n hdone
  rw [he] at hw
  simp only [constrTheory, fitTheory] at hw
  generalize hr : fillVariables S.parse e.par w.cons w.vars w.dvdp = fr at hw
  obtain ⟨cs', v', m', so⟩ := fr
  cases so with
  | some s => simp at hw
  | none =>
    simp only [Prod.mk.injEq] at hw
    obtain ⟨hwd, hex⟩ := hw
    rw [← hwd]
    dsimp only
    refine hf _ w.refvar (cs'.map Constr.vref) m' w.curve _ (Prod.ext rfl ?_)
    simpa using hex

/-! ### A concrete system: violation for coordinates, and non-trivial case -/

/-- Formula `q` stands for `q * p[0]`. -/
def demoParse : FParser ℚ ℚ := fun q par => .ok (q * par.p.getD 0 0, [(0, q)])

/-- Variable 0 is an atom coordinate in a cell of size 1, variable 1 is a scale factor.  One data point,
observed value 2, calculated value = variable 1. -/
def demoS : CStatic ℚ ℚ (ℚ × ℚ) where
  parse := demoParse
  icc := fun a => if a = 0 then some 1 else none
  slots := [0, 1]
  npar := 2
  det := fun v _ _ m _ => ((v 1, (m.data[1]?).getD 0), none)
  pts := fun c => [[⟨1, 2, c.1, fun l => if l = 0 then c.2 else 0⟩]]
  dmax := 1000000

/-- Coordinate constrained to `@1`, scale to `1 * @1`; parameter 1 is free and starts at 3/2. -/
def demoE : Eng ℚ (CWorld ℚ ℚ (ℚ × ℚ)) where
  par := { p := [3/2], ip := [true], id := [1] }
  world := { vars := fun _ => 1/4, cons := [⟨0, none, 1, .ident, true⟩, ⟨1, some 1, -1, .user, true⟩],
             dvdp := .empty, refvar := [], curve := (0, 0) }
  iter := 0
  stagnating := 0
  alambda := 0
  chisq := 0
  ochisq := 0
  alpha := fun _ _ => 0
  covar := fun _ _ => 0
  cum := []
  rw2 := 0

/-- The refinement that starts in `demoE`. -/
def demoRun := refineLoop (constrTheory demoS) (1/100000000) 101 ({}, demoE)

/-- **C05 violated for coordinates**: `refine` returns normally, the coordinate's constraint gives the
parameter's value (between 1 and 2), but `getvar` is that value minus 1. The scale factor agrees. -/
theorem C05_coordinate_not_constraint_value :
    demoRun.2.1 = .done ∧
    demoRun.1.2.par.getpar 1 = .ok (demoRun.1.2.world.vars 1) ∧
    1 < demoRun.1.2.world.vars 1 ∧ demoRun.1.2.world.vars 1 < 2 ∧
    demoRun.1.2.world.vars 0 = demoRun.1.2.world.vars 1 - 1 := by
  decide +kernel

end Pdffit.C05
