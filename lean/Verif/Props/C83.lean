import Verif.Lemmas.ArithDead
import Verif.Props.C14
import Verif.Props.C54
import Verif.Props.C82

/-!
# C83  A fit whose parameters are not determined by the data is reported

With exact numbers `refine()` never finishes when the free parameters are dependent. With rounded numbers a free parameter without any influence is
still always reported, but parameters that depend on each other are reported or not as the rounding goes.
-/

namespace Pdffit.C83
open C82

section Exact
variable {K W : Type} [Field K] [LinearOrder K] [IsStrictOrderedRing K]

/-- Some combination of the free parameters has no influence on the fitted points. -/
def Dependent (par : ParStore K) (dss : List (List (Pt K))) : Prop :=
  ∃ y : ℕ → K, (∃ k, k < par.p.length ∧ par.ip.getD k false = true ∧ y k ≠ 0) ∧ ∀ pt ∈ dss.flatten, pt.w ≠ 0 →
    ∑ i ∈ (Finset.range par.p.length).filter (fun i => par.ip.getD i false = true), y i * pt.d i = 0

/-- **C83** Exact numbers: if the free parameters are dependent at all values they take, `refine()` raises. -/
theorem C83_dependent_raises_exact (th : Theory K W) (toler : K) (s : Statics K) (e : Eng K W) (hf : Fresh s e)
    (hdep : ∀ par w w', C54.Variant e.par par → th.eval par w = (w', none) → Dependent par (th.pts w')) :
    ∃ x, (refineLoop th toler 101 (s, e)).2.1 = .exc x := by
  have hlaw : @Any.Lawful K (Arith.exact K) := C82_lawful_rounded (id : K → K) fun _ h => h
  have hd := C82_defined (Arith.exact K) hlaw th toler s e hf
  rw [C82_exact] at hd
  refine hd.resolve_left fun hd => ?_
  obtain ⟨dss, ⟨w0, w1, hev, hpts⟩, hc⟩ := C14.C14_covariance_is_inverse_curvature th toler s e hf 101 hd
  have hvar : C54.Variant e.par (refineLoop th toler 101 (s, e)).1.2.par := by
    let _ := Arith.exact K
    have h := Any.refineLoop_first th hlaw toler 100 s e hf
    rw [Any.refineLoop_exact] at h
    rcases h with ⟨x, -, h⟩ | ⟨_, _, -, -, ⟨h, -⟩ | ⟨-, -, h⟩ | ⟨x, -, h⟩⟩
    · exact ⟨h.id, h.ip, h.len⟩
    · exact absurd (hd.symm.trans h) (by simp)
    · exact ⟨h.fix.id, h.fix.ip, h.fix.len⟩
    · exact ⟨h.id, h.ip, h.len⟩
  set r := (refineLoop th toler 101 (s, e)).1.2
  obtain ⟨y, ⟨k, hk, hfk, hyk⟩, hy⟩ := hdep r.par w0 w1 hvar hev
  rw [hpts] at hy
  set S := (Finset.range r.par.p.length).filter (fun i => r.par.ip.getD i false = true) with hS
  -- the combination of the rows of the curvature vanishes
  have hrow : ∀ j, ∑ i ∈ S, y i * C14.curvature dss i j = 0 := by
    intro j
    unfold C14.curvature
    generalize dss.flatten = l at hy
    induction l with
    | nil => simp
    | cons pt l ih =>
      have h1 := ih fun q hq => hy q (List.mem_cons_of_mem _ hq)
      have h2 : ∑ i ∈ S, y i * (pt.w * pt.d i * pt.d j) = 0 := by
        have : ∀ i, y i * (pt.w * pt.d i * pt.d j) = (y i * pt.d i) * (pt.w * pt.d j) := fun i => by ring
        simp only [this]
        rw [← Finset.sum_mul]
        by_cases hw : pt.w = 0
        · rw [hw]; simp
        · rw [hy pt List.mem_cons_self hw, zero_mul]
      simp only [List.map_cons, List.sum_cons, mul_add, Finset.sum_add_distrib]
      rw [h1, h2, add_zero]
  have hsum : ∑ i ∈ S, y i * ∑ j ∈ S, C14.curvature dss i j * r.covar j k = y k := by
    have hmem : k ∈ S := Finset.mem_filter.2 ⟨Finset.mem_range.2 hk, hfk⟩
    rw [Finset.sum_eq_single_of_mem k hmem]
    · have := (hc k k hk hk).1 ⟨hfk, hfk⟩
      rw [if_pos rfl] at this
      rw [show (∑ j ∈ S, C14.curvature dss k j * r.covar j k) = 1 from this, mul_one]
    · intro i hi hik
      rw [hS, Finset.mem_filter, Finset.mem_range] at hi
      have := (hc i k hi.1 hk).1 ⟨hi.2, hfk⟩
      rw [if_neg hik] at this
      rw [show (∑ j ∈ S, C14.curvature dss i j * r.covar j k) = 0 from this, mul_zero]
  have hzero : ∑ i ∈ S, y i * ∑ j ∈ S, C14.curvature dss i j * r.covar j k = 0 := by
    simp only [Finset.mul_sum]
    rw [Finset.sum_comm]
    refine Finset.sum_eq_zero fun j _ => ?_
    have : ∀ i, y i * (C14.curvature dss i j * r.covar j k) = (y i * C14.curvature dss i j) * r.covar j k := fun i => by ring
    simp only [this]
    rw [← Finset.sum_mul, hrow, zero_mul]
  exact hyk (hsum.symm.trans hzero)

/-- Zero absorbs under every rounding that keeps it. -/
theorem C83_absorb_rounded (rnd : K → K) (h0 : rnd 0 = 0) : @Any.Absorb K (Arith.rounded rnd) := by
  refine @Any.Absorb.mk K (Arith.rounded rnd) (fun x => ?_) (fun x => ?_) (fun x => ?_) (fun x => ?_) (fun x => ?_) (fun x => ?_)
    (decide_eq_true rfl) (fun x => decide_eq_true (abs_nonneg x))
  · show rnd (0 * x) = 0; rw [zero_mul, h0]
  · show rnd (x * 0) = 0; rw [mul_zero, h0]
  · show rnd (0 + rnd (0 * x)) = 0; rw [zero_mul, h0, add_zero, h0]
  · show rnd (0 + rnd (x * 0)) = 0; rw [mul_zero, h0, add_zero, h0]
  · show rnd (0 - rnd (0 * x)) = 0; rw [zero_mul, h0, sub_zero, h0]
  · show rnd (0 - rnd (x * 0)) = 0; rw [mul_zero, h0, sub_zero, h0]

/-- **C83** (part) Rounded numbers: if the first evaluation gives points on which some free parameter has no influence at all, `refine()` raises
`calculationError` in its first call. Missing: parameters that have an influence, but the same one (`C83_unreported`). -/
theorem C83_no_influence_partial (rnd : K → K) (h0 : rnd 0 = 0) (th : Theory K W) (toler : K) (s : Statics K) (e : Eng K W) (hf : Fresh s e)
    (w w' : W) (hset : th.setup e.par e.world = (w, none)) (hev : th.eval e.par w = (w', none)) (i : ℕ) (hi : i < e.par.p.length)
    (hfree : e.par.ip.getD i false = true) (hdead : ∀ pt ∈ (th.pts w').flatten, pt.w = 0 ∨ pt.d i = 0) :
    (refineIn (Arith.rounded rnd) th toler s e).2 = (.exc .calculation, 1) := by
  have h := @Any.refineStep_dead K W (Arith.rounded rnd) (C83_absorb_rounded rnd h0) (decide_eq_true (by norm_num : (-1 : K) < 0)) th toler s e hf w w'
    hset hev i hi hfree hdead
  exact @Any.refineLoop_exc K W (Arith.rounded rnd) th toler 100 s e _ h

end Exact

theorem rnd53_zero : Binary.rnd53 0 = 0 := by unfold Binary.rnd53; simp

/-- Non-trivial case: the second parameter is free and has no influence. -/
example : (refineIn Binary.binary64 demoTheory (1 / 100000000) {} { demoEng 0 with par := { p := [0, 5], ip := [true, true], id := [1, 2] } }).2 =
    (.exc .calculation, 1) :=
  C83_no_influence_partial Binary.rnd53 rnd53_zero demoTheory _ {} _ (by simp [Fresh]) [] [0, 5] rfl rfl 1 (by decide) rfl
    (by intro pt hpt; right; simp [demoTheory] at hpt; rw [hpt]; rfl)

/-! ## Two parameters with the same influence -/

/-- One point with weight `w`; the curve is the sum of the two parameters, in double arithmetic. -/
def twins (w : ℚ) : Theory ℚ (List ℚ) where
  setup := fun _ v => (v, none)
  eval := fun par _ => (par.p, none)
  pts := fun v => [[⟨w, 3, Binary.rnd53 (v.getD 0 0 + v.getD 1 0), fun _ => 1⟩]]
  dmax := 1000000

/-- Two free parameters with values 1, and no refinement so far. -/
def start : Eng ℚ (List ℚ) where
  par := { p := [1, 1], ip := [true, true], id := [1, 2] }
  world := []
  iter := 0
  stagnating := 0
  alambda := 0
  chisq := 0
  ochisq := 0
  alpha := fun _ _ => 0
  covar := fun _ _ => 0
  cum := []
  rw2 := 0

/-- The parameters of `twins` are dependent at all values. -/
theorem twins_dependent (q : ℚ) (par : ParStore ℚ) (w' : List ℚ) (hv : C54.Variant start.par par) : Dependent par ((twins q).pts w') := by
  obtain ⟨-, h2, h3⟩ := hv
  refine ⟨fun i => if i = 0 then 1 else -1, ⟨0, by rw [h3]; simp [start], by rw [h2]; rfl, by simp⟩, fun pt hpt _ => ?_⟩
  have hpt : pt = ⟨q, 3, Binary.rnd53 (w'.getD 0 0 + w'.getD 1 0), fun _ => 1⟩ := by simpa [twins] using hpt
  subst hpt
  have hS : (Finset.range par.p.length).filter (fun i => par.ip.getD i false = true) = {0, 1} := by
    rw [h2, h3]; decide
  rw [hS]
  simp

/-- In exact arithmetic the fit of `twins` raises, whatever the weight. -/
example (q toler : ℚ) : ∃ x, (refineLoop (twins q) toler 101 ({}, start)).2.1 = .exc x :=
  C83_dependent_raises_exact (twins q) toler {} start (by simp [Fresh]) fun par _ w' hv _ => twins_dependent q par w' hv

set_option maxRecDepth 8000 in
/-- **C83** violated: in double arithmetic, with weight 49, the fit of two parameters with the same influence finishes. The variance it stores, of which
the report makes the uncertainty, is `2^47`. -/
theorem C83_unreported : (∀ par w w', C54.Variant start.par par → (twins 49).eval par w = (w', none) → Dependent par ((twins 49).pts w')) ∧
    (refineIn Binary.binary64 (twins 49) (1 / 100000000) {} start).2 = (.done, 8) ∧
    (refineIn Binary.binary64 (twins 49) (1 / 100000000) {} start).1.2.covar 0 0 = 2 ^ 47 :=
  ⟨fun par _ w' hv _ => twins_dependent 49 par w' hv, by decide +kernel, by decide +kernel⟩

set_option maxRecDepth 8000 in
/-- With weight 1 it is reported. -/
theorem C83_reported_by_chance : (refineIn Binary.binary64 (twins 1) (1 / 100000000) {} start).2 = (.exc .calculation, 8) := by decide +kernel

/-- **C83** For two parameters with the same influence it depends on one rounding whether the inversion reports: `g` is the curvature, and what is left
of it after the elimination with its own rounded inverse decides. -/
theorem C83_criterion (rnd : ℚ → ℚ) (g : ℚ) (hg : 0 < g) (b : Matrix (Fin 2) (Fin 1) ℚ) :
    @Any.gaussj ℚ (Arith.rounded rnd) 2 1 (fun _ _ => g) b = .err .calculation ↔ rnd (g - rnd (rnd (g * rnd (1 / g)) * g)) = 0 := by
  have h := @Any.gaussj_twins ℚ (Arith.rounded rnd) (fun x => decide_eq_true (abs_nonneg x)) (fun x => decide_eq_true (le_refl x)) g
    (decide_eq_false hg.ne') b
  exact h.trans decide_eq_true_iff

/-- The criterion separates the two weights above. -/
example : Binary.rnd53 (49 - Binary.rnd53 (Binary.rnd53 (49 * Binary.rnd53 (1 / 49)) * 49)) = 1 / 2 ^ 47 ∧
    Binary.rnd53 (1 - Binary.rnd53 (Binary.rnd53 (1 * Binary.rnd53 (1 / 1)) * 1)) = 0 := by decide +kernel

/-! ## Two parameters with nearly the same influence -/

/-- Two points; the derivatives differ at the second one by `2^-30`. -/
def near : Theory ℚ (List ℚ) where
  setup := fun _ v => (v, none)
  eval := fun par _ => (par.p, none)
  pts := fun v => [[⟨1, 3, Binary.rnd53 (v.getD 0 0 + v.getD 1 0), fun _ => 1⟩,
    ⟨1, 3, Binary.rnd53 (v.getD 0 0 + Binary.rnd53 (v.getD 1 0 * (1 + Binary.pow2 (-30)))), fun l => if l = 1 then 1 + Binary.pow2 (-30) else 1⟩]]
  dmax := 1000000

set_option maxRecDepth 8000 in
/-- **C83** The other way round: two points determine the two parameters, exact arithmetic finishes, double arithmetic reports a singular matrix. -/
theorem C83_false_alarm : (refineIn (Arith.exact ℚ) near (1 / 100000000) {} start).2.1 = .done ∧
    (refineIn Binary.binary64 near (1 / 100000000) {} start).2.1 = .exc .calculation := ⟨by decide +kernel, by decide +kernel⟩

end Pdffit.C83
