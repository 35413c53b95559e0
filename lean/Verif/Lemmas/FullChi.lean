import Verif.Lemmas.FullGrad
import Verif.Lemmas.RefineStuck

/-! # Chi-square of the fit as a whole: gradient, and the steps of the least-squares machine -/

namespace Pdffit

theorem dlin_add {n : ℕ} (a b : Fin n → ℝ) : dlin a + dlin b = dlin fun k => a k + b k := by
  ext v
  rw [_root_.add_apply, dlin_apply, dlin_apply, dlin_apply, ← Finset.sum_add_distrib]
  exact Finset.sum_congr rfl fun k _ => by ring

theorem dlin_smul {n : ℕ} (r : ℝ) (a : Fin n → ℝ) : r • dlin a = dlin fun k => r * a k := by
  ext v
  rw [_root_.smul_apply, dlin_apply, dlin_apply, smul_eq_mul, Finset.mul_sum]
  exact Finset.sum_congr rfl fun k _ => by ring

theorem dlin_zero {n : ℕ} : dlin (fun _ : Fin n => (0 : ℝ)) = 0 := by
  ext v
  rw [dlin_apply]
  simp

theorem list_grad {α : Type} {n : ℕ} {w₀ : Fin n → ℝ} (f : α → (Fin n → ℝ) → ℝ) (a : α → Fin n → ℝ) : ∀ l : List α,
    (∀ x ∈ l, HasFDerivAt (f x) (dlin (a x)) w₀) →
    HasFDerivAt (fun w => (l.map fun x => f x w).sum) (dlin fun k => (l.map fun x => a x k).sum) w₀
  | [], _ => by
    simp only [List.map_nil, List.sum_nil]
    rw [dlin_zero]
    exact hasFDerivAt_const 0 w₀
  | x :: l, h => by
    simp only [List.map_cons, List.sum_cons]
    rw [← dlin_add]
    exact (h x (by simp)).fun_add (list_grad f a l fun y hy => h y (by simp [hy]))

namespace Full
open Geom Det Deriv Layout Conf DMat C47 Filter _root_.Pdffit.Parser C75 Lin

namespace Input
variable {I : Input}

theorem over_eq (I : Input) (f : ℕ → SetIn → ℤ → ℝ) : C74.over I f =
    (I.sets.zipIdx.map fun x => ((grid x.1.d.D.nfmin x.1.d.D.nfmax).map fun i => x.1.d.wic.getD i.toNat 0 * f x.2 x.1 i).sum).sum := by
  unfold C74.over
  rw [List.mapIdx_eq_zipIdx_map]

theorem over_grad {n : ℕ} {w₀ : Fin n → ℝ} (f : ℕ → SetIn → ℤ → (Fin n → ℝ) → ℝ) (a : ℕ → SetIn → ℤ → Fin n → ℝ)
    (h : ∀ (is : ℕ) s, I.sets[is]? = some s → ∀ i ∈ grid s.d.D.nfmin s.d.D.nfmax, HasFDerivAt (f is s i) (dlin (a is s i)) w₀) :
    HasFDerivAt (fun w => C74.over I fun is s i => f is s i w) (dlin fun k => C74.over I fun is s i => a is s i k) w₀ := by
  simp only [over_eq]
  refine list_grad (fun (x : SetIn × ℕ) w => ((grid x.1.d.D.nfmin x.1.d.D.nfmax).map fun i => x.1.d.wic.getD i.toNat 0 * f x.2 x.1 i w).sum)
    (fun x k => ((grid x.1.d.D.nfmin x.1.d.D.nfmax).map fun i => x.1.d.wic.getD i.toNat 0 * a x.2 x.1 i k).sum) _ fun x hx => ?_
  refine list_grad (fun i w => x.1.d.wic.getD i.toNat 0 * f x.2 x.1 i w) (fun i k => x.1.d.wic.getD i.toNat 0 * a x.2 x.1 i k) _ fun i hi => ?_
  have hs : I.sets[x.2]? = some x.1 := List.mem_zipIdx_iff_getElem?.1 hx
  have := (h x.2 x.1 hs i hi).const_smul (x.1.d.wic.getD i.toNat 0)
  rw [dlin_smul] at this
  exact this

theorem over_congr {f g : ℕ → SetIn → ℤ → ℝ}
    (h : ∀ (is : ℕ) s, I.sets[is]? = some s → ∀ i ∈ grid s.d.D.nfmin s.d.D.nfmax, f is s i = g is s i) : C74.over I f = C74.over I g := by
  unfold C74.over
  congr 1
  refine C74.mapIdx_congr fun is s hs => ?_
  congr 1
  exact List.map_congr_left fun i hi => by rw [h is s hs i hi]

theorem over_mul (r : ℝ) (f : ℕ → SetIn → ℤ → ℝ) : C74.over I (fun is s i => r * f is s i) = r * C74.over I f := by
  rw [over_eq, over_eq, ← List.sum_map_mul_left]
  congr 1
  refine List.map_congr_left fun x _ => ?_
  rw [← List.sum_map_mul_left]
  congr 1
  exact List.map_congr_left fun i _ => by ring

section
variable {cons : List (Constr (List Char))} {v0 : ℕ → ℝ}

/-- The weighted sum of the differences times the derivatives with respect to parameter `k`. -/
noncomputable def beta (I : Input) (cons : List (Constr (List Char))) (v0 : ℕ → ℝ) (tv : ℕ → RVar) (par : ParStore ℝ) (k : ℕ) : ℝ :=
  C74.over I fun is s i => (s.d.obs.getD i.toNat 0 - I.curveOf (structureAt I cons v0 par) is s i) *
    I.slope (structureAt I cons v0 par) is s cons.length tv (dvar cons par) i k

/-- The gradient of chi-square. -/
theorem chi_grad (H : I.Ok) (hF : Fair I cons) {par : ParStore ℝ} (hw : par.Wf)
    (hv : ∀ c ∈ cons, ∃ y, c.value (fparse builtinTab) par = some y) (hn : Num I (structureAt I cons v0 par))
    (hS : I.Smooth cons v0 par) (tv : ℕ → RVar)
    (htv : ∀ (c : ℕ) x, cons[c]? = some x → C47.Exists I.natoms I.nset (tv c) ∧ x.addr = I.addr (tv c)) :
    HasFDerivAt (fun w => C74.chi I (structureAt I cons v0 (par.put w)))
      (dlin fun k => if par.ip.getD k false = true then -2 * I.beta cons v0 tv par k else 0) par.now := by
  obtain ⟨-, -, h⟩ := curve_grad H hF hw hv hn hS tv htv
  have e : (fun k : Fin par.p.length => if par.ip.getD k false = true then -2 * I.beta cons v0 tv par k else 0) = fun k : Fin par.p.length =>
      C74.over I fun is s i => -2 * ((s.d.obs.getD i.toNat 0 - I.curveOf (structureAt I cons v0 par) is s i) *
        (if par.ip.getD k false = true then I.slope (structureAt I cons v0 par) is s cons.length tv (dvar cons par) i k else 0)) := by
    funext k
    rw [over_mul]
    by_cases hk : par.ip.getD k false = true
    · rw [if_pos hk]
      simp only [if_pos hk]
      rfl
    · rw [if_neg hk]
      simp only [if_neg hk, mul_zero]
      rw [show C74.over I (fun _ _ _ => (0 : ℝ)) = C74.over I (fun _ _ _ => 0 * (0 : ℝ)) by simp, over_mul]
      simp
  rw [e]
  refine over_grad (fun is s i w => (s.d.obs.getD i.toNat 0 - I.curveOf (structureAt I cons v0 (par.put w)) is s i) ^ 2) _
    fun is s hs i hi => ?_
  have h0 := (h is s hs i hi).const_sub (s.d.obs.getD i.toNat 0)
  have h1 := HasFDerivAt.fun_mul h0 h0
  simp only [← pow_two] at h1
  refine h1.congr_fderiv ?_
  rw [← neg_one_smul ℝ (dlin _), dlin_smul, dlin_smul, dlin_add, ParStore.put_now]
  congr 1
  funext k
  ring

/-- The points of the fit at the parameters `par`. -/
noncomputable def points (I : Input) (cons : List (Constr (List Char))) (v0 : ℕ → ℝ) (tv : ℕ → RVar) (par : ParStore ℝ) : List (List (Pt ℝ)) :=
  C74.points I fun is s => pt s (I.curveOf (structureAt I cons v0 par) is s)
    fun i j => I.slope (structureAt I cons v0 par) is s cons.length tv (dvar cons par) i j

/-- What a successful evaluation gives. -/
theorem evalAt (H : I.Ok) (dmax : ℝ) (hF : Fair I cons) {tv : ℕ → RVar}
    (htv : ∀ (c : ℕ) x, cons[c]? = some x → C47.Exists I.natoms I.nset (tv c) ∧ x.addr = I.addr (tv c)) {p0 par : ParStore ℝ} (hwf : p0.Wf)
    {w w' : CWorld (List Char) ℝ (List Out)} (hk : SameKeys p0 par) (hw : I.Ready dmax p0 cons v0 w)
    (he : (constrTheory (I.static dmax)).eval par w = (w', none)) :
    I.Ready dmax p0 cons v0 w' ∧ (∀ c ∈ cons, ∃ y, c.value (fparse builtinTab) par = some y) ∧ Num I (structureAt I cons v0 par) ∧
    (∀ F : Pt ℝ → ℝ, (∀ p p' : Pt ℝ, p.w = p'.w → p.obs = p'.obs → p.mod = p'.mod → (∀ j ∈ Fr p0, p.d j = p'.d j) → F p = F p') →
      (((constrTheory (I.static dmax)).pts w').flatten.map F).sum = ((I.points cons v0 tv par).flatten.map F).sum) ∧
    ∀ p ∈ ((constrTheory (I.static dmax)).pts w').flatten, ∃ s ∈ I.sets, ∃ i ∈ grid s.d.D.nfmin s.d.D.nfmax, p.w = s.d.wic.getD i.toNat 0 := by
  have hs : C53.Same p0 par := ⟨hk.2.1, hk.1, hk.2.2⟩
  have hW := eval_none H dmax hF.one tv htv hw hs he
  obtain ⟨w1, G, e1, e2, e3, e4, e5⟩ := eval_ok H dmax hF.one hF.assigns tv htv hw hs hW.con hW.num hW.div
  rw [e1] at he
  obtain rfl : w1 = w' := congrArg Prod.fst he
  have hv : ∀ c ∈ cons, ∃ y, c.value (fparse builtinTab) par = some y := fun c hc =>
    value_of_cres (wf_sameKeys hwf hk) (hF.assigns c hc) (hW.con c hc)
  have hV : I.vars cons v0 par = structureAt I cons v0 par := vars_eq hF hv
  have hnum := hW.num
  rw [hV] at hnum e4 e5
  have hpt : (constrTheory (I.static dmax)).pts w1 =
      C74.points I fun is s => pt s (I.curveOf (structureAt I cons v0 par) is s) (G is) := e4
  refine ⟨e2, hv, hnum, fun F hFF => ?_, fun p hp => ?_⟩
  · rw [hpt]
    unfold points C74.points
    rw [List.map_flatten, List.map_flatten, List.sum_flatten, List.sum_flatten, List.map_map, List.map_map, C74.map_mapIdx, C74.map_mapIdx]
    congr 1
    refine C74.mapIdx_congr fun is s hset => ?_
    dsimp only [Function.comp]
    rw [List.map_map, List.map_map]
    congr 1
    refine List.map_congr_left fun i hi => ?_
    refine hFF _ _ rfl rfl rfl fun j hj => ?_
    obtain ⟨j1, j2⟩ := (mem_Fr p0 j).1 hj
    exact e5 is s hset i hi j j1 j2
  · rw [hpt] at hp
    obtain ⟨is, s, i, h1, h2, rfl⟩ := C74.points_mem hp
    exact ⟨s, List.mem_of_getElem? h1, i, h2, rfl⟩

/-- The quantities of the least-squares step. -/
theorem evalAt_sums (H : I.Ok) (dmax : ℝ) (hF : Fair I cons) {tv : ℕ → RVar}
    (htv : ∀ (c : ℕ) x, cons[c]? = some x → C47.Exists I.natoms I.nset (tv c) ∧ x.addr = I.addr (tv c)) {p0 par : ParStore ℝ} (hwf : p0.Wf)
    {w w' : CWorld (List Char) ℝ (List Out)} (hk : SameKeys p0 par) (hw : I.Ready dmax p0 cons v0 w)
    (he : (constrTheory (I.static dmax)).eval par w = (w', none)) (L : List (Pt ℝ)) (hL : L = ((constrTheory (I.static dmax)).pts w').flatten)
    (L' : List (Pt ℝ)) (hL' : L' = (I.points cons v0 tv par).flatten) :
    chisqOf ((constrTheory (I.static dmax)).pts w') = C74.chi I (structureAt I cons v0 par) ∧
    (∀ i ∈ Fr p0, grad (Fr p0) L i (fun _ => 0) = I.beta cons v0 tv par i) ∧
    (∀ i ∈ Fr p0, diag L i = diag L' i) ∧ (∀ i ∈ Fr p0, ∀ y, row (Fr p0) L i y = row (Fr p0) L' i y) ∧
    ∀ i ∈ Fr p0, grad (Fr p0) L i (fun _ => 0) = grad (Fr p0) L' i (fun _ => 0) := by
  subst hL hL'
  obtain ⟨-, -, -, h4, -⟩ := evalAt H dmax hF htv hwf hk hw he
  refine ⟨?_, fun i hi => ?_, fun i hi => ?_, fun i hi y => ?_, fun i hi => ?_⟩
  · have := h4 (fun p => p.w * (p.obs - p.mod) ^ 2) (fun p p' h1 h2 h3 _ => by rw [h1, h2, h3])
    refine Eq.trans ?_ (this.trans (C74.points_sum _ _ _ fun is s _ i _ => rfl))
    rfl
  · refine (h4 _ fun p p' h1 h2 h3 h5 => ?_).trans (C74.points_sum _ _ _ fun is s _ i _ => ?_)
    · rw [h1, h2, h3, h5 i hi]
      unfold lin
      simp
    · unfold lin
      simp only [mul_zero, Finset.sum_const_zero, add_zero, pt]
      ring
  · exact h4 _ fun p p' h1 h2 h3 h5 => by rw [h1, h5 i hi]
  · refine h4 _ fun p p' h1 h2 h3 h5 => ?_
    rw [h1, h5 i hi]
    unfold lin
    rw [Finset.sum_congr rfl fun j hj => by rw [h5 j hj]]
  · refine h4 _ fun p p' h1 h2 h3 h5 => ?_
    rw [h1, h2, h3, h5 i hi]
    unfold lin
    simp

end
end Input
end Full

/-! ## Steps with large damping -/

namespace Lin

theorem sum_Fr (par : ParStore ℝ) (h : ℕ → ℝ) :
    ∑ k : Fin par.p.length, (if par.ip.getD k false = true then h k else 0) = ∑ i ∈ Fr par, h i := by
  rw [Fr, Finset.sum_filter, ← Fin.sum_univ_eq_sum_range (fun i => if par.ip.getD i false = true then h i else 0)]

/-- The step in the free parameters. -/
noncomputable def stepOf (par : ParStore ℝ) (y : ℕ → ℝ) : Fin par.p.length → ℝ := fun k => if par.ip.getD k false = true then y k else 0

theorem dlin_step (par : ParStore ℝ) (b y : ℕ → ℝ) :
    dlin (fun k : Fin par.p.length => if par.ip.getD k false = true then -2 * b k else 0) (stepOf par y) = -2 * ∑ i ∈ Fr par, b i * y i := by
  rw [dlin_apply, Finset.mul_sum, ← sum_Fr]
  refine Finset.sum_congr rfl fun k _ => ?_
  unfold stepOf
  split <;> ring

theorem norm_step (par : ParStore ℝ) (y : ℕ → ℝ) : ‖stepOf par y‖ ≤ Real.sqrt (∑ i ∈ Fr par, y i ^ 2) := by
  rw [pi_norm_le_iff_of_nonneg (Real.sqrt_nonneg _)]
  intro k
  unfold stepOf
  split
  · rename_i hk
    refine Real.le_sqrt_of_sq_le ?_
    rw [Real.norm_eq_abs, sq_abs]
    exact Finset.single_le_sum (f := fun i => y i ^ 2) (fun i _ => sq_nonneg _) ((mem_Fr par k).2 ⟨k.2, hk⟩)
  · rw [norm_zero]
    exact Real.sqrt_nonneg _

/-- With enough damping the trial point is better. -/
theorem far (par : ParStore ℝ) {L : List (Pt ℝ)} (hw : ∀ pt ∈ L, 0 ≤ pt.w) (hd : ∀ i ∈ Fr par, 0 < diag L i)
    {f : (Fin par.p.length → ℝ) → ℝ}
    (hf : HasFDerivAt f (dlin fun k => if par.ip.getD k false = true then -2 * grad (Fr par) L k (fun _ => 0) else 0) par.now)
    (hne : ∃ i ∈ Fr par, grad (Fr par) L i (fun _ => 0) ≠ 0) :
    ∃ Λ : ℝ, ∀ lam, Λ ≤ lam → ∀ y : ℕ → ℝ,
      (∀ i ∈ Fr par, row (Fr par) L i y + lam * diag L i * y i = grad (Fr par) L i fun _ => 0) →
      f (par.now + stepOf par y) < f par.now := by
  obtain ⟨i, hi, hgi⟩ := hne
  set b : ℕ → ℝ := fun k => grad (Fr par) L k fun _ => 0 with hb
  obtain ⟨m, hm, hmin⟩ := Finset.exists_min_image (Fr par) (fun j => diag L j) ⟨i, hi⟩
  set d := diag L m with hdm
  have hdpos : 0 < d := hd m hm
  -- a bound of the matrix
  set R := Real.sqrt (∑ j ∈ Fr par, ((L.map fun pt => pt.w * pt.d i * pt.d j).sum) ^ 2) with hR
  have hR0 : 0 ≤ R := Real.sqrt_nonneg _
  have hD := hd i hi
  set c := d * (|b i| / (R + diag L i)) with hc
  have hRD : 0 < R + diag L i := by linarith
  have hbi : 0 < |b i| := abs_pos.2 hgi
  have hcpos : 0 < c := by positivity
  have hlo := hf.isLittleO.def hcpos
  obtain ⟨δ, hδ, hball⟩ := Metric.eventually_nhds_iff.1 hlo
  set B := Real.sqrt (∑ j ∈ Fr par, b j ^ 2) with hB
  have hB0 : 0 ≤ B := Real.sqrt_nonneg _
  refine ⟨max 1 (B / (d * δ) + 1), fun lam hlam y hy => ?_⟩
  have hl1 : 1 ≤ lam := (le_max_left _ _).trans hlam
  have hl2 : B / (d * δ) < lam := by linarith [(le_max_right 1 (B / (d * δ) + 1)).trans hlam]
  have hl0 : 0 < lam := by linarith
  obtain ⟨h1, -⟩ := Down.descent hw hd hl0 hy
  change lam * ∑ i ∈ Fr par, diag L i * y i ^ 2 ≤ ∑ i ∈ Fr par, b i * y i at h1
  set S := ∑ j ∈ Fr par, y j ^ 2 with hS
  have hS0 : 0 ≤ S := Finset.sum_nonneg fun j _ => sq_nonneg _
  set q := Real.sqrt S with hq
  have hq0 : 0 ≤ q := Real.sqrt_nonneg _
  have hqq : q * q = S := Real.mul_self_sqrt hS0
  have h2 : d * S ≤ ∑ i ∈ Fr par, diag L i * y i ^ 2 := by
    rw [hS, Finset.mul_sum]
    exact Finset.sum_le_sum fun j hj => mul_le_mul_of_nonneg_right (hmin j hj) (sq_nonneg _)
  have cs : ∀ a : ℕ → ℝ, |∑ j ∈ Fr par, a j * y j| ≤ Real.sqrt (∑ j ∈ Fr par, a j ^ 2) * q := by
    intro a
    rw [hq, ← Real.sqrt_mul (Finset.sum_nonneg fun j _ => sq_nonneg _)]
    exact Real.abs_le_sqrt (Finset.sum_mul_sq_le_sq_mul_sq _ _ _)
  have h3 : ∑ j ∈ Fr par, b j * y j ≤ B * q := (le_abs_self _).trans (cs b)
  have h4 : |b i| ≤ lam * (R + diag L i) * q := by
    have e : b i = row (Fr par) L i y + lam * diag L i * y i := (hy i hi).symm
    have r1 : |row (Fr par) L i y| ≤ R * q := by
      rw [row_pts]
      exact cs _
    have r2 : |y i| ≤ q := by
      refine Real.le_sqrt_of_sq_le ?_
      rw [sq_abs]
      exact Finset.single_le_sum (f := fun j => y j ^ 2) (fun j _ => sq_nonneg _) hi
    have r3 : |lam * diag L i * y i| ≤ lam * diag L i * q := by
      rw [abs_mul, abs_of_pos (mul_pos hl0 hD)]
      exact mul_le_mul_of_nonneg_left r2 (mul_pos hl0 hD).le
    have r4 : R * q ≤ lam * R * q := by
      have := mul_le_mul_of_nonneg_right hl1 (mul_nonneg hR0 hq0)
      linarith
    rw [e]
    refine (abs_add_le _ _).trans ?_
    linarith
  have hqpos : 0 < q := by
    rcases hq0.lt_or_eq with h | h
    · exact h
    · rw [← h, mul_zero] at h4
      exact absurd hbi (not_lt.2 h4)
  -- the step is short
  have h5 : q < δ := by
    have : lam * (d * (q * q)) ≤ B * q := by
      rw [hqq]
      exact (mul_le_mul_of_nonneg_left h2 hl0.le).trans (h1.trans h3)
    have : lam * d * q ≤ B := by
      have h6 : (lam * d * q) * q ≤ B * q := by linarith
      exact le_of_mul_le_mul_right h6 hqpos
    rw [div_lt_iff₀ (mul_pos hdpos hδ)] at hl2
    have h7 : lam * d * q < lam * d * δ := by linarith
    exact lt_of_mul_lt_mul_left h7 (mul_pos hl0 hdpos).le
  -- the decrease
  have h6 : c * q ≤ ∑ j ∈ Fr par, b j * y j := by
    refine le_trans ?_ ((mul_le_mul_of_nonneg_left h2 hl0.le).trans h1)
    have h7 : |b i| / (R + diag L i) ≤ lam * q := by
      rw [div_le_iff₀ hRD]
      linarith
    rw [hc, ← hqq]
    have h8 := mul_le_mul_of_nonneg_left h7 (mul_pos hdpos hqpos).le
    linarith
  have hn : ‖stepOf par y‖ ≤ q := norm_step par y
  have h7 := hball (y := par.now + stepOf par y) (by
    rw [dist_eq_norm, add_sub_cancel_left]
    exact lt_of_le_of_lt hn h5)
  rw [add_sub_cancel_left, dlin_step par b y, Real.norm_eq_abs] at h7
  have h8 := (abs_le.1 h7).2
  have h9 : c * ‖stepOf par y‖ ≤ c * q := mul_le_mul_of_nonneg_left hn hcpos.le
  have := mul_pos hcpos hqpos
  linarith

end Lin
end Pdffit
