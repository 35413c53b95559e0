import Verif.Lemmas.RefineStat
import Mathlib.Algebra.Order.BigOperators.Ring.Finset

/-! Refinements of a model that depends linearly on the free parameters. -/

namespace Pdffit
set_option linter.unusedSectionVars false
variable {K W : Type} [Field K] [LinearOrder K] [IsStrictOrderedRing K]

namespace Lin

/-! ## Quadratic forms -/

section
variable (s : Finset ℕ) (L : List (Pt K))

/-- Change of a calculated value when the free parameters change by `y`. -/
def lin (pt : Pt K) (y : ℕ → K) : K := ∑ i ∈ s, pt.d i * y i

def bil (y z : ℕ → K) : K := (L.map fun pt => pt.w * lin s pt y * lin s pt z).sum
def row (i : ℕ) (y : ℕ → K) : K := (L.map fun pt => pt.w * lin s pt y * pt.d i).sum
def diag (i : ℕ) : K := (L.map fun pt => pt.w * pt.d i * pt.d i).sum
def chiAt (y : ℕ → K) : K := (L.map fun pt => pt.w * (pt.obs - (pt.mod + lin s pt y)) ^ 2).sum
def grad (i : ℕ) (y : ℕ → K) : K := (L.map fun pt => pt.w * (pt.obs - (pt.mod + lin s pt y)) * pt.d i).sum

theorem lin_add (pt : Pt K) (y z : ℕ → K) : lin s pt (fun i => y i + z i) = lin s pt y + lin s pt z := by
  unfold lin
  rw [← Finset.sum_add_distrib]
  exact Finset.sum_congr rfl fun i _ => by ring

theorem lin_sub (pt : Pt K) (y z : ℕ → K) : lin s pt (fun i => y i - z i) = lin s pt y - lin s pt z := by
  unfold lin
  rw [← Finset.sum_sub_distrib]
  exact Finset.sum_congr rfl fun i _ => by ring

theorem bil_row (y z : ℕ → K) : bil s L y z = ∑ i ∈ s, row s L i y * z i := by
  unfold bil row
  induction L with
  | nil => simp
  | cons pt l ih =>
    simp only [List.map_cons, List.sum_cons, ih, add_mul, Finset.sum_add_distrib]
    congr 1
    unfold lin
    rw [Finset.mul_sum]
    exact Finset.sum_congr rfl fun i _ => by ring

theorem bil_add (y z : ℕ → K) : bil s L (fun i => y i + z i) (fun i => y i + z i) = bil s L y y + 2 * bil s L y z + bil s L z z := by
  unfold bil
  induction L with
  | nil => simp
  | cons pt l ih =>
    simp only [List.map_cons, List.sum_cons, ih]
    rw [lin_add]
    ring

theorem row_sub (i : ℕ) (y z : ℕ → K) : row s L i (fun i => y i - z i) = row s L i y - row s L i z := by
  unfold row
  induction L with
  | nil => simp
  | cons pt l ih =>
    simp only [List.map_cons, List.sum_cons, ih]
    rw [lin_sub]
    ring

theorem grad_sub (i : ℕ) (x y : ℕ → K) : grad s L i y = grad s L i x + row s L i (fun i => x i - y i) := by
  unfold grad row
  induction L with
  | nil => simp
  | cons pt l ih =>
    simp only [List.map_cons, List.sum_cons, ih]
    rw [lin_sub]
    ring

theorem chi_sub (x y : ℕ → K) : chiAt s L y = chiAt s L x - 2 * (∑ i ∈ s, grad s L i x * (y i - x i)) +
    bil s L (fun i => y i - x i) (fun i => y i - x i) := by
  unfold chiAt grad bil
  induction L with
  | nil => simp
  | cons pt l ih =>
    simp only [List.map_cons, List.sum_cons, ih, add_mul, Finset.sum_add_distrib]
    have : ∑ i ∈ s, pt.w * (pt.obs - (pt.mod + lin s pt x)) * pt.d i * (y i - x i) = pt.w * (pt.obs - (pt.mod + lin s pt x)) * (lin s pt y - lin s pt x) := by
      rw [← lin_sub]
      unfold lin
      rw [Finset.mul_sum]
      exact Finset.sum_congr rfl fun i _ => by ring
    rw [this, lin_sub]
    ring

theorem chi_min {x : ℕ → K} (h : ∀ i ∈ s, grad s L i x = 0) (y : ℕ → K) : chiAt s L y = chiAt s L x +
    bil s L (fun i => y i - x i) (fun i => y i - x i) := by
  rw [chi_sub s L x y, Finset.sum_eq_zero fun i hi => by rw [h i hi, zero_mul]]
  ring

variable {L} (hw : ∀ pt ∈ L, 0 ≤ pt.w)
include hw

theorem bil_nonneg (y : ℕ → K) : 0 ≤ bil s L y y := by
  refine List.sum_nonneg fun x hx => ?_
  obtain ⟨pt, hpt, rfl⟩ := List.mem_map.1 hx
  rw [mul_assoc]
  exact mul_nonneg (hw pt hpt) (mul_self_nonneg _)

theorem diag_nonneg (i : ℕ) : 0 ≤ diag L i := by
  refine List.sum_nonneg fun x hx => ?_
  obtain ⟨pt, hpt, rfl⟩ := List.mem_map.1 hx
  rw [mul_assoc]
  exact mul_nonneg (hw pt hpt) (mul_self_nonneg _)

/-- One step shrinks the distance from the minimum. -/
theorem contract {μ lam : K} (hμ : 0 < μ) (hl : 0 < lam) (hc : ∀ y, μ * ∑ i ∈ s, diag L i * y i ^ 2 ≤ bil s L y y) {z u : ℕ → K}
    (h : ∀ i ∈ s, row s L i z = lam * diag L i * u i) :
    (lam + μ) ^ 2 * bil s L z z ≤ lam ^ 2 * bil s L (fun i => z i + u i) (fun i => z i + u i) := by
  set Q := ∑ i ∈ s, diag L i * u i ^ 2 with hQ
  set Z := bil s L z z with hZ
  have h1 : bil s L z u = lam * Q := by
    rw [bil_row, hQ, Finset.mul_sum]
    exact Finset.sum_congr rfl fun i hi => by rw [h i hi]; ring
  have h2 : Z = lam * ∑ i ∈ s, diag L i * z i * u i := by
    rw [hZ, bil_row, Finset.mul_sum]
    exact Finset.sum_congr rfl fun i hi => by rw [h i hi]; ring
  have h3 : (∑ i ∈ s, diag L i * z i * u i) ^ 2 ≤ (∑ i ∈ s, diag L i * z i ^ 2) * Q := by
    refine Finset.sum_sq_le_sum_mul_sum_of_sq_le_mul s (fun i _ => mul_nonneg (diag_nonneg hw i) (sq_nonneg _))
      (fun i _ => mul_nonneg (diag_nonneg hw i) (sq_nonneg _)) fun i _ => le_of_eq (by ring)
  have hQ0 : 0 ≤ Q := Finset.sum_nonneg fun i _ => mul_nonneg (diag_nonneg hw i) (sq_nonneg _)
  have hZ0 : 0 ≤ Z := bil_nonneg s hw z
  have h4 : μ * Z ≤ lam ^ 2 * Q := by
    have h5 := hc z
    rw [← hZ] at h5
    have h6 : μ * Z ^ 2 ≤ lam ^ 2 * (Z * Q) := by
      calc μ * Z ^ 2 = lam ^ 2 * (μ * (∑ i ∈ s, diag L i * z i * u i) ^ 2) := by rw [h2]; ring
        _ ≤ lam ^ 2 * (μ * ((∑ i ∈ s, diag L i * z i ^ 2) * Q)) := by gcongr
        _ = lam ^ 2 * ((μ * ∑ i ∈ s, diag L i * z i ^ 2) * Q) := by ring
        _ ≤ lam ^ 2 * (Z * Q) := by gcongr
    rcases hZ0.eq_or_lt with h0 | h0
    · rw [← h0, mul_zero]; positivity
    · refine le_of_mul_le_mul_right ?_ h0
      calc μ * Z * Z = μ * Z ^ 2 := by ring
        _ ≤ _ := h6
        _ = lam ^ 2 * Q * Z := by ring
  have h7 := hc u
  rw [bil_add, h1]
  have h8 : (lam + μ) ^ 2 * Z = lam ^ 2 * Z + 2 * lam * (μ * Z) + μ * (μ * Z) := by ring
  have h9 : lam ^ 2 * (Z + 2 * (lam * Q) + μ * Q) = lam ^ 2 * Z + 2 * lam * (lam ^ 2 * Q) + μ * (lam ^ 2 * Q) := by ring
  calc (lam + μ) ^ 2 * Z ≤ lam ^ 2 * (Z + 2 * (lam * Q) + μ * Q) := by
        rw [h8, h9]
        gcongr
    _ ≤ _ := by gcongr

end

/-! ## Solvability -/

/-- Indices of the free parameters. -/
def Fr (p0 : ParStore K) : Finset ℕ := (Finset.range p0.p.length).filter (fun i => p0.ip.getD i false = true)

theorem mem_Fr (p0 : ParStore K) (i : ℕ) : i ∈ Fr p0 ↔ i < p0.p.length ∧ p0.ip.getD i false = true := by
  rw [Fr, Finset.mem_filter, Finset.mem_range]

theorem row_pts (s : Finset ℕ) (L : List (Pt K)) (i : ℕ) (y : ℕ → K) :
    row s L i y = ∑ j ∈ s, (L.map fun pt => pt.w * pt.d i * pt.d j).sum * y j := by
  unfold row
  induction L with
  | nil => simp
  | cons pt l ih =>
    simp only [List.map_cons, List.sum_cons, ih, add_mul, Finset.sum_add_distrib]
    congr 1
    unfold lin
    rw [Finset.mul_sum, Finset.sum_mul]
    exact Finset.sum_congr rfl fun i _ => by ring

/-- The points determine the free parameters: the normal equations have a solution for every right side. -/
theorem solve {p0 : ParStore K} {B : List (List (Pt K))} (hB : Determined p0 B) (b : ℕ → K) :
    ∃ g : ℕ → K, ∀ i ∈ Fr p0, row (Fr p0) B.flatten i g = b i := by
  classical
  let M : Matrix (Fr p0) (Fr p0) K := fun i j => (B.flatten.map fun pt => pt.w * pt.d i * pt.d j).sum
  have hsum : ∀ (v : Fr p0 → K) (i : ℕ), row (Fr p0) B.flatten i (fun j => if h : j ∈ Fr p0 then v ⟨j, h⟩ else 0) =
      ∑ j : Fr p0, (B.flatten.map fun pt => pt.w * pt.d i * pt.d j).sum * v j := by
    intro v i
    rw [row_pts, ← Finset.sum_coe_sort]
    refine Finset.sum_congr rfl fun j _ => ?_
    rw [dif_pos j.2]
  have hdet : M.det ≠ 0 := by
    intro h0
    obtain ⟨v, hv, hz⟩ := Matrix.exists_mulVec_eq_zero_iff.2 h0
    set y : ℕ → K := fun j => if h : j ∈ Fr p0 then v ⟨j, h⟩ else 0 with hy
    have h1 : bil (Fr p0) B.flatten y y = 0 := by
      rw [bil_row]
      refine Finset.sum_eq_zero fun i hi => ?_
      rw [hy, hsum v i]
      have := congrFun hz ⟨i, hi⟩
      simp only [Matrix.mulVec, dotProduct, Pi.zero_apply] at this
      have h2 : ∑ j : Fr p0, (B.flatten.map fun pt => pt.w * pt.d i * pt.d j).sum * v j = 0 := this
      rw [h2, zero_mul]
    have h2 := sum_eq_zero_all (B.flatten.map fun pt => pt.w * lin (Fr p0) pt y * lin (Fr p0) pt y)
      (by
        intro x hx
        obtain ⟨pt, hpt, rfl⟩ := List.mem_map.1 hx
        rw [mul_assoc]
        exact mul_nonneg (hB.weight pt hpt) (mul_self_nonneg _)) h1.le
    have h3 := hB.indep y (by
      intro pt hpt hw
      have h4 := h2 _ (List.mem_map_of_mem hpt)
      rw [mul_assoc] at h4
      have h5 := mul_self_eq_zero.1 ((mul_eq_zero.1 h4).resolve_left hw)
      rw [← h5]
      exact Finset.sum_congr rfl fun i _ => mul_comm _ _)
    refine hv (funext fun j => ?_)
    have h6 := (mem_Fr p0 j).1 j.2
    have h7 := h3 j h6.1 h6.2
    rw [hy] at h7
    simpa using h7
  have hu : IsUnit M.det := isUnit_iff_ne_zero.2 hdet
  refine ⟨fun j => if h : j ∈ Fr p0 then (M⁻¹.mulVec fun i => b i) ⟨j, h⟩ else 0, fun i hi => ?_⟩
  rw [hsum]
  have h1 : M.mulVec (M⁻¹.mulVec fun i => b i) = fun i : Fr p0 => b i := by
    rw [Matrix.mulVec_mulVec, Matrix.mul_nonsing_inv M hu, Matrix.one_mulVec]
  exact congrFun h1 ⟨i, hi⟩

theorem grad_zero (s : Finset ℕ) (L : List (Pt K)) (i : ℕ) (x : ℕ → K) :
    grad s L i x = grad s L i (fun _ => 0) - row s L i x := by
  rw [grad_sub s L i x (fun _ => 0)]
  have : (fun i => x i - (fun _ => (0 : K)) i) = x := funext fun i => sub_zero _
  rw [this]
  ring

/-- The best values exist. -/
theorem exists_min {p0 : ParStore K} {B : List (List (Pt K))} (hB : Determined p0 B) :
    ∃ x : ℕ → K, ∀ i ∈ Fr p0, grad (Fr p0) B.flatten i x = 0 := by
  obtain ⟨x, hx⟩ := solve hB fun i => grad (Fr p0) B.flatten i fun _ => 0
  exact ⟨x, fun i hi => by rw [grad_zero, hx i hi, sub_self]⟩

theorem cs_list (L : List (Pt K)) (hw : ∀ pt ∈ L, 0 ≤ pt.w) (a b : Pt K → K) :
    (L.map fun pt => pt.w * a pt * b pt).sum ^ 2 ≤
      (L.map fun pt => pt.w * a pt * a pt).sum * (L.map fun pt => pt.w * b pt * b pt).sum := by
  have conv : ∀ f : Pt K → K, (L.map f).sum = ∑ i : Fin L.length, f L[i] := by
    intro f
    have hind : ∀ l : List (Pt K), (l.map f).sum = ∑ i : Fin l.length, f l[i] := by
      intro l
      induction l with
      | nil => simp
      | cons pt l ih =>
        rw [List.map_cons, List.sum_cons, ih]
        exact (Fin.sum_univ_succ (fun i : Fin (l.length + 1) => f (pt :: l)[i])).symm
    exact hind L
  rw [conv, conv, conv]
  refine Finset.sum_sq_le_sum_mul_sum_of_sq_le_mul _ (fun i _ => ?_) (fun i _ => ?_) fun i _ => le_of_eq (by ring)
  · rw [mul_assoc]
    exact mul_nonneg (hw _ (List.getElem_mem _)) (mul_self_nonneg _)
  · rw [mul_assoc]
    exact mul_nonneg (hw _ (List.getElem_mem _)) (mul_self_nonneg _)

/-- The points determine the free parameters with some sharpness. -/
theorem exists_sharp {p0 : ParStore K} {B : List (List (Pt K))} (hB : Determined p0 B) :
    ∃ μ : K, 0 < μ ∧ ∀ y, μ * ∑ i ∈ Fr p0, diag B.flatten i * y i ^ 2 ≤ bil (Fr p0) B.flatten y y := by
  have hg : ∀ k : ℕ, ∃ g : ℕ → K, ∀ i ∈ Fr p0, row (Fr p0) B.flatten i g = if i = k then 1 else 0 :=
    fun k => solve hB fun i => if i = k then 1 else 0
  choose g hg using hg
  set C := ∑ i ∈ Fr p0, diag B.flatten i * bil (Fr p0) B.flatten (g i) (g i) with hC
  have hC0 : 0 ≤ C := Finset.sum_nonneg fun i _ => mul_nonneg (diag_nonneg hB.weight i) (bil_nonneg _ hB.weight _)
  have hpos : 0 < C + 1 := by linarith
  refine ⟨1 / (C + 1), by positivity, fun y => ?_⟩
  have h1 : ∀ i ∈ Fr p0, y i ^ 2 ≤ bil (Fr p0) B.flatten (g i) (g i) * bil (Fr p0) B.flatten y y := by
    intro i hi
    have h2 : bil (Fr p0) B.flatten (g i) y = y i := by
      rw [bil_row]
      rw [Finset.sum_congr rfl fun j hj => by rw [hg i j hj]]
      simp only [ite_mul, one_mul, zero_mul]
      rw [Finset.sum_ite_eq' (Fr p0) i, if_pos hi]
    calc y i ^ 2 = bil (Fr p0) B.flatten (g i) y ^ 2 := by rw [h2]
      _ ≤ _ := cs_list _ hB.weight _ _
  have h3 : ∑ i ∈ Fr p0, diag B.flatten i * y i ^ 2 ≤ C * bil (Fr p0) B.flatten y y := by
    rw [hC, Finset.sum_mul]
    refine Finset.sum_le_sum fun i hi => ?_
    rw [mul_assoc]
    exact mul_le_mul_of_nonneg_left (h1 i hi) (diag_nonneg hB.weight i)
  have h4 := bil_nonneg (Fr p0) hB.weight y
  rw [one_div, inv_mul_le_iff₀ hpos]
  calc _ ≤ C * bil (Fr p0) B.flatten y y := h3
    _ ≤ _ := by linarith

end Lin
end Pdffit
