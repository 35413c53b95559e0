import Verif.Model.Cell
import Mathlib.LinearAlgebra.Matrix.Notation
import Mathlib.Tactic.NormNum
import Mathlib.Tactic.FieldSimp
import Mathlib.Tactic.LinearCombination
import Mathlib.Tactic.Positivity

/-!
# C45 The lattice metric is consistent

Holds for cells with nonzero edges whose metric elements are not set to zero by `tensor` (`|t| < 2^-26` counts as 0).
Two violations are shown: a cell with a vanishing edge is accepted although its volume is zero, and a
cell with very short edges is accepted with an indefinite metric.
-/

namespace Pdffit.C45
open Geom Parser

theorem t01 : third 0 1 = 2 := rfl
theorem t02 : third 0 2 = 1 := rfl
theorem t12 : third 1 2 = 0 := rfl
theorem t10 : third 1 0 = 2 := rfl
theorem t20 : third 2 0 = 1 := rfl
theorem t21 : third 2 1 = 0 := rfl

/-- No nonzero element of the tensor is set to zero. -/
def NoSmall (vec win : Fin 3 → ℝ) : Prop :=
  ∀ i j, i ≠ j → vec i * vec j * bcosd (win (third i j)) = 0 ∨ eps ≤ |vec i * vec j * bcosd (win (third i j))|

theorem tensor_eq {vec win : Fin 3 → ℝ} (h : NoSmall vec win) (i j : Fin 3) :
    tensor vec win i j = if i = j then vec i * vec j else vec i * vec j * bcosd (win (third i j)) := by
  unfold tensor
  by_cases hij : i = j
  · simp [hij]
  · rw [if_pos hij, if_neg hij]
    split
    · rename_i hs
      rcases h i j hij with h0 | h0
      · exact h0.symm
      · exact absurd hs (not_lt.2 h0)
    · rfl

theorem sind_sq (x : ℝ) : bsind x ^ 2 = 1 - bcosd x ^ 2 := by
  have := Real.sin_sq_add_cos_sq (rad * x)
  unfold bsind bcosd
  linarith

theorem eps_pos : 0 < eps := by unfold eps; positivity

/-- The reciprocal angles are well defined. -/
theorem rec_sq (c : Cell) (i : Fin 3) : voll c =
    bsind (c.win (i + 1)) ^ 2 * bsind (c.win (i + 2)) ^ 2 -
      (bcosd (c.win (i + 1)) * bcosd (c.win (i + 2)) - bcosd (c.win i)) ^ 2 := by
  rw [sind_sq, sind_sq]
  fin_cases i <;> simp [voll] <;> ring

theorem sin_ne (c : Cell) (h : 0 < voll c) (i : Fin 3) : bsind (c.win i) ≠ 0 := by
  intro h0
  have e := rec_sq c (i + 2)
  have : i + 2 + 1 = i := by fin_cases i <;> rfl
  rw [this, h0] at e
  have := sq_nonneg (bcosd (c.win i) * bcosd (c.win (i + 2 + 2)) - bcosd (c.win (i + 2)))
  nlinarith

theorem cosd_rec (c : Cell) (h : 0 < voll c) (i : Fin 3) : bcosd (bacosd (recArg c i)) = recArg c i := by
  have h1 := sin_ne c h (i + 1)
  have h2 := sin_ne c h (i + 2)
  have e := rec_sq c i
  have hr : rad ≠ 0 := by unfold rad; positivity
  have hle : recArg c i ^ 2 ≤ 1 := by
    unfold recArg
    rw [div_pow, div_le_one (by positivity)]
    nlinarith
  have hb := abs_le.1 ((sq_le_one_iff_abs_le_one _).1 hle)
  unfold bcosd bacosd
  rw [mul_div_cancel₀ _ hr, Real.cos_arccos hb.1 hb.2]

theorem voll_nonneg_sqrt (c : Cell) (h : 0 < voll c) : √(voll c) ^ 2 = voll c := Real.sq_sqrt h.le

/-- A cell is rejected exactly when `voll ≤ 2^-26`, where `voll` depends on the angles only. -/
theorem rejected (c : Cell) : (lattice c = .err .structure ↔ voll c ≤ eps) ∧ lattice c ≠ .ub := by
  unfold lattice
  split <;> simp_all

/-- For an accepted cell with nonzero edges and no suppressed metric elements: the metric is positive definite, its
determinant is the square of the volume, and the length of a vector is given by the law of cosines. -/
theorem direct_partial (c : Cell) (m : Metric) (hm : lattice c = .ok m) (ha : ∀ i, c.a0 i ≠ 0)
    (hg : NoSmall c.a0 c.win) :
    (∀ x : Fin 3 → ℝ, x ≠ 0 → 0 < skalpro m.gten x x) ∧
    (Matrix.of m.gten).det = m.v ^ 2 ∧
    ∀ x : Fin 3 → ℝ, skalpro m.gten x x =
      (c.a0 0 * x 0) ^ 2 + (c.a0 1 * x 1) ^ 2 + (c.a0 2 * x 2) ^ 2 +
        2 * (c.a0 0 * x 0) * (c.a0 1 * x 1) * bcosd (c.win 2) +
        2 * (c.a0 0 * x 0) * (c.a0 2 * x 2) * bcosd (c.win 1) +
        2 * (c.a0 1 * x 1) * (c.a0 2 * x 2) * bcosd (c.win 0) := by
  unfold lattice at hm
  split at hm
  · cases hm
  rename_i hv
  have hv : 0 < voll c := lt_trans eps_pos (not_le.1 hv)
  cases hm
  dsimp only
  have hlaw : ∀ x : Fin 3 → ℝ, skalpro (tensor c.a0 c.win) x x =
      (c.a0 0 * x 0) ^ 2 + (c.a0 1 * x 1) ^ 2 + (c.a0 2 * x 2) ^ 2 +
        2 * (c.a0 0 * x 0) * (c.a0 1 * x 1) * bcosd (c.win 2) +
        2 * (c.a0 0 * x 0) * (c.a0 2 * x 2) * bcosd (c.win 1) +
        2 * (c.a0 1 * x 1) * (c.a0 2 * x 2) * bcosd (c.win 0) := by
    intro x
    unfold skalpro
    simp only [Fin.sum_univ_three, tensor_eq hg]
    simp [t01, t02, t12, t10, t20, t21]
    ring
  have hs := sin_ne c hv 0
  refine ⟨?_, ?_, hlaw⟩
  · intro x hx
    rw [hlaw]
    have e : ∀ u v w : ℝ, bsind (c.win 0) ^ 2 * (u ^ 2 + v ^ 2 + w ^ 2 + 2 * u * v * bcosd (c.win 2) + 2 * u * w * bcosd (c.win 1) +
        2 * v * w * bcosd (c.win 0)) = bsind (c.win 0) ^ 2 * (w + v * bcosd (c.win 0) + u * bcosd (c.win 1)) ^ 2 +
        (v * bsind (c.win 0) ^ 2 + u * (bcosd (c.win 2) - bcosd (c.win 0) * bcosd (c.win 1))) ^ 2 + u ^ 2 * voll c := by
      intro u v w
      rw [sind_sq]
      unfold voll
      ring
    have e1 := e (c.a0 0 * x 0) (c.a0 1 * x 1) (c.a0 2 * x 2)
    have hs2 : 0 < bsind (c.win 0) ^ 2 := by positivity
    refine pos_of_mul_pos_right (a := bsind (c.win 0) ^ 2) ?_ hs2.le
    rw [e1]
    by_cases h0 : x 0 = 0
    · by_cases h1 : x 1 = 0
      · have h2 : x 2 ≠ 0 := by
          intro h2
          apply hx
          funext i
          fin_cases i <;> assumption
        have : c.a0 2 * x 2 ≠ 0 := mul_ne_zero (ha 2) h2
        simp only [h0, h1, mul_zero, zero_mul, add_zero]
        positivity
      · have : c.a0 1 * x 1 * bsind (c.win 0) ^ 2 ≠ 0 := mul_ne_zero (mul_ne_zero (ha 1) h1) hs2.ne'
        simp only [h0, mul_zero, zero_mul, add_zero]
        positivity
    · have : c.a0 0 * x 0 ≠ 0 := mul_ne_zero (ha 0) h0
      positivity
  · rw [Matrix.det_fin_three]
    simp only [Matrix.of_apply, tensor_eq hg, vol]
    have h2 := voll_nonneg_sqrt c hv
    have : (√(voll c) * c.a0 0 * c.a0 1 * c.a0 2) ^ 2 = √(voll c) ^ 2 * (c.a0 0 * c.a0 1 * c.a0 2) ^ 2 := by ring
    rw [this, h2]
    unfold voll
    simp [t01, t02, t12, t10, t20, t21]
    ring

/-- As `direct_partial`, and the reciprocal metric is the inverse of the metric. -/
theorem metric_partial (c : Cell) (m : Metric) (hm : lattice c = .ok m) (ha : ∀ i, c.a0 i ≠ 0)
    (hg : NoSmall c.a0 c.win) (hr : NoSmall m.ar m.wrez) :
    (∀ x : Fin 3 → ℝ, x ≠ 0 → 0 < skalpro m.gten x x) ∧
    (Matrix.of m.gten).det = m.v ^ 2 ∧
    Matrix.of m.gten * Matrix.of m.rten = 1 ∧
    ∀ x : Fin 3 → ℝ, skalpro m.gten x x =
      (c.a0 0 * x 0) ^ 2 + (c.a0 1 * x 1) ^ 2 + (c.a0 2 * x 2) ^ 2 +
        2 * (c.a0 0 * x 0) * (c.a0 1 * x 1) * bcosd (c.win 2) +
        2 * (c.a0 0 * x 0) * (c.a0 2 * x 2) * bcosd (c.win 1) +
        2 * (c.a0 1 * x 1) * (c.a0 2 * x 2) * bcosd (c.win 0) := by
  obtain ⟨p1, p2, p3⟩ := direct_partial c m hm ha hg
  refine ⟨p1, p2, ?_, p3⟩
  unfold lattice at hm
  split at hm
  · cases hm
  rename_i hv
  have hv : 0 < voll c := lt_trans eps_pos (not_le.1 hv)
  cases hm
  dsimp only at hr ⊢
  · have hsq := voll_nonneg_sqrt c hv
    have hvne : √(voll c) ≠ 0 := (Real.sqrt_pos.2 hv).ne'
    obtain ⟨s, hs'⟩ : ∃ s, s = √(voll c) := ⟨_, rfl⟩
    rw [← hs'] at hsq hvne
    have hr' : ∀ i j, tensor (recEdge c) (fun i => bacosd (recArg c i)) i j =
        if i = j then recEdge c i * recEdge c j else recEdge c i * recEdge c j * recArg c (third i j) := by
      intro i j
      rw [tensor_eq hr]
      split
      · rfl
      · rw [cosd_rec c hv]
    have a0 := ha 0
    have a1 := ha 1
    have a2 := ha 2
    have s0 := sin_ne c hv 0
    have s1 := sin_ne c hv 1
    have s2 := sin_ne c hv 2
    have q0 := sind_sq (c.win 0)
    have q1 := sind_sq (c.win 1)
    have q2 := sind_sq (c.win 2)
    have hdef : voll c = 1 - bcosd (c.win 0) ^ 2 - bcosd (c.win 1) ^ 2 - bcosd (c.win 2) ^ 2 +
      2 * bcosd (c.win 0) * bcosd (c.win 1) * bcosd (c.win 2) := rfl
    have hV : voll c ≠ 0 := hv.ne'
    -- elements of the reciprocal metric
    have d0 : recEdge c 0 * recEdge c 0 = (1 - bcosd (c.win 0) ^ 2) / (voll c * c.a0 0 ^ 2) := by
      unfold recEdge vol; simp only [Fin.reduceAdd, zero_add]
      rw [← q0, ← hs', ← hsq]; field_simp
    have d1 : recEdge c 1 * recEdge c 1 = (1 - bcosd (c.win 1) ^ 2) / (voll c * c.a0 1 ^ 2) := by
      unfold recEdge vol; simp only [Fin.reduceAdd]
      rw [← q1, ← hs', ← hsq]; field_simp
    have d2 : recEdge c 2 * recEdge c 2 = (1 - bcosd (c.win 2) ^ 2) / (voll c * c.a0 2 ^ 2) := by
      unfold recEdge vol; simp only [Fin.reduceAdd]
      rw [← q2, ← hs', ← hsq]; field_simp
    have o01 : recEdge c 0 * recEdge c 1 * recArg c 2 =
        (bcosd (c.win 0) * bcosd (c.win 1) - bcosd (c.win 2)) / (voll c * (c.a0 0 * c.a0 1)) := by
      unfold recEdge recArg vol; simp only [Fin.reduceAdd, zero_add]
      rw [← hs', ← hsq]; field_simp
    have o02 : recEdge c 0 * recEdge c 2 * recArg c 1 =
        (bcosd (c.win 2) * bcosd (c.win 0) - bcosd (c.win 1)) / (voll c * (c.a0 0 * c.a0 2)) := by
      unfold recEdge recArg vol; simp only [Fin.reduceAdd, zero_add]
      rw [← hs', ← hsq]; field_simp
    have o12 : recEdge c 1 * recEdge c 2 * recArg c 0 =
        (bcosd (c.win 1) * bcosd (c.win 2) - bcosd (c.win 0)) / (voll c * (c.a0 1 * c.a0 2)) := by
      unfold recEdge recArg vol; simp only [Fin.reduceAdd, zero_add]
      rw [← hs', ← hsq]; field_simp
    have o10 : recEdge c 1 * recEdge c 0 * recArg c 2 =
        (bcosd (c.win 0) * bcosd (c.win 1) - bcosd (c.win 2)) / (voll c * (c.a0 0 * c.a0 1)) := by
      rw [← o01]; ring
    have o20 : recEdge c 2 * recEdge c 0 * recArg c 1 =
        (bcosd (c.win 2) * bcosd (c.win 0) - bcosd (c.win 1)) / (voll c * (c.a0 0 * c.a0 2)) := by
      rw [← o02]; ring
    have o21 : recEdge c 2 * recEdge c 1 * recArg c 0 =
        (bcosd (c.win 1) * bcosd (c.win 2) - bcosd (c.win 0)) / (voll c * (c.a0 1 * c.a0 2)) := by
      rw [← o12]; ring
    ext i j
    rw [Matrix.mul_apply]
    simp only [Matrix.of_apply, Fin.sum_univ_three, hr', tensor_eq hg]
    fin_cases i <;> fin_cases j <;>
      simp [t01, t02, t12, t10, t20, t21, d0, d1, d2, o01, o02, o12, o10, o20, o21] <;>
      field_simp <;> simp only [hdef] <;> ring

theorem cosd90 : bcosd 90 = 0 := by
  unfold bcosd rad
  rw [show Real.pi / 180 * 90 = Real.pi / 2 by ring, Real.cos_pi_div_two]

theorem sind90 : bsind 90 = 1 := by
  unfold bsind rad
  rw [show Real.pi / 180 * 90 = Real.pi / 2 by ring, Real.sin_pi_div_two]

theorem cosd120 : bcosd 120 = -(1 / 2) := by
  unfold bcosd rad
  rw [show Real.pi / 180 * 120 = Real.pi - Real.pi / 3 by ring, Real.cos_pi_sub, Real.cos_pi_div_three]

theorem cosd_acosd {x : ℝ} (h1 : -1 ≤ x) (h2 : x ≤ 1) : bcosd (bacosd x) = x := by
  have hr : rad ≠ 0 := by unfold rad; positivity
  unfold bcosd bacosd
  rw [mul_div_cancel₀ _ hr, Real.cos_arccos h1 h2]

/-- Violation: a cell with a vanishing edge has volume zero and is accepted. -/
theorem zero_edge_accepted : ∃ m, lattice ⟨![0, 1, 1], ![90, 90, 90]⟩ = .ok m ∧ m.v = 0 := by
  have hv : voll ⟨![0, 1, 1], ![90, 90, 90]⟩ = 1 := by simp [voll, cosd90]
  unfold lattice
  exact ⟨_, if_neg (by rw [hv]; unfold eps; norm_num), by simp [vol]⟩

/-- Cell with edges 1, 1/10000, 1/10000 and cosines of the angles 0.9, 0.8, 0.8. -/
noncomputable def tiny : Cell := ⟨![1, 1 / 10000, 1 / 10000], ![bacosd (9 / 10), bacosd (8 / 10), bacosd (8 / 10)]⟩

/-- Violation: an accepted cell whose metric is not positive definite. -/
theorem tiny_indefinite : ∃ m, lattice tiny = .ok m ∧ skalpro m.gten ![1, -7000, -7000] ![1, -7000, -7000] < 0 := by
  have c9 : bcosd (bacosd (9 / 10)) = 9 / 10 := cosd_acosd (by norm_num) (by norm_num)
  have c8 : bcosd (bacosd (8 / 10)) = 8 / 10 := cosd_acosd (by norm_num) (by norm_num)
  have hv : voll tiny = 31 / 500 := by simp [voll, tiny, c9, c8]; norm_num
  unfold lattice
  refine ⟨_, if_neg (by rw [hv]; unfold eps; norm_num), ?_⟩
  have f1 : ¬ |1 * (1 / 10000) * (8 / 10 : ℝ)| < eps := by unfold eps; rw [abs_of_pos (by norm_num)]; norm_num
  have f2 : |1 / 10000 * (1 / 10000) * (9 / 10 : ℝ)| < eps := by unfold eps; rw [abs_of_pos (by norm_num)]; norm_num
  have f3 : ¬ |1 / 10000 * 1 * (8 / 10 : ℝ)| < eps := by unfold eps; rw [abs_of_pos (by norm_num)]; norm_num
  have g : tensor tiny.a0 tiny.win 0 0 = 1 ∧ tensor tiny.a0 tiny.win 1 1 = 1 / 10 ^ 8 ∧
      tensor tiny.a0 tiny.win 2 2 = 1 / 10 ^ 8 ∧ tensor tiny.a0 tiny.win 0 1 = 8 / 10 ^ 5 ∧
      tensor tiny.a0 tiny.win 1 0 = 8 / 10 ^ 5 ∧ tensor tiny.a0 tiny.win 0 2 = 8 / 10 ^ 5 ∧
      tensor tiny.a0 tiny.win 2 0 = 8 / 10 ^ 5 ∧ tensor tiny.a0 tiny.win 1 2 = 0 ∧ tensor tiny.a0 tiny.win 2 1 = 0 := by
    refine ⟨?_, ?_, ?_, ?_, ?_, ?_, ?_, ?_, ?_⟩ <;> unfold tensor
    · simp [tiny]
    · simp [tiny]; norm_num
    · simp [tiny]; norm_num
    · rw [if_pos (by decide)]; simp only [t01, tiny, Matrix.cons_val, c8]; rw [if_neg f1]; norm_num
    · rw [if_pos (by decide)]; simp only [t10, tiny, Matrix.cons_val, c8]; rw [if_neg f3]; norm_num
    · rw [if_pos (by decide)]; simp only [t02, tiny, Matrix.cons_val, c8]; rw [if_neg f1]; norm_num
    · rw [if_pos (by decide)]; simp only [t20, tiny, Matrix.cons_val, c8]; rw [if_neg f3]; norm_num
    · rw [if_pos (by decide)]; simp only [t12, tiny, Matrix.cons_val, c9]; rw [if_pos f2]
    · rw [if_pos (by decide)]; simp only [t21, tiny, Matrix.cons_val, c9]; rw [if_pos f2]
  obtain ⟨g1, g2, g3, g4, g5, g6, g7, g8, g9⟩ := g
  simp only [skalpro, Fin.sum_univ_three, g1, g2, g3, g4, g5, g6, g7, g8, g9, Matrix.cons_val]
  norm_num

/-- A hexagonal cell satisfies the hypotheses of `metric_partial`. -/
theorem hexagonal : ∃ m, lattice ⟨![3, 3, 5], ![90, 90, 120]⟩ = .ok m ∧ NoSmall ![3, 3, 5] ![90, 90, 120] ∧
    NoSmall m.ar m.wrez := by
  have hv : voll ⟨![3, 3, 5], ![90, 90, 120]⟩ = 3 / 4 := by simp [voll, cosd90, cosd120]; norm_num
  unfold lattice
  refine ⟨_, if_neg (by rw [hv]; unfold eps; norm_num), ?_, ?_⟩
  · intro i j hij
    fin_cases i <;> fin_cases j <;> simp [t01, t02, t12, t10, t20, t21, cosd90, cosd120, eps, abs_mul] at hij ⊢ <;> norm_num
  · have r0 : recArg ⟨![3, 3, 5], ![90, 90, 120]⟩ 0 = 0 := by simp [recArg, cosd90]
    have r1 : recArg ⟨![3, 3, 5], ![90, 90, 120]⟩ 1 = 0 := by simp [recArg, cosd90]
    have r2 : recArg ⟨![3, 3, 5], ![90, 90, 120]⟩ 2 = 1 / 2 := by simp [recArg, cosd90, cosd120, sind90]
    have q0 : bcosd (bacosd 0) = 0 := cosd_acosd (by norm_num) (by norm_num)
    have q2 : bcosd (bacosd (1 / 2)) = 1 / 2 := cosd_acosd (by norm_num) (by norm_num)
    have hs : √(3 / 4 : ℝ) ^ 2 = 3 / 4 := Real.sq_sqrt (by norm_num)
    have hs0 : √(3 / 4 : ℝ) ≠ 0 := (Real.sqrt_pos.2 (by norm_num)).ne'
    have e01 : recEdge ⟨![3, 3, 5], ![90, 90, 120]⟩ 0 * recEdge ⟨![3, 3, 5], ![90, 90, 120]⟩ 1 = 4 / 27 := by
      have : recEdge ⟨![3, 3, 5], ![90, 90, 120]⟩ 0 * recEdge ⟨![3, 3, 5], ![90, 90, 120]⟩ 1 =
          225 / (√(3 / 4 : ℝ) ^ 2 * 2025) := by
        simp only [recEdge, vol, hv]
        simp [sind90, -Real.sqrt_div']
        field_simp
        norm_num
      rw [this, hs]
      norm_num
    have e10 : recEdge ⟨![3, 3, 5], ![90, 90, 120]⟩ 1 * recEdge ⟨![3, 3, 5], ![90, 90, 120]⟩ 0 = 4 / 27 := by
      rw [mul_comm, e01]
    intro i j hij
    have h4 : eps ≤ |(4 / 27 * (1 / 2) : ℝ)| := by unfold eps; rw [abs_of_pos (by norm_num)]; norm_num
    dsimp only at *
    fin_cases i <;> fin_cases j
    · exact absurd rfl hij
    · right; change eps ≤ |recEdge _ 0 * recEdge _ 1 * bcosd (bacosd (recArg _ (third 0 1)))|
      rw [t01, r2, q2, e01]; exact h4
    · left; change recEdge _ 0 * recEdge _ 2 * bcosd (bacosd (recArg _ (third 0 2))) = 0
      rw [t02, r1, q0, mul_zero]
    · right; change eps ≤ |recEdge _ 1 * recEdge _ 0 * bcosd (bacosd (recArg _ (third 1 0)))|
      rw [t10, r2, q2, e10]; exact h4
    · exact absurd rfl hij
    · left; change recEdge _ 1 * recEdge _ 2 * bcosd (bacosd (recArg _ (third 1 2))) = 0
      rw [t12, r0, q0, mul_zero]
    · left; change recEdge _ 2 * recEdge _ 0 * bcosd (bacosd (recArg _ (third 2 0))) = 0
      rw [t20, r1, q0, mul_zero]
    · left; change recEdge _ 2 * recEdge _ 1 * bcosd (bacosd (recArg _ (third 2 1))) = 0
      rw [t21, r0, q0, mul_zero]
    · exact absurd rfl hij

end Pdffit.C45
