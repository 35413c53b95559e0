import Mathlib.Algebra.BigOperators.Group.Finset.Basic
import Mathlib.Algebra.BigOperators.Ring.Finset
import Mathlib.Algebra.Order.BigOperators.Group.Finset
import Mathlib.Algebra.Order.Field.Basic
import Mathlib.Tactic.Linarith
import Mathlib.Tactic.LinearCombination
import Mathlib.Tactic.Ring
import Mathlib.Tactic.FieldSimp

/-! The inverse of a positive semidefinite matrix, over a finite set of indices. -/

namespace Pdffit
variable {K : Type} [Field K] [LinearOrder K] [IsStrictOrderedRing K]

/-- `C` is the inverse of the symmetric positive semidefinite `A` on the indices `s`. -/
structure InvPSD (s : Finset Nat) (A C : Nat → Nat → K) : Prop where
  symm : ∀ i ∈ s, ∀ j ∈ s, A i j = A j i
  psd : ∀ y : Nat → K, 0 ≤ ∑ i ∈ s, ∑ j ∈ s, y i * A i j * y j
  inv : ∀ i ∈ s, ∀ k ∈ s, ∑ j ∈ s, A i j * C j k = if i = k then 1 else 0

namespace InvPSD
variable {s : Finset Nat} {A C : Nat → Nat → K}

omit [IsStrictOrderedRing K] in
theorem csymm (h : InvPSD s A C) {i k : Nat} (hi : i ∈ s) (hk : k ∈ s) : C i k = C k i := by
  have h1 : C i k = ∑ j ∈ s, (∑ l ∈ s, A j l * C l i) * C j k := by
    rw [Finset.sum_congr rfl fun j hj => by rw [h.inv j hj i hi]]
    simp [hi]
  have h2 : C k i = ∑ l ∈ s, (∑ j ∈ s, A l j * C j k) * C l i := by
    rw [Finset.sum_congr rfl fun l hl => by rw [h.inv l hl k hk]]
    simp [hk]
  rw [h1, h2]
  simp only [Finset.sum_mul]
  rw [Finset.sum_comm]
  refine Finset.sum_congr rfl fun l hl => Finset.sum_congr rfl fun j hj => ?_
  rw [h.symm j hj l hl]; ring

omit [IsStrictOrderedRing K] in
theorem cpsd (h : InvPSD s A C) (x : Nat → K) : 0 ≤ ∑ i ∈ s, ∑ k ∈ s, x i * C i k * x k := by
  have h1 := h.psd fun j => ∑ k ∈ s, C j k * x k
  convert h1 using 1
  refine Finset.sum_congr rfl fun i hi => ?_
  have h2 : x i = ∑ j ∈ s, A i j * ∑ k ∈ s, C j k * x k := by
    simp only [Finset.mul_sum]
    rw [Finset.sum_comm]
    have : ∀ k ∈ s, ∑ j ∈ s, A i j * (C j k * x k) = (if i = k then 1 else 0) * x k := by
      intro k hk
      rw [← h.inv i hi k hk, Finset.sum_mul]
      exact Finset.sum_congr rfl fun j _ => by ring
    rw [Finset.sum_congr rfl this]
    simp [hi]
  have h3 : ∑ j ∈ s, (∑ k ∈ s, C i k * x k) * A i j * (∑ k ∈ s, C j k * x k) =
      (∑ k ∈ s, C i k * x k) * x i := by
    conv_rhs => rw [h2]
    rw [Finset.mul_sum]
    exact Finset.sum_congr rfl fun j _ => by ring
  rw [h3, Finset.sum_mul]
  exact Finset.sum_congr rfl fun k _ => by ring

omit [IsStrictOrderedRing K] in
theorem two (h : InvPSD s A C) {i k : Nat} (hi : i ∈ s) (hk : k ∈ s) (a b : K) :
    0 ≤ a * a * C i i + 2 * a * b * C i k + b * b * C k k := by
  have h1 := h.cpsd fun j => a * (if j = i then 1 else 0) + b * (if j = k then 1 else 0)
  have h2 : ∑ p ∈ s, ∑ q ∈ s, (a * (if p = i then 1 else 0) + b * (if p = k then 1 else 0)) * C p q *
      (a * (if q = i then 1 else 0) + b * (if q = k then 1 else 0)) =
      a * a * C i i + 2 * a * b * C i k + b * b * C k k := by
    simp only [mul_add, add_mul, Finset.sum_add_distrib, mul_ite, mul_one, mul_zero, ite_mul, zero_mul,
      Finset.sum_ite_eq', hi, hk, if_true, Finset.sum_ite_irrel, Finset.sum_const_zero]
    rw [h.csymm hk hi]
    ring
  rw [h2] at h1
  exact h1

theorem diag_nonneg (h : InvPSD s A C) {i : Nat} (hi : i ∈ s) : 0 ≤ C i i := by
  have := h.two hi hi 1 0
  linarith

theorem eq_zero_of_diag (h : InvPSD s A C) {i k : Nat} (hi : i ∈ s) (hk : k ∈ s) (h0 : C i i = 0) :
    C i k = 0 := by
  by_contra hne
  have h1 := h.two hi hk (-(C k k + 1) / (2 * C i k)) 1
  rw [h0] at h1
  have h2 : 2 * (-(C k k + 1) / (2 * C i k)) * 1 * C i k = -(C k k + 1) := by field_simp
  rw [h2] at h1
  linarith

theorem diag_pos (h : InvPSD s A C) {i : Nat} (hi : i ∈ s) : 0 < C i i := by
  refine lt_of_le_of_ne (h.diag_nonneg hi) fun h0 => ?_
  have h1 := h.inv i hi i hi
  rw [if_pos rfl, Finset.sum_eq_zero] at h1
  · exact zero_ne_one h1
  · intro j hj
    rw [h.csymm hj hi, h.eq_zero_of_diag hi hj h0.symm, mul_zero]

theorem sq_le (h : InvPSD s A C) {i k : Nat} (hi : i ∈ s) (hk : k ∈ s) : C i k ^ 2 ≤ C i i * C k k := by
  have h1 := h.two hi hk (C k k) (-C i k)
  have h2 := h.diag_pos hk
  have h3 : 0 ≤ C k k * (C i i * C k k - C i k ^ 2) := by
    calc 0 ≤ _ := h1
      _ = _ := by ring
  have h4 := nonneg_of_mul_nonneg_right h3 h2
  linarith

/-- A vector whose quadratic form vanishes is in the kernel. -/
theorem ker (h : InvPSD s A C) (x : Nat → K) (h0 : ∑ i ∈ s, ∑ k ∈ s, x i * C i k * x k = 0) {l : Nat} (hl : l ∈ s) :
    ∑ k ∈ s, C l k * x k = 0 := by
  have hp := h.diag_pos hl
  set g := ∑ k ∈ s, C l k * x k with hg
  have hq : ∀ t : K, 0 ≤ 2 * t * g + t * t * C l l := by
    intro t
    have h1 := h.cpsd fun j => x j + t * (if j = l then 1 else 0)
    have h2 : ∑ p ∈ s, ∑ q ∈ s, (x p + t * (if p = l then 1 else 0)) * C p q * (x q + t * (if q = l then 1 else 0)) =
        ∑ i ∈ s, ∑ k ∈ s, x i * C i k * x k + t * g + t * ∑ p ∈ s, x p * C p l + t * t * C l l := by
      simp only [mul_add, add_mul, Finset.sum_add_distrib, mul_ite, mul_one, mul_zero, ite_mul, zero_mul,
        Finset.sum_ite_eq', hl, if_true, Finset.sum_ite_irrel, Finset.sum_const_zero]
      have e1 : ∑ q ∈ s, t * C l q * x q = t * g := by
        rw [hg, Finset.mul_sum]
        exact Finset.sum_congr rfl fun q _ => by ring
      have e2 : ∑ p ∈ s, x p * C p l * t = t * ∑ p ∈ s, x p * C p l := by
        rw [Finset.mul_sum]
        exact Finset.sum_congr rfl fun q _ => by ring
      rw [e1, e2]
      ring
    have e3 : ∑ p ∈ s, x p * C p l = g := by
      rw [hg]
      exact Finset.sum_congr rfl fun q hq => by rw [h.csymm hq hl]; ring
    rw [h2, h0, e3] at h1
    linarith
  by_contra hne
  have h1 := hq (-g / C l l)
  have h2 : 2 * (-g / C l l) * g + -g / C l l * (-g / C l l) * C l l = -(g * g / C l l) := by
    field_simp
    ring
  rw [h2] at h1
  have h3 : 0 < g * g / C l l := div_pos (mul_self_pos.2 hne) hp
  linarith

theorem sq_lt (h : InvPSD s A C) {i k : Nat} (hi : i ∈ s) (hk : k ∈ s) (hik : i ≠ k) : C i k ^ 2 < C i i * C k k := by
  refine lt_of_le_of_ne (h.sq_le hi hk) fun he => ?_
  have hp := h.diag_pos hk
  have hx : ∀ l : Nat, ∑ j ∈ s, C l j * (C k k * (if j = i then 1 else 0) + -C i k * (if j = k then 1 else 0)) =
      C l i * C k k - C l k * C i k := by
    intro l
    simp only [mul_add, Finset.sum_add_distrib, mul_ite, mul_one, mul_zero, Finset.sum_ite_eq', hi, hk, if_true]
    ring
  have h0 : ∑ p ∈ s, ∑ q ∈ s, (C k k * (if p = i then 1 else 0) + -C i k * (if p = k then 1 else 0)) * C p q *
      (C k k * (if q = i then 1 else 0) + -C i k * (if q = k then 1 else 0)) = 0 := by
    simp only [mul_assoc, ← Finset.mul_sum, hx]
    simp only [add_mul, Finset.sum_add_distrib, mul_ite, mul_one, mul_zero, ite_mul, zero_mul, Finset.sum_ite_eq', hi, hk, if_true]
    rw [h.csymm hk hi]
    linear_combination -C k k * he
  have hker := fun l hl => (hx l).symm.trans (h.ker _ h0 (l := l) hl)
  have h1 : ∑ l ∈ s, A i l * (C l i * C k k - C l k * C i k) = C k k := by
    have e : ∀ l ∈ s, A i l * (C l i * C k k - C l k * C i k) = A i l * C l i * C k k - A i l * C l k * C i k := fun l _ => by ring
    rw [Finset.sum_congr rfl e, Finset.sum_sub_distrib, ← Finset.sum_mul, ← Finset.sum_mul, h.inv i hi i hi, h.inv i hi k hk, if_pos rfl, if_neg hik]
    ring
  rw [Finset.sum_eq_zero fun l hl => by rw [hker l hl, mul_zero]] at h1
  exact hp.ne h1

end InvPSD
end Pdffit
