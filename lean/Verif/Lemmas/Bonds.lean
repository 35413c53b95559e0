import Verif.Model.Bonds
import Verif.Lemmas.ConstrVal
import Verif.Props.C45
import Mathlib.Algebra.QuadraticDiscriminant

/-! # Lemmas about bond vectors -/

namespace Pdffit.Bonds
open Geom Parser

theorem third_comm (i j : Fin 3) : third i j = third j i := by unfold third; rw [add_comm]

theorem tensor_symm (v w : Fin 3 → ℝ) (i j : Fin 3) : tensor v w i j = tensor v w j i := by
  unfold tensor
  by_cases h : i = j
  · subst h; rfl
  · rw [if_pos h, if_pos (Ne.symm h), third_comm i j, mul_comm (v i) (v j)]

theorem dtensor_symm (v w dv dw : Fin 3 → ℝ) (i j : Fin 3) : dtensor v w dv dw i j = dtensor v w dv dw j i := by
  unfold dtensor
  by_cases h : i = j
  · subst h; rfl
  · rw [if_pos h, if_pos (Ne.symm h), third_comm i j]
    have e : dv i * v j * bcosd (w (third j i)) + v i * dv j * bcosd (w (third j i)) +
        v i * v j * bsind (w (third j i)) * rad * dw (third j i) =
        dv j * v i * bcosd (w (third j i)) + v j * dv i * bcosd (w (third j i)) +
        v j * v i * bsind (w (third j i)) * rad * dw (third j i) := by ring
    simp only [e]

section
variable (g : Fin 3 → Fin 3 → ℝ)

theorem skalpro_exp (h k : Fin 3 → ℝ) : skalpro g h k =
    h 0 * k 0 * g 0 0 + h 0 * k 1 * g 0 1 + h 0 * k 2 * g 0 2 +
    (h 1 * k 0 * g 1 0 + h 1 * k 1 * g 1 1 + h 1 * k 2 * g 1 2) +
    (h 2 * k 0 * g 2 0 + h 2 * k 1 * g 2 1 + h 2 * k 2 * g 2 2) := by
  simp only [skalpro, Fin.sum_univ_three]

theorem skalpro_comm (hg : ∀ i j, g i j = g j i) (h k : Fin 3 → ℝ) : skalpro g h k = skalpro g k h := by
  rw [skalpro_exp, skalpro_exp, hg 1 0, hg 2 0, hg 2 1]; ring

theorem skalpro_neg (h : Fin 3 → ℝ) : skalpro g (-h) (-h) = skalpro g h h := by
  rw [skalpro_exp, skalpro_exp]; simp only [Pi.neg_apply]; ring

theorem skalpro_add (hg : ∀ i j, g i j = g j i) (x y : Fin 3 → ℝ) (t : ℝ) :
    skalpro g (x + t • y) (x + t • y) = skalpro g y y * (t * t) + 2 * skalpro g x y * t + skalpro g x x := by
  rw [skalpro_exp, skalpro_exp, skalpro_exp, skalpro_exp, hg 1 0, hg 2 0, hg 2 1]
  simp only [Pi.add_apply, Pi.smul_apply, smul_eq_mul]
  ring

/-- Cauchy-Schwarz. -/
theorem cauchy (hg : ∀ i j, g i j = g j i) (hp : ∀ x, 0 ≤ skalpro g x x) (x y : Fin 3 → ℝ) :
    skalpro g x y ^ 2 ≤ skalpro g x x * skalpro g y y := by
  have h := discrim_le_zero (a := skalpro g y y) (b := 2 * skalpro g x y) (c := skalpro g x x) (fun t => by
    have := hp (x + t • y)
    rwa [skalpro_add g hg] at this)
  unfold discrim at h
  nlinarith

theorem cauchy_abs (hg : ∀ i j, g i j = g j i) (hp : ∀ x, 0 ≤ skalpro g x x) (x y : Fin 3 → ℝ) :
    |skalpro g x y| ≤ √(skalpro g x x) * √(skalpro g y y) := by
  rw [← Real.sqrt_mul (hp x)]
  apply Real.abs_le_sqrt
  exact cauchy g hg hp x y

/-- Triangle inequality. -/
theorem triangle (hg : ∀ i j, g i j = g j i) (hp : ∀ x, 0 ≤ skalpro g x x) (x y : Fin 3 → ℝ) :
    √(skalpro g (x + y) (x + y)) ≤ √(skalpro g x x) + √(skalpro g y y) := by
  have h1 := skalpro_add g hg x y 1
  rw [one_smul] at h1
  have h2 := cauchy_abs g hg hp x y
  apply Real.sqrt_le_iff.2
  refine ⟨by positivity, ?_⟩
  have h3 := Real.sq_sqrt (hp x)
  have h4 := Real.sq_sqrt (hp y)
  have h5 := le_abs_self (skalpro g x y)
  rw [h1]
  nlinarith

end

theorem Phs.gten_symm (p : Phs) (i j : Fin 3) : p.gten i j = p.gten j i := tensor_symm _ _ i j
theorem Phs.dgten_symm (p : Phs) (i j : Fin 3) : p.dgten i j = p.dgten j i := dtensor_symm _ _ _ _ i j

theorem dskal_comm (p : Phs) (h k dh dk : Fin 3 → ℝ) : p.dskal h k dh dk = p.dskal k h dk dh := by
  unfold Phs.dskal
  rw [Finset.sum_comm]
  refine Finset.sum_congr rfl fun i _ => Finset.sum_congr rfl fun j _ => ?_
  rw [p.gten_symm j i, p.dgten_symm j i, mul_comm (dh j), mul_comm (h j) (dk i), mul_comm (h j) (k i)]
  ring

theorem dskal_neg (p : Phs) (h dh : Fin 3 → ℝ) : p.dskal (-h) (-h) dh dh = p.dskal h h dh dh := by
  unfold Phs.dskal
  refine Finset.sum_congr rfl fun i _ => Finset.sum_congr rfl fun j _ => ?_
  simp only [Pi.neg_apply, mul_neg, neg_mul, neg_neg, abs_neg]

/-- Wrapping is odd. -/
theorem fmodK_neg (x n : ℝ) : fmodK (-x) n = -fmodK x n := by
  unfold fmodK
  rw [neg_div]
  by_cases h : x / n = 0
  · rw [h]; simp
  · rcases lt_or_gt_of_ne h with h1 | h1
    · rw [if_pos (by linarith), if_neg (by linarith), Int.floor_neg]; push_cast; ring
    · rw [if_neg (by linarith), if_pos (by linarith), Int.ceil_neg]; push_cast; ring

theorem wrap_neg (icc : Fin 3 → ℕ) (x : Fin 3 → ℝ) : wrap icc (-x) = -wrap icc x := by
  funext i; exact fmodK_neg _ _

/-- `y` is `x` shifted by a vector of the superlattice. -/
def Equiv (icc : Fin 3 → ℕ) (x y : Fin 3 → ℝ) : Prop := ∃ k : Fin 3 → ℤ, ∀ i, y i = x i + k i * icc i

theorem Equiv.refl (icc : Fin 3 → ℕ) (x : Fin 3 → ℝ) : Equiv icc x x := ⟨0, fun i => by simp⟩

theorem Equiv.trans {icc : Fin 3 → ℕ} {x y z : Fin 3 → ℝ} (h1 : Equiv icc x y) (h2 : Equiv icc y z) :
    Equiv icc x z := by
  obtain ⟨k, hk⟩ := h1
  obtain ⟨l, hl⟩ := h2
  exact ⟨k + l, fun i => by rw [hl, hk, Pi.add_apply]; push_cast; ring⟩

theorem wrap_equiv {icc : Fin 3 → ℕ} (hi : ∀ i, 0 < icc i) (x : Fin 3 → ℝ) : Equiv icc x (wrap icc x) := by
  have h : ∀ i, ∃ k : ℤ, wrap icc x i = x i + k * icc i := fun i => by
    obtain ⟨_, k, hk⟩ := fmodK_spec (x i) (n := (icc i : ℝ)) (by exact_mod_cast hi i)
    exact ⟨-k, by unfold wrap; rw [hk]; push_cast; ring⟩
  choose k hk using h
  exact ⟨k, hk⟩

theorem wrap_abs {icc : Fin 3 → ℕ} (hi : ∀ i, 0 < icc i) (x : Fin 3 → ℝ) (i : Fin 3) : |wrap icc x i| < icc i :=
  (fmodK_spec (x i) (n := (icc i : ℝ)) (by exact_mod_cast hi i)).1

theorem octant_equiv (icc : Fin 3 → ℕ) (x : Fin 3 → ℝ) : Equiv icc x (octant icc x) := by
  refine ⟨fun i => if 0 < x i then -1 else 0, fun i => ?_⟩
  unfold octant
  dsimp only
  split <;> simp
  ring

theorem octant_mem {icc : Fin 3 → ℕ} {x : Fin 3 → ℝ} (hx : ∀ i, |x i| < icc i) (i : Fin 3) :
    -(icc i : ℝ) < octant icc x i ∧ octant icc x i ≤ 0 := by
  have := abs_lt.1 (hx i)
  unfold octant
  split
  · rename_i h; exact ⟨by linarith, by linarith⟩
  · rename_i h; exact ⟨by linarith, by linarith⟩

/-- In the octant the loop visits the coordinate itself and, if it is negative, one shifted coordinate. -/
theorem loopVals_eq {x : ℝ} {n : ℕ} (h1 : -(n : ℝ) < x) (h2 : x ≤ 0) :
    loopVals x n = if x < 0 then [x, x + n] else [x] := by
  have hn : 0 < n := by
    by_contra h
    have : n = 0 := by omega
    subst this
    simp at h1
    linarith
  have hn' : (0 : ℝ) < n := by exact_mod_cast hn
  rw [loopVals, if_pos ⟨by linarith, hn⟩, loopVals]
  by_cases h : x < 0
  · rw [if_pos ⟨by linarith, hn⟩, if_pos h, loopVals, if_neg]
    rintro ⟨h3, -⟩
    linarith
  · rw [if_neg h, if_neg]
    rintro ⟨h3, -⟩
    linarith

/-- The loop adds multiples of `n`. -/
theorem mem_loopVals {x : ℝ} {n : ℕ} {t : ℝ} (h : t ∈ loopVals x n) : ∃ k : ℤ, t = x + k * n := by
  induction x using loopVals.induct n with
  | case1 x h0 ih =>
    rw [loopVals, if_pos h0, List.mem_cons] at h
    rcases h with rfl | h
    · exact ⟨0, by simp⟩
    · obtain ⟨k, hk⟩ := ih h
      exact ⟨k + 1, by rw [hk]; push_cast; ring⟩
  | case2 x h0 =>
    rw [loopVals, if_neg h0] at h
    simp at h

theorem tests_equiv {x : Fin 3 → ℝ} {icc : Fin 3 → ℕ} {t : Fin 3 → ℝ} (h : t ∈ tests x icc) : Equiv icc x t := by
  simp only [tests, List.mem_flatMap, List.mem_map] at h
  obtain ⟨a, ha, b, hb, c, hc, rfl⟩ := h
  obtain ⟨ka, rfl⟩ := mem_loopVals ha
  obtain ⟨kb, rfl⟩ := mem_loopVals hb
  obtain ⟨kc, rfl⟩ := mem_loopVals hc
  exact ⟨![ka, kb, kc], fun i => by fin_cases i <;> rfl⟩

/-- What the search returns: the start, or a tested vector that is shorter than the start. -/
theorem foldl_near (p : Phs) (l : List (Fin 3 → ℝ)) (y : Fin 3 → ℝ) (m : ℝ) :
    (l.foldl (nearStep p) (y, m)) = (((l.filter fun t => p.skal t t < m).getLast?).getD y, m) := by
  induction l generalizing y with
  | nil => rfl
  | cons t l ih =>
    rw [List.foldl_cons, nearStep]
    by_cases h : p.skal t t < m
    · rw [if_pos h, ih, List.filter_cons_of_pos (by simpa using h)]
      rcases heq : (l.filter fun t => decide (p.skal t t < m)) with _ | ⟨a, l'⟩
      · rfl
      · simp [List.getLast?_cons]
    · rw [if_neg h, ih, List.filter_cons_of_neg (by simpa using h)]

theorem search_eq (p : Phs) (x : Fin 3 → ℝ) : search p x =
    (((tests x p.icc).filter fun t => p.skal t t < p.skal x x).getLast?).getD x := by
  rw [search, foldl_near]

theorem search_mem (p : Phs) (x : Fin 3 → ℝ) : search p x = x ∨
    (search p x ∈ tests x p.icc ∧ p.skal (search p x) (search p x) < p.skal x x) := by
  rw [search_eq]
  rcases h : ((tests x p.icc).filter fun t => decide (p.skal t t < p.skal x x)).getLast? with _ | t
  · left; rfl
  · right
    have := List.mem_of_getLast? h
    rw [List.mem_filter] at this
    exact ⟨this.1, by simpa using this.2⟩

/-- `make_nearest` returns an equivalent vector. -/
theorem makeNearest_equiv (p : Phs) (hi : ∀ i, 0 < p.icc i) (x : Fin 3 → ℝ) : Equiv p.icc x (makeNearest p x) := by
  have h1 := wrap_equiv hi x
  unfold makeNearest
  split
  · exact h1
  · have h2 := h1.trans (octant_equiv p.icc _)
    rcases search_mem p (octant p.icc (wrap p.icc x)) with h | h
    · rw [h]; exact h2
    · exact h2.trans (tests_equiv h.1)

theorem at_valid {α : Type} (l : List α) (i : ℤ) (h1 : 1 ≤ i) (h2 : i ≤ l.length) :
    ∃ a, Res.at? l (i - 1).toNat = .ok a ∧ l[(i - 1).toNat]? = some a := by
  have h : (i - 1).toNat < l.length := by omega
  refine ⟨l[(i - 1).toNat], ?_, List.getElem?_eq_getElem h⟩
  unfold Res.at?
  rw [List.getElem?_eq_getElem h]

end Pdffit.Bonds
