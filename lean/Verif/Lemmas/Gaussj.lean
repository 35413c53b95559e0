import Verif.Model.Gaussj
import Mathlib.LinearAlgebra.Matrix.Determinant.Basic
import Mathlib.LinearAlgebra.Matrix.NonsingularInverse
import Mathlib.Tactic.FieldSimp
import Mathlib.Tactic.Ring
import Mathlib.Data.Fintype.BigOperators

/-! Loop invariant of the elimination. -/

namespace Pdffit
variable {K : Type} [Field K] [LinearOrder K] [IsStrictOrderedRing K]

/-- Invariant: `E` is the product of the row operations made so far, `σ` the implied column
relabelling. -/
structure GJInv {n m : Nat} (A : Matrix (Fin n) (Fin n) K) (B : Matrix (Fin n) (Fin m) K)
    (s : GJ n m K) (E F : Matrix (Fin n) (Fin n) K) (σ : Equiv.Perm (Fin n)) : Prop where
  inv : F * E = 1
  hb : s.b = E * B
  ip : ∀ c, s.ipiv c = 0 ∨ s.ipiv c = 1
  unit : ∀ c, s.ipiv c = 1 → ∀ i, (E * A) i c = if i = c then 1 else 0
  old : ∀ c, s.ipiv c = 0 → ∀ i, s.a i c = (E * A) i c
  oldE : ∀ c, s.ipiv c = 0 → ∀ i, E i (σ c) = if i = c then 1 else 0
  new : ∀ c, s.ipiv c = 1 → ∀ i, s.a i c = E i (σ c)
  hσ : σ = (s.idx.map fun rc => Equiv.swap rc.1 rc.2).reverse.prod

/-- Result of the pivot search: the largest element among rows not yet used and columns not yet
reduced. -/
theorem gjSearch_spec {n : Nat} (a : Matrix (Fin n) (Fin n) K) (ipiv : Fin n → Nat)
    (init : Option (Fin n × Fin n)) (j0 k0 : Fin n) (hj : ipiv j0 ≠ 1) (hk : ipiv k0 = 0) :
    ∃ r c, (gjSearch a ipiv init).2 = some (r, c) ∧ ipiv r ≠ 1 ∧ ipiv c = 0 ∧
      ∀ j k, ipiv j ≠ 1 → ipiv k = 0 → |a j k| ≤ |a r c| := by
  -- predicate carried through the folds
  let P : (Fin n → Fin n → Prop) → K × Option (Fin n × Fin n) → Prop := fun seen s =>
    0 ≤ s.1 ∧ (∀ j k, seen j k → ipiv j ≠ 1 → ipiv k = 0 → |a j k| ≤ s.1) ∧
    ((0 < s.1 ∨ ∃ j k, seen j k ∧ ipiv j ≠ 1 ∧ ipiv k = 0) →
      ∃ r c, s.2 = some (r, c) ∧ ipiv r ≠ 1 ∧ ipiv c = 0 ∧ s.1 = |a r c|)
  have inner : ∀ (j : Fin n) (hj : ipiv j ≠ 1) (l : List (Fin n)) (seen : Fin n → Fin n → Prop)
      (s : K × Option (Fin n × Fin n)), P seen s →
      P (fun x y => seen x y ∨ (x = j ∧ y ∈ l)) (l.foldl (fun s k =>
        if ipiv k = 0 then
          if |a j k| ≥ s.1 then (|a j k|, some (j, k)) else s
        else s) s) := by
    intro j hj l
    induction l with
    | nil => intro seen s h; simpa using h
    | cons k l ih =>
      intro seen s h
      rw [List.foldl_cons]
      have h1 : P (fun x y => seen x y ∨ (x = j ∧ y = k))
          (if ipiv k = 0 then if |a j k| ≥ s.1 then (|a j k|, some (j, k)) else s else s) := by
        obtain ⟨h0, hm, he⟩ := h
        by_cases hk0 : ipiv k = 0
        · rw [if_pos hk0]
          by_cases hge : |a j k| ≥ s.1
          · rw [if_pos hge]
            refine ⟨abs_nonneg _, ?_, fun _ => ⟨j, k, rfl, hj, hk0, rfl⟩⟩
            rintro x y (hs | ⟨rfl, rfl⟩) hx hy
            · exact (hm x y hs hx hy).trans hge
            · exact le_refl _
          · rw [if_neg hge]
            refine ⟨h0, ?_, ?_⟩
            · rintro x y (hs | ⟨rfl, rfl⟩) hx hy
              · exact hm x y hs hx hy
              · exact le_of_lt (not_le.1 hge)
            · intro _
              exact he (Or.inl (lt_of_le_of_lt (abs_nonneg _) (not_le.1 hge)))
        · rw [if_neg hk0]
          refine ⟨h0, ?_, ?_⟩
          · rintro x y (hs | ⟨rfl, rfl⟩) hx hy
            · exact hm x y hs hx hy
            · exact absurd hy hk0
          · rintro (hp | ⟨x, y, hs | ⟨rfl, rfl⟩, hx, hy⟩)
            · exact he (Or.inl hp)
            · exact he (Or.inr ⟨x, y, hs, hx, hy⟩)
            · exact absurd hy hk0
      have h2 := ih _ _ h1
      convert h2 using 3
      simp only [List.mem_cons]
      tauto
  have outer : ∀ (l : List (Fin n)) (seen : Fin n → Fin n → Prop)
      (s : K × Option (Fin n × Fin n)), P seen s →
      P (fun x y => seen x y ∨ x ∈ l) (l.foldl (fun s j =>
        if ipiv j ≠ 1 then
          (List.finRange n).foldl (fun s k =>
            if ipiv k = 0 then
              if |a j k| ≥ s.1 then (|a j k|, some (j, k)) else s
            else s) s
        else s) s) := by
    intro l
    induction l with
    | nil => intro seen s h; simpa using h
    | cons j l ih =>
      intro seen s h
      rw [List.foldl_cons]
      have h1 : P (fun x y => seen x y ∨ x = j) (if ipiv j ≠ 1 then
          (List.finRange n).foldl (fun s k =>
            if ipiv k = 0 then
              if |a j k| ≥ s.1 then (|a j k|, some (j, k)) else s
            else s) s
        else s) := by
        by_cases hj1 : ipiv j ≠ 1
        · rw [if_pos hj1]
          have := inner j hj1 (List.finRange n) seen s h
          simpa using this
        · rw [if_neg hj1]
          obtain ⟨h0, hm, he⟩ := h
          refine ⟨h0, ?_, ?_⟩
          · rintro x y (hs | rfl) hx hy
            · exact hm x y hs hx hy
            · exact absurd hx hj1
          · rintro (hp | ⟨x, y, hs | rfl, hx, hy⟩)
            · exact he (Or.inl hp)
            · exact he (Or.inr ⟨x, y, hs, hx, hy⟩)
            · exact absurd hx hj1
      have h2 := ih _ _ h1
      convert h2 using 3
      simp only [List.mem_cons]
      tauto
  have h0 : P (fun _ _ => False) ((0 : K), init) :=
    ⟨le_refl _, fun _ _ h => h.elim, fun h => by
      rcases h with h | ⟨_, _, h, _⟩
      · exact absurd h (lt_irrefl _)
      · exact h.elim⟩
  obtain ⟨_, hm, he⟩ := outer (List.finRange n) _ _ h0
  obtain ⟨r, c, hrc, hr, hc, hv⟩ := he (Or.inr ⟨j0, k0, Or.inr (List.mem_finRange _), hj, hk⟩)
  refine ⟨r, c, hrc, hr, hc, ?_⟩
  intro j k hj hk
  rw [← hv]
  exact hm j k (Or.inr (List.mem_finRange _)) hj hk

/-- One pass keeps the invariant, or the matrix is singular. -/
theorem gjStep_spec {n m : Nat} {A : Matrix (Fin n) (Fin n) K} {B : Matrix (Fin n) (Fin m) K}
    {s : GJ n m K} {E F : Matrix (Fin n) (Fin n) K} {σ : Equiv.Perm (Fin n)}
    (h : GJInv A B s E F σ) (c0 : Fin n) (hc0 : s.ipiv c0 = 0) :
    (gjStep s = .err .calculation ∧ A.det = 0) ∨
    (∃ s' E' F' σ' c, gjStep s = .ok s' ∧ GJInv A B s' E' F' σ' ∧ s.ipiv c = 0 ∧
      s'.ipiv = fun k => if k = c then s.ipiv k + 1 else s.ipiv k) := by
  obtain ⟨r, c, hrc, hr, hc, hmax⟩ := gjSearch_spec s.a s.ipiv s.piv c0 c0 (by omega) hc0
  have hr0 : s.ipiv r = 0 := by rcases h.ip r with h0 | h1; exact h0; exact absurd h1 hr
  -- state after the row interchange
  set a1 := gjSwapRows s.a r c with ha1
  have hswapS : ∀ k, s.ipiv k = 1 → Equiv.swap r c k = k := by
    intro k hk
    apply Equiv.swap_apply_of_ne_of_ne
    · rintro rfl; omega
    · rintro rfl; omega
  have hswap0 : ∀ k, s.ipiv k = 0 → s.ipiv (Equiv.swap r c k) = 0 := by
    intro k hk
    rcases eq_or_ne k r with rfl | h1
    · rw [Equiv.swap_apply_left]; exact hc
    · rcases eq_or_ne k c with rfl | h2
      · rw [Equiv.swap_apply_right]; exact hr0
      · rw [Equiv.swap_apply_of_ne_of_ne h1 h2]; exact hk
  by_cases hz : a1 c c = 0
  · left
    constructor
    · simp only [gjStep, hrc]
      rw [if_pos hz]
    · have hz' : s.a r c = 0 := by
        have : a1 c c = s.a r c := by simp [ha1, gjSwapRows]
        rw [← this]; exact hz
      have hrow : ∀ k, (E * A) r k = 0 := by
        intro k
        rcases h.ip k with hk | hk
        · rw [← h.old k hk r]
          have := hmax r k hr hk
          rw [hz', abs_zero] at this
          exact abs_eq_zero.1 (le_antisymm this (abs_nonneg _))
        · rw [h.unit k hk r, if_neg]
          rintro rfl; omega
      have hd : (E * A).det = 0 := Matrix.det_eq_zero_of_row_eq_zero r hrow
      have hE : F.det * E.det = 1 := by rw [← Matrix.det_mul, h.inv, Matrix.det_one]
      rw [Matrix.det_mul] at hd
      rcases mul_eq_zero.1 hd with h1 | h1
      · rw [h1, mul_zero] at hE; exact absurd hE zero_ne_one
      · exact h1
  · right
    let E1 : Matrix (Fin n) (Fin n) K := fun i j => E (Equiv.swap r c i) j
    let M1 : Matrix (Fin n) (Fin n) K := fun i j => (E * A) (Equiv.swap r c i) j
    have hM1 : M1 = E1 * A := by
      ext i j
      rw [Matrix.mul_apply]
      simp only [M1, E1]
      rw [Matrix.mul_apply]
    let σ1 : Equiv.Perm (Fin n) := σ * Equiv.swap r c
    have hacc : a1 c c = M1 c c := by
      simp only [ha1, gjSwapRows, M1]
      exact h.old c hc _
    have hac : ∀ i, a1 i c = M1 i c := by
      intro i
      simp only [ha1, gjSwapRows, M1]
      exact h.old c hc _
    have hpne : M1 c c ≠ 0 := by rw [← hacc]; exact hz
    let T : Matrix (Fin n) (Fin n) K := fun i j => if j = c then M1 i c else if i = j then 1 else 0
    let red : ∀ {k : Nat}, Matrix (Fin n) (Fin k) K → Matrix (Fin n) (Fin k) K := fun X i j =>
      if i = c then X c j * (1 / M1 c c) else X i j - (X c j * (1 / M1 c c)) * M1 i c
    have hT : ∀ {k : Nat} (X : Matrix (Fin n) (Fin k) K), T * red X = X := by
      intro k X
      ext i j
      rw [Matrix.mul_apply, ← Finset.add_sum_erase _ _ (Finset.mem_univ c)]
      have : ∀ x ∈ Finset.univ.erase c, T i x * red X x j
          = if i = x then red X i j else 0 := by
        intro x hx
        have hxc : x ≠ c := Finset.ne_of_mem_erase hx
        simp only [T, if_neg hxc]
        split_ifs with hix
        · subst hix; simp
        · simp
      rw [Finset.sum_congr rfl this]
      by_cases hic : i = c
      · subst hic
        rw [Finset.sum_eq_zero]
        · simp only [T, red, if_true]; field_simp; simp
        · intro x hx
          rw [if_neg (Finset.ne_of_mem_erase hx).symm]
      · rw [Finset.sum_ite_eq, if_pos (Finset.mem_erase.2 ⟨hic, Finset.mem_univ _⟩)]
        simp only [T, red, if_true, if_neg hic]
        ring
    let Sw : Matrix (Fin n) (Fin n) K := fun i j => if j = Equiv.swap r c i then 1 else 0
    have hSw : ∀ {k : Nat} (X : Matrix (Fin n) (Fin k) K), Sw * (gjSwapRows X r c) = X := by
      intro k X
      ext i j
      rw [Matrix.mul_apply]
      simp [Sw, gjSwapRows]
    have hredA : ∀ {k : Nat} (X : Matrix (Fin n) (Fin n) K) (Y : Matrix (Fin n) (Fin k) K),
        red X * Y = red (X * Y) := by
      intro k X Y
      ext i j
      rw [Matrix.mul_apply]
      simp only [red]
      rw [Matrix.mul_apply, Matrix.mul_apply]
      split_ifs
      · rw [Finset.sum_mul]; exact Finset.sum_congr rfl fun x _ => by ring
      · rw [Finset.sum_mul, Finset.sum_mul, ← Finset.sum_sub_distrib]
        exact Finset.sum_congr rfl fun x _ => by ring
    let s' : GJ n m K := {
      a := gjReduceA a1 c
      b := gjReduceB a1 (gjSwapRows s.b r c) c
      ipiv := fun k => if k = c then s.ipiv k + 1 else s.ipiv k
      piv := some (r, c)
      idx := (r, c) :: s.idx }
    refine ⟨s', red E1, F * Sw * T, σ1, c, ?_, ?_, hc, rfl⟩
    · simp only [gjStep, hrc]
      rw [if_neg hz]
    · refine ⟨?_, ?_, ?_, ?_, ?_, ?_, ?_, ?_⟩
      · rw [Matrix.mul_assoc, hT, Matrix.mul_assoc]
        have : Sw * E1 = E := hSw E
        rw [this, h.inv]
      · rw [hredA]
        have hE1B : E1 * B = gjSwapRows s.b r c := by
          ext i j
          rw [h.hb, Matrix.mul_apply]
          simp only [E1, gjSwapRows]
          rw [Matrix.mul_apply]
        rw [hE1B]
        ext i j
        simp only [s', gjReduceB, red, hacc, hac]
      · intro k
        simp only [s']
        split_ifs with hk
        · subst hk; right; omega
        · exact h.ip k
      · intro k hk i
        rw [hredA, ← hM1]
        simp only [s'] at hk
        by_cases hkc : k = c
        · subst hkc
          simp only [red]
          split_ifs with hi
          · field_simp
          · field_simp; ring
        · rw [if_neg hkc] at hk
          have hu : ∀ x, M1 x k = if x = k then 1 else 0 := by
            intro x
            simp only [M1]
            rw [h.unit k hk]
            have hk2 := hswapS k hk
            by_cases hx : x = k
            · subst hx; simp [hk2]
            · rw [if_neg hx, if_neg]
              intro hcon
              apply hx
              rw [← hk2] at hcon
              exact (Equiv.swap r c).injective hcon
          simp only [red, hu]
          have hck : ¬ c = k := fun e => hkc e.symm
          by_cases hi : i = c
          · subst hi; simp [hck]
          · simp [hi, hck]
      · intro k hk i
        simp only [s'] at hk ⊢
        have hkc : k ≠ c := by rintro rfl; simp at hk
        rw [if_neg hkc] at hk
        rw [hredA, ← hM1]
        have hold : ∀ x, a1 x k = M1 x k := by
          intro x
          simp only [ha1, gjSwapRows, M1]
          exact h.old k hk _
        simp only [gjReduceA, red, if_neg hkc, hold, hac]
      · intro k hk i
        simp only [s'] at hk
        have hkc : k ≠ c := by rintro rfl; simp at hk
        rw [if_neg hkc] at hk
        have hE1k : ∀ x, E1 x (σ1 k) = if x = k then 1 else 0 := by
          intro x
          simp only [E1, σ1, Equiv.Perm.mul_apply]
          rw [h.oldE _ (hswap0 k hk)]
          by_cases hx : x = k
          · subst hx; simp
          · rw [if_neg hx, if_neg]
            intro hcon; exact hx ((Equiv.swap r c).injective hcon)
        simp only [red, hE1k]
        have hck : ¬ c = k := fun e => hkc e.symm
        by_cases hi : i = c
        · subst hi; simp [hck]
        · simp [hi, hck]
      · intro k hk i
        simp only [s'] at hk ⊢
        by_cases hkc : k = c
        · subst hkc
          have hE1k : ∀ x, E1 x (σ1 k) = if x = k then 1 else 0 := by
            intro x
            simp only [E1, σ1, Equiv.Perm.mul_apply]
            rw [h.oldE _ (hswap0 k hc)]
            by_cases hx : x = k
            · subst hx; simp
            · rw [if_neg hx, if_neg]
              intro hcon; exact hx ((Equiv.swap r k).injective hcon)
          simp only [gjReduceA, red, hE1k, hac, if_true]
          split_ifs <;> rfl
        · rw [if_neg hkc] at hk
          have hk2 := hswapS k hk
          have hE1k : ∀ x, E1 x (σ1 k) = a1 x k := by
            intro x
            simp only [E1, σ1, Equiv.Perm.mul_apply, hk2, ha1, gjSwapRows]
            rw [h.new k hk]
          simp only [gjReduceA, red, hE1k, hac, if_neg hkc]
      · simp only [s', σ1, List.map_cons, List.reverse_cons, List.prod_append, ← h.hσ,
          List.prod_cons, List.prod_nil, mul_one]

theorem gjUnscramble_spec {n : Nat} : ∀ (l : List (Fin n × Fin n))
    (a : Matrix (Fin n) (Fin n) K) (i j : Fin n),
    gjUnscramble a l i ((l.map fun rc => Equiv.swap rc.1 rc.2).reverse.prod j) = a i j
  | [], a, i, j => rfl
  | (r, c) :: l, a, i, j => by
    rw [gjUnscramble]
    simp only [List.map_cons, List.reverse_cons, List.prod_append, List.prod_cons, List.prod_nil,
      mul_one, Equiv.Perm.mul_apply]
    refine (gjUnscramble_spec l (fun k l => a k (Equiv.swap r c l)) i (Equiv.swap r c j)).trans ?_
    simp

/-- `k` passes from a state with `k` unreduced columns. -/
theorem gjLoop_spec {n m : Nat} {A : Matrix (Fin n) (Fin n) K} {B : Matrix (Fin n) (Fin m) K} :
    ∀ (k : Nat) {s : GJ n m K} {E F : Matrix (Fin n) (Fin n) K} {σ : Equiv.Perm (Fin n)},
    GJInv A B s E F σ → (Finset.univ.filter fun c => s.ipiv c = 0).card = k →
    (gjLoop k s = .err .calculation ∧ A.det = 0) ∨
    (∃ s' E' F' σ', gjLoop k s = .ok s' ∧ GJInv A B s' E' F' σ' ∧ ∀ c, s'.ipiv c = 1)
  | 0, s, E, F, σ, h, hk => by
    right
    refine ⟨s, E, F, σ, rfl, h, ?_⟩
    intro c
    rcases h.ip c with h0 | h1
    · have : c ∈ Finset.univ.filter fun c => s.ipiv c = 0 := by simp [h0]
      rw [Finset.card_eq_zero] at hk
      rw [hk] at this
      simp at this
    · exact h1
  | k + 1, s, E, F, σ, h, hk => by
    obtain ⟨c0, hc0⟩ : ∃ c0, s.ipiv c0 = 0 := by
      have : (Finset.univ.filter fun c => s.ipiv c = 0).Nonempty := by
        rw [← Finset.card_pos]; omega
      obtain ⟨c, hc⟩ := this
      exact ⟨c, by simpa using hc⟩
    rcases gjStep_spec h c0 hc0 with ⟨he, hd⟩ | ⟨s', E', F', σ', c, hs, hinv, hc, hip⟩
    · left; exact ⟨by rw [gjLoop, he]; rfl, hd⟩
    · have hcard : (Finset.univ.filter fun c => s'.ipiv c = 0).card = k := by
        have : (Finset.univ.filter fun x => s'.ipiv x = 0)
            = (Finset.univ.filter fun x => s.ipiv x = 0).erase c := by
          ext x
          simp only [Finset.mem_filter, Finset.mem_univ, true_and, Finset.mem_erase, hip]
          split_ifs with hx
          · subst hx; simp
          · simp [hx]
        rw [this, Finset.card_erase_of_mem (by simp [hc]), hk]; rfl
      rw [gjLoop, hs]
      exact gjLoop_spec k hinv hcard

end Pdffit
