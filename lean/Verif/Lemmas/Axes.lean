import Verif.Model.Axes
import Verif.Props.C24
import Verif.Props.C60

/-! # Lemmas on other choices of axes -/

namespace Pdffit.Axes
open Geom Det Bonds Pdffit.Parser C24
variable (A : Axes)

theorem sg_cases (k : Fin 3) : A.sg k = 1 ∨ A.sg k = -1 := by
  unfold sg
  rcases Int.units_eq_one_or (A.ε k) with h | h <;> simp [h]

theorem sg_sq (k : Fin 3) : A.sg k * A.sg k = 1 := by rcases A.sg_cases k with h | h <;> simp [h]

theorem sg_eq {i j : Fin 3} (h : A.ε i = A.ε j) : A.sg i * A.sg j = 1 := by
  have : A.sg i = A.sg j := by unfold sg; rw [h]
  rw [this, A.sg_sq]

theorem sg_ne {i j : Fin 3} (h : A.ε i ≠ A.ε j) : A.sg i * A.sg j = -1 := by
  unfold sg
  rcases Int.units_eq_one_or (A.ε i) with h1 | h1 <;> rcases Int.units_eq_one_or (A.ε j) with h2 | h2 <;> simp_all

theorem cosd_supp (x : ℝ) : bcosd (180 - x) = -bcosd x := by
  unfold bcosd rad
  rw [show Real.pi / 180 * (180 - x) = Real.pi - Real.pi / 180 * x by ring, Real.cos_pi_sub]

theorem sind_supp (x : ℝ) : bsind (180 - x) = bsind x := by
  unfold bsind rad
  rw [show Real.pi / 180 * (180 - x) = Real.pi - Real.pi / 180 * x by ring, Real.sin_pi_sub]

theorem cos_win (w : Fin 3 → ℝ) (k : Fin 3) : bcosd (A.win w k) = A.sg (k + 1) * A.sg (k + 2) * bcosd (w (A.σ k)) := by
  unfold win
  split_ifs with h
  · rw [A.sg_eq h, one_mul]
  · rw [A.sg_ne h, cosd_supp, neg_one_mul]

theorem sin_win (w : Fin 3 → ℝ) (k : Fin 3) : bsind (A.win w k) = bsind (w (A.σ k)) := by
  unfold win
  split_ifs with h
  · rfl
  · exact sind_supp _

theorem third_two : ∀ i j : Fin 3, i ≠ j → (third i j + 1 = i ∧ third i j + 2 = j) ∨ (third i j + 1 = j ∧ third i j + 2 = i) := by decide

theorem third_uniq : ∀ i j k : Fin 3, i ≠ j → k ≠ i → k ≠ j → third i j = k := by decide

theorem third_ne : ∀ i j : Fin 3, i ≠ j → third i j ≠ i ∧ third i j ≠ j := by decide

theorem others : ∀ a b c : Fin 3, a ≠ b → a ≠ c → b ≠ c → (b = a + 1 ∧ c = a + 2) ∨ (b = a + 2 ∧ c = a + 1) := by decide

theorem next : ∀ i : Fin 3, i ≠ i + 1 ∧ i ≠ i + 2 ∧ i + 1 ≠ i + 2 := by decide

theorem perm_two (i : Fin 3) : (A.σ (i + 1) = A.σ i + 1 ∧ A.σ (i + 2) = A.σ i + 2) ∨ (A.σ (i + 1) = A.σ i + 2 ∧ A.σ (i + 2) = A.σ i + 1) := by
  obtain ⟨h1, h2, h3⟩ := next i
  exact others _ _ _ (A.σ.injective.ne h1) (A.σ.injective.ne h2) (A.σ.injective.ne h3)

theorem perm_third {i j : Fin 3} (h : i ≠ j) : A.σ (third i j) = third (A.σ i) (A.σ j) :=
  (third_uniq _ _ _ (A.σ.injective.ne h) (A.σ.injective.ne (third_ne i j h).1) (A.σ.injective.ne (third_ne i j h).2)).symm

theorem sg_third {i j : Fin 3} (h : i ≠ j) : A.sg (third i j + 1) * A.sg (third i j + 2) = A.sg i * A.sg j := by
  rcases third_two i j h with ⟨h1, h2⟩ | ⟨h1, h2⟩ <;> rw [h1, h2]
  exact mul_comm _ _

theorem abs_sg (i j : Fin 3) (x : ℝ) : |A.sg i * A.sg j * x| = |x| := by
  rcases A.sg_cases i with h | h <;> rcases A.sg_cases j with h' | h' <;> simp [h, h']

theorem elem_rel (v w : Fin 3 → ℝ) {i j : Fin 3} (h : i ≠ j) : (v ∘ A.σ) i * (v ∘ A.σ) j * bcosd (A.win w (third i j)) =
    A.sg i * A.sg j * (v (A.σ i) * v (A.σ j) * bcosd (w (third (A.σ i) (A.σ j)))) := by
  rw [A.cos_win, A.sg_third h, A.perm_third h]
  simp only [Function.comp]
  ring

theorem tensor_rel (v w : Fin 3 → ℝ) (i j : Fin 3) : tensor (v ∘ A.σ) (A.win w) i j = A.sg i * A.sg j * tensor v w (A.σ i) (A.σ j) := by
  unfold tensor
  by_cases h : i = j
  · subst h
    rw [if_neg (by simp), if_neg (by simp), A.sg_sq, one_mul]
    rfl
  · rw [if_pos h, if_pos (A.σ.injective.ne h), A.elem_rel v w h, A.abs_sg]
    split_ifs <;> simp

theorem skalpro_rel {g g' : Fin 3 → Fin 3 → ℝ} (h : ∀ i j, g' i j = A.sg i * A.sg j * g (A.σ i) (A.σ j)) (x y : Fin 3 → ℝ) :
    skalpro g' (A.vec x) (A.vec y) = skalpro g x y := by
  unfold skalpro
  symm
  rw [← Equiv.sum_comp A.σ]
  refine Finset.sum_congr rfl fun i _ => ?_
  rw [← Equiv.sum_comp A.σ]
  refine Finset.sum_congr rfl fun j _ => ?_
  rw [h]
  unfold vec
  linear_combination -(x (A.σ i) * y (A.σ j) * g (A.σ i) (A.σ j)) * ((A.sg j * A.sg j) * A.sg_sq i + A.sg_sq j)

theorem voll_rel (c : Cell) : voll (A.cell c) = voll c := by
  have e : ∀ c : Cell, voll c = 1 - ∑ k, bcosd (c.win k) ^ 2 + 2 * ∏ k, bcosd (c.win k) := by
    intro c
    rw [Fin.sum_univ_three, Fin.prod_univ_three]
    unfold voll
    ring
  rw [e, e c]
  have h1 : ∀ k, bcosd ((A.cell c).win k) = A.sg (k + 1) * A.sg (k + 2) * bcosd (c.win (A.σ k)) := A.cos_win c.win
  have h2 : ∀ k, bcosd ((A.cell c).win k) ^ 2 = bcosd (c.win (A.σ k)) ^ 2 := by
    intro k
    rw [h1]
    linear_combination (bcosd (c.win (A.σ k)) ^ 2) * ((A.sg (k + 2) * A.sg (k + 2)) * A.sg_sq (k + 1) + A.sg_sq (k + 2))
  have h3 : ∏ k : Fin 3, A.sg (k + 1) * A.sg (k + 2) = 1 := by
    rw [Fin.prod_univ_three]
    show A.sg 1 * A.sg 2 * (A.sg 2 * A.sg 0) * (A.sg 0 * A.sg 1) = 1
    linear_combination (A.sg 1 * A.sg 1 * A.sg 2 * A.sg 2) * A.sg_sq 0 + (A.sg 2 * A.sg 2) * A.sg_sq 1 + A.sg_sq 2
  simp only [h2]
  rw [Equiv.sum_comp A.σ fun k => bcosd (c.win k) ^ 2]
  simp only [h1]
  rw [Finset.prod_mul_distrib, h3, one_mul, Equiv.prod_comp A.σ fun k => bcosd (c.win k)]

theorem vol_rel (c : Cell) : vol (A.cell c) = vol c := by
  have e : ∀ c : Cell, vol c = √(voll c) * ∏ k, c.a0 k := by
    intro c
    rw [Fin.prod_univ_three]
    unfold vol
    ring
  rw [e, e c, A.voll_rel]
  congr 1
  exact Equiv.prod_comp A.σ c.a0

theorem recEdge_rel (c : Cell) (i : Fin 3) : recEdge (A.cell c) i = recEdge c (A.σ i) := by
  unfold recEdge
  rw [A.vol_rel]
  show c.a0 (A.σ (i + 1)) * c.a0 (A.σ (i + 2)) * bsind (A.win c.win i) / _ = _
  rw [A.sin_win]
  rcases A.perm_two i with ⟨h1, h2⟩ | ⟨h1, h2⟩ <;> rw [h1, h2]
  rw [mul_comm (c.a0 (A.σ i + 2))]

theorem recArg_rel (c : Cell) (i : Fin 3) : recArg (A.cell c) i = A.sg (i + 1) * A.sg (i + 2) * recArg c (A.σ i) := by
  unfold recArg
  show (bcosd (A.win c.win (i + 1)) * bcosd (A.win c.win (i + 2)) - bcosd (A.win c.win i)) /
    (bsind (A.win c.win (i + 1)) * bsind (A.win c.win (i + 2))) = _
  rw [A.cos_win, A.cos_win, A.cos_win, A.sin_win, A.sin_win]
  have e1 : i + 1 + 1 = i + 2 := by revert i; decide
  have e2 : i + 1 + 2 = i := by revert i; decide
  have e3 : i + 2 + 1 = i := by revert i; decide
  have e4 : i + 2 + 2 = i + 1 := by revert i; decide
  rw [e1, e2, e3, e4, ← mul_div_assoc]
  have n : A.sg (i + 2) * A.sg i * bcosd (c.win (A.σ (i + 1))) * (A.sg i * A.sg (i + 1) * bcosd (c.win (A.σ (i + 2)))) -
      A.sg (i + 1) * A.sg (i + 2) * bcosd (c.win (A.σ i)) =
      A.sg (i + 1) * A.sg (i + 2) * (bcosd (c.win (A.σ (i + 1))) * bcosd (c.win (A.σ (i + 2))) - bcosd (c.win (A.σ i))) := by
    linear_combination (A.sg (i + 2) * A.sg (i + 1) * bcosd (c.win (A.σ (i + 1))) * bcosd (c.win (A.σ (i + 2)))) * A.sg_sq i
  rw [n]
  rcases A.perm_two i with ⟨h1, h2⟩ | ⟨h1, h2⟩ <;> rw [h1, h2]
  congr 1
  · ring
  · ring

theorem acosd_neg (x : ℝ) : bacosd (-x) = 180 - bacosd x := by
  unfold bacosd
  rw [Real.arccos_neg]
  have := Real.pi_pos
  unfold rad
  field_simp

theorem wrez_rel (c : Cell) (i : Fin 3) : bacosd (recArg (A.cell c) i) = A.win (fun k => bacosd (recArg c k)) i := by
  rw [A.recArg_rel]
  unfold win
  split_ifs with h
  · rw [A.sg_eq h, one_mul]
  · rw [A.sg_ne h, neg_one_mul, acosd_neg]

/-! ## The phase -/

theorem cell_fine {c : Cell} (h : ∃ m, lattice c = .ok m) : ∃ m, lattice (A.cell c) = .ok m := by
  obtain ⟨m, hm⟩ := h
  unfold lattice at hm ⊢
  rw [A.voll_rel]
  split_ifs at hm with h
  exact ⟨_, if_neg h⟩

theorem noSmall_rel {v w : Fin 3 → ℝ} (h : C45.NoSmall v w) : C45.NoSmall (v ∘ A.σ) (A.win w) := by
  intro i j hij
  rw [A.elem_rel v w hij, A.abs_sg]
  rcases h _ _ (A.σ.injective.ne hij) with h | h
  · left
    rw [h, mul_zero]
  · exact .inr h

theorem win_range {w : Fin 3 → ℝ} (h : ∀ i, 0 < w i ∧ w i < 180) (i : Fin 3) : 0 < A.win w i ∧ A.win w i < 180 := by
  unfold win
  have := h (A.σ i)
  split_ifs
  · exact this
  · constructor <;> linarith

theorem pm_diag (x : Fin 3 → ℝ) (h : ∀ k, x k = 1 ∨ x k = -1) : ∃ d ∈ diagonals, x = d ∨ x = -d := by
  have e : x = ![x 0, x 1, x 2] := by funext k; fin_cases k <;> rfl
  rw [e]
  unfold diagonals
  rcases h 0 with h0 | h0 <;> rcases h 1 with h1 | h1 <;> rcases h 2 with h2 | h2 <;> rw [h0, h1, h2] <;> simp

theorem diag_pm {d : Fin 3 → ℝ} (h : d ∈ diagonals) (k : Fin 3) : d k = 1 ∨ d k = -1 := by
  unfold diagonals at h
  simp only [List.mem_cons, List.not_mem_nil, or_false] at h
  rcases h with h | h | h | h <;> subst h <;> fin_cases k <;> simp

theorem fold_max (f : (Fin 3 → ℝ) → ℝ) : ∀ (l : List (Fin 3 → ℝ)) (m : ℝ), m ≤ l.foldl (fun mx u => if f u > mx then f u else mx) m ∧
    (∀ u ∈ l, f u ≤ l.foldl (fun mx u => if f u > mx then f u else mx) m) ∧
    (l.foldl (fun mx u => if f u > mx then f u else mx) m = m ∨ ∃ u ∈ l, f u = l.foldl (fun mx u => if f u > mx then f u else mx) m)
  | [], m => ⟨le_rfl, by simp, .inl rfl⟩
  | a :: l, m => by
    rw [List.foldl_cons]
    obtain ⟨h1, h2, h3⟩ := fold_max f l (if f a > m then f a else m)
    have ha : f a ≤ (if f a > m then f a else m) ∧ m ≤ (if f a > m then f a else m) := by split_ifs with h <;> constructor <;> linarith
    refine ⟨ha.2.trans h1, ?_, ?_⟩
    · intro u hu
      rcases List.mem_cons.1 hu with rfl | hu
      · exact ha.1.trans h1
      · exact h2 u hu
    · rcases h3 with h3 | ⟨u, hu, h3⟩
      · rw [h3]
        split_ifs with h
        · exact .inr ⟨a, by simp, rfl⟩
        · exact .inl rfl
      · exact .inr ⟨u, by simp [hu], h3⟩

/-- Two lists with the same values. -/
theorem fold_le {f g : (Fin 3 → ℝ) → ℝ} {l : List (Fin 3 → ℝ)} (m : ℝ) (h : ∀ u ∈ l, ∃ v ∈ l, f u = g v) :
    l.foldl (fun mx u => if f u > mx then f u else mx) m ≤ l.foldl (fun mx u => if g u > mx then g u else mx) m := by
  obtain ⟨-, -, h1⟩ := fold_max f l m
  obtain ⟨h2, h3, -⟩ := fold_max g l m
  rcases h1 with h1 | ⟨u, hu, h1⟩
  · rw [h1]
    exact h2
  · rw [← h1]
    obtain ⟨v, hv, e⟩ := h u hu
    rw [e]
    exact h3 v hv

/-- The inverse on vectors. -/
def unvec (x : Fin 3 → ℝ) : Fin 3 → ℝ := fun k => A.sg (A.σ.symm k) * x (A.σ.symm k)

theorem vec_unvec (x : Fin 3 → ℝ) : A.vec (A.unvec x) = x := by
  funext k
  unfold vec unvec
  rw [Equiv.symm_apply_apply, ← mul_assoc, A.sg_sq, one_mul]

theorem pm_mul {k : Fin 3} {x : ℝ} (h : x = 1 ∨ x = -1) : A.sg k * x = 1 ∨ A.sg k * x = -1 := by
  rcases A.sg_cases k with e | e <;> rcases h with h | h <;> rw [e, h] <;> norm_num

theorem skal_opp (p : Phs) (x : Fin 3 → ℝ) : p.skal (-x) (-x) = p.skal x x := skalpro_neg _ _

theorem circum_rel {p p' : Phs} (hs : ∀ x, p'.skal (A.vec x) (A.vec x) = p.skal x x) (ha : p'.atom = [] ↔ p.atom = []) :
    circumDiameter p' = circumDiameter p := by
  unfold circumDiameter
  simp only [ha]
  congr 3
  apply le_antisymm
  · refine fold_le (f := fun u => √(p'.skal u u)) (g := fun u => √(p.skal u u)) _ fun d hd => ?_
    obtain ⟨e, he, h⟩ := pm_diag (A.unvec d) fun k => A.pm_mul (diag_pm hd _)
    refine ⟨e, he, ?_⟩
    have h1 := hs (A.unvec d)
    rw [A.vec_unvec] at h1
    rw [h1]
    rcases h with h | h <;> rw [h]
    rw [skal_opp]
  · refine fold_le (f := fun u => √(p.skal u u)) (g := fun u => √(p'.skal u u)) _ fun d hd => ?_
    obtain ⟨e, he, h⟩ := pm_diag (A.vec d) fun k => A.pm_mul (diag_pm hd _)
    refine ⟨e, he, ?_⟩
    rw [← hs d]
    rcases h with h | h <;> rw [h]
    rw [skal_opp]

section
variable (ph : PPhase)

theorem skal_phase (x y : Fin 3 → ℝ) : (A.phase ph).toPhs.skal (A.vec x) (A.vec y) = ph.toPhs.skal x y :=
  A.skalpro_rel (A.tensor_rel ph.cell.a0 ph.cell.win) x y

theorem len_phase : (A.phase ph).atom.length = ph.atom.length := by simp [phase]

theorem circum_phase : circumDiameter (A.phase ph).toPhs = circumDiameter ph.toPhs :=
  A.circum_rel (fun x => A.skal_phase ph x x) (by simp [PPhase.toPhs, phase])

theorem fine_phase (F : C19.Fine ph.toPhs) : C19.Fine (A.phase ph).toPhs where
  acc := A.cell_fine F.acc
  edge := fun i => F.edge (A.σ i)
  angle := A.win_range F.angle
  small := A.noSmall_rel F.small
  icc := fun i => F.icc (A.σ i)

theorem atm_phase {i : ℕ} (hi : i < ph.atom.length) : (A.phase ph).atm i = A.atom (ph.atm i) := by
  unfold PPhase.atm phase
  simp [List.getD_eq_getElem?_getD, hi]

theorem vec_sub (x y : Fin 3 → ℝ) : (fun k => A.vec x k - A.vec y k) = A.vec fun k => x k - y k := by
  funext k
  unfold vec
  ring

theorem near_phase (N : Near ph) : Near (A.phase ph) := by
  intro i j hi hj
  rw [A.len_phase] at hi hj
  rw [A.circum_phase, A.atm_phase ph hi, A.atm_phase ph hj]
  show √((A.phase ph).toPhs.skal (fun k => A.vec _ k - A.vec _ k) fun k => A.vec _ k - A.vec _ k) < _
  rw [A.vec_sub, A.skal_phase]
  exact N i j hi hj

theorem co_shift (T : ℤ × ℤ × ℤ) (k : Fin 3) : ((![(A.shift T).1, (A.shift T).2.1, (A.shift T).2.2] k : ℤ) : ℝ) =
    A.sg k * ((![T.1, T.2.1, T.2.2] (A.σ k) : ℤ) : ℝ) := by
  unfold shift sg
  fin_cases k <;> simp

theorem dd_phase (a b : PAtom) (T : ℤ × ℤ × ℤ) : dd (A.phase ph) (A.atom a) (A.atom b) (A.shift T) = A.vec (dd ph a b T) := by
  funext k
  show A.vec a.pos k - A.vec b.pos k - _ * ((ph.icc (A.σ k) : ℕ) : ℝ) = A.sg k * (a.pos (A.σ k) - b.pos (A.σ k) - _ * _)
  rw [A.co_shift]
  unfold vec
  ring

theorem tlen_phase (T : ℤ × ℤ × ℤ) : tlen (A.phase ph) (A.shift T) = tlen ph T := by
  unfold tlen
  rw [show C19.tvec (A.phase ph).toPhs (A.shift T) = A.vec (C19.tvec ph.toPhs T) by
    funext k
    show _ * ((ph.icc (A.σ k) : ℕ) : ℝ) = A.sg k * (_ * ((ph.icc (A.σ k) : ℕ) : ℝ))
    rw [A.co_shift, mul_assoc], A.skal_phase]

theorem u_uix (x : Fin 6 → ℝ) (i j : Fin 3) : A.u x (uix i j) = A.sg i * A.sg j * x (uix (A.σ i) (A.σ j)) := by
  have s : ∀ i j : Fin 3, uix i j = uix j i := by decide
  have h : ∀ i j : Fin 3, ((![0, 1, 2, 0, 0, 1] : Fin 6 → Fin 3) (uix i j) = i ∧ (![0, 1, 2, 1, 2, 2] : Fin 6 → Fin 3) (uix i j) = j) ∨
    ((![0, 1, 2, 0, 0, 1] : Fin 6 → Fin 3) (uix i j) = j ∧ (![0, 1, 2, 1, 2, 2] : Fin 6 → Fin 3) (uix i j) = i) := by decide
  unfold u
  dsimp only
  rcases h i j with ⟨h1, h2⟩ | ⟨h1, h2⟩
  · rw [h1, h2]
  · rw [h1, h2, s (A.σ j), mul_comm (A.sg j)]

theorem msd_sum (a b : PAtom) (v : Fin 3 → ℝ) : ph.msd a b v = ∑ i, ∑ j, (a.u (uix i j) + b.u (uix i j)) *
    (recEdge ph.cell i * ∑ k, ph.toPhs.gten i k * (v k / √(ph.toPhs.skal v v))) *
    (recEdge ph.cell j * ∑ k, ph.toPhs.gten j k * (v k / √(ph.toPhs.skal v v))) := by
  unfold PPhase.msd
  dsimp only
  generalize (fun i => ∑ k, ph.toPhs.gten i k * (v k / √(ph.toPhs.skal v v))) = r
  generalize recEdge ph.cell = ar
  have hr : ∀ i, ∑ k, ph.toPhs.gten i k * (v k / √(ph.toPhs.skal v v)) = ∑ k, ph.toPhs.gten i k * (v k / √(ph.toPhs.skal v v)) := fun _ => rfl
  simp only [Fin.sum_univ_three, uix, Matrix.cons_val]
  ring

theorem rhs_phase (v : Fin 3 → ℝ) (i : Fin 3) : ∑ k, (A.phase ph).toPhs.gten i k * (A.vec v k / √((A.phase ph).toPhs.skal (A.vec v) (A.vec v))) =
    A.sg i * ∑ k, ph.toPhs.gten (A.σ i) k * (v k / √(ph.toPhs.skal v v)) := by
  rw [A.skal_phase, ← Equiv.sum_comp A.σ fun k => ph.toPhs.gten (A.σ i) k * (v k / √(ph.toPhs.skal v v)), Finset.mul_sum]
  refine Finset.sum_congr rfl fun k _ => ?_
  show tensor (ph.cell.a0 ∘ A.σ) (A.win ph.cell.win) i k * _ = A.sg i * (tensor ph.cell.a0 ph.cell.win (A.σ i) (A.σ k) * _)
  rw [A.tensor_rel]
  unfold vec
  rw [mul_div_assoc]
  linear_combination (A.sg i * tensor ph.cell.a0 ph.cell.win (A.σ i) (A.σ k) * (v (A.σ k) / √(ph.toPhs.skal v v))) * A.sg_sq k

theorem msd_phase (a b : PAtom) (v : Fin 3 → ℝ) : (A.phase ph).msd (A.atom a) (A.atom b) (A.vec v) = ph.msd a b v := by
  rw [msd_sum, msd_sum]
  symm
  rw [← Equiv.sum_comp A.σ]
  refine Finset.sum_congr rfl fun i _ => ?_
  rw [← Equiv.sum_comp A.σ]
  refine Finset.sum_congr rfl fun j _ => ?_
  rw [A.rhs_phase, A.rhs_phase]
  show _ = (A.u a.u (uix i j) + A.u b.u (uix i j)) * (recEdge (A.cell ph.cell) i * _) * (recEdge (A.cell ph.cell) j * _)
  rw [A.u_uix, A.u_uix, A.recEdge_rel, A.recEdge_rel]
  generalize (∑ k, ph.toPhs.gten (A.σ i) k * (v k / √(ph.toPhs.skal v v))) = x
  generalize (∑ k, ph.toPhs.gten (A.σ j) k * (v k / √(ph.toPhs.skal v v))) = y
  linear_combination -((a.u (uix (A.σ i) (A.σ j)) + b.u (uix (A.σ i) (A.σ j))) * (recEdge ph.cell (A.σ i) * x) * (recEdge ph.cell (A.σ j) * y)) *
    (A.sg j * A.sg j * A.sg_sq i + A.sg_sq j)

theorem event_phase (D : Data) (a b : PAtom) (T : ℤ × ℤ × ℤ) :
    event D (A.phase ph) (A.atom a) (A.atom b) (A.shift T) = event D ph a b T := by
  unfold event
  dsimp only
  rw [A.dd_phase, A.skal_phase, A.msd_phase]
  rfl

theorem term_phase (D : Data) (a b : PAtom) (amp : ℝ) (T : ℤ × ℤ × ℤ) (ig : ℤ) :
    term D (A.phase ph) (A.atom a) (A.atom b) amp (A.shift T) ig = term D ph a b amp T ig := by
  unfold term
  rw [A.event_phase]
  rfl

theorem shift_bij : Function.Bijective A.shift := by
  have u : ∀ k, (A.ε k : ℤ) * (A.ε k : ℤ) = 1 := fun k => by
    rcases Int.units_eq_one_or (A.ε k) with h | h <;> simp [h]
  have c : ∀ (T : ℤ × ℤ × ℤ) k, ![(A.shift T).1, (A.shift T).2.1, (A.shift T).2.2] k = (A.ε k : ℤ) * ![T.1, T.2.1, T.2.2] (A.σ k) := by
    intro T k
    unfold shift
    fin_cases k <;> simp
  constructor
  · intro T T' h
    have : ∀ k, ![T.1, T.2.1, T.2.2] (A.σ k) = ![T'.1, T'.2.1, T'.2.2] (A.σ k) := by
      intro k
      have h1 := c T k
      have h2 := c T' k
      rw [h] at h1
      have h3 := h1.symm.trans h2
      linear_combination (A.ε k : ℤ) * h3 - (![T.1, T.2.1, T.2.2] (A.σ k) - ![T'.1, T'.2.1, T'.2.2] (A.σ k)) * u k
    have h' : ∀ k, ![T.1, T.2.1, T.2.2] k = ![T'.1, T'.2.1, T'.2.2] k := fun k => by
      have := this (A.σ.symm k)
      rwa [Equiv.apply_symm_apply] at this
    exact Prod.ext (h' 0) (Prod.ext (h' 1) (h' 2))
  · intro T
    let f : Fin 3 → ℤ := fun k => (A.ε (A.σ.symm k) : ℤ) * ![T.1, T.2.1, T.2.2] (A.σ.symm k)
    refine ⟨(f 0, f 1, f 2), ?_⟩
    have h : ∀ k, ![(A.shift (f 0, f 1, f 2)).1, (A.shift (f 0, f 1, f 2)).2.1, (A.shift (f 0, f 1, f 2)).2.2] k = ![T.1, T.2.1, T.2.2] k := by
      intro k
      rw [c]
      have e : ![(f 0, f 1, f 2).1, (f 0, f 1, f 2).2.1, (f 0, f 1, f 2).2.2] = f := by funext k; fin_cases k <;> rfl
      rw [e]
      show (A.ε k : ℤ) * ((A.ε (A.σ.symm (A.σ k)) : ℤ) * ![T.1, T.2.1, T.2.2] (A.σ.symm (A.σ k))) = _
      rw [Equiv.symm_apply_apply, ← mul_assoc, u, one_mul]
    exact Prod.ext (h 0) (Prod.ext (h 1) (h 2))

theorem np_phase : (A.phase ph).np = ph.np := by simp [PPhase.np, phase, Function.comp_def, atom]

theorem bavg_phase : (A.phase ph).bavg = ph.bavg := by
  unfold PPhase.bavg
  rw [A.np_phase]
  simp [phase, Function.comp_def, atom]

theorem weight_phase {i : ℕ} (hi : i < ph.atom.length) : (A.phase ph).weight i = ph.weight i := by
  unfold PPhase.weight
  rw [A.bavg_phase, A.atm_phase ph hi]
  rfl

theorem ncv_phase : (A.phase ph).ncv = ph.ncv := by
  have e : ∀ p : PPhase, p.ncv = (∏ k, p.icc k : ℕ) * vol p.cell := by
    intro p
    rw [Fin.prod_univ_three]
    rfl
  rw [e, e ph]
  show ((∏ k, ph.icc (A.σ k) : ℕ) : ℝ) * vol (A.cell ph.cell) = _
  rw [A.vol_rel, Equiv.prod_comp A.σ ph.icc]

theorem rho0_phase : (A.phase ph).rho0 = ph.rho0 := by
  unfold PPhase.rho0
  rw [A.np_phase, A.ncv_phase]

theorem rmax_phase (D : Data) : (sphere D (A.phase ph)).rmax = (sphere D ph).rmax := by
  unfold sphere
  dsimp only
  rw [A.circum_phase]
  rfl

theorem ball_phase (D : Data) (T : ℤ × ℤ × ℤ) : A.shift T ∈ ball D (A.phase ph) ↔ T ∈ ball D ph := by
  show tlen _ _ < _ ↔ tlen _ _ < _
  rw [A.tlen_phase, A.rmax_phase]

theorem S_phase (D : Data) {i j : ℕ} (hi : i < ph.atom.length) (hj : j < ph.atom.length) (ig : ℤ) :
    S D (A.phase ph) i j ig = S D ph i j ig := by
  unfold S
  rw [← finsum_comp _ A.shift_bij]
  apply finsum_congr
  intro T
  simp only [A.ball_phase]
  rw [A.atm_phase ph hi, A.atm_phase ph hj, A.weight_phase ph hi, A.weight_phase ph hj, A.term_phase]
  rfl

theorem rtot_phase : rtot (A.phase ph) = rtot ph := by
  rw [rtot_double, rtot_double, A.len_phase]
  refine Finset.sum_congr rfl fun i hi => Finset.sum_congr rfl fun j hj => ?_
  rw [A.weight_phase ph (Finset.mem_range.1 hi), A.weight_phase ph (Finset.mem_range.1 hj)]

theorem ract_phase (s : Sel) : ract (A.phase ph) s = ract ph s := by
  classical
  rw [ract_double, ract_double, A.len_phase]
  refine Finset.sum_congr rfl fun i hi => Finset.sum_congr rfl fun j hj => ?_
  rw [A.weight_phase ph (Finset.mem_range.1 hi), A.weight_phase ph (Finset.mem_range.1 hj)]

variable (F : C19.Fine ph.toPhs) (N : Near ph)
include F N

theorem curve_phase (D : Data) (s : Sel) : curve D (A.phase ph) s = curve D ph s := by
  funext ig
  have e1 : pairSum D (A.phase ph) s ig = pairSum D ph s ig := by
    rw [pairSum_full (A.fine_phase ph F) (A.near_phase ph N), pairSum_full F N, A.len_phase]
    refine Finset.sum_congr rfl fun i hi => Finset.sum_congr rfl fun j hj => ?_
    rw [A.S_phase ph D (Finset.mem_range.1 hi) (Finset.mem_range.1 hj)]
  unfold curve
  rw [e1, A.ract_phase, A.rtot_phase, A.rho0_phase, A.np_phase]
  rfl

theorem bad_phase (D : Data) (s : Sel) : Bad D (A.phase ph) s ↔ Bad D ph s := by
  unfold Bad
  rw [nan_iff (A.fine_phase ph F) (A.near_phase ph N), nan_iff F N, A.np_phase, A.ncv_phase, A.bavg_phase, A.rtot_phase, A.len_phase]
  apply or_congr _ Iff.rfl
  constructor
  · rintro ⟨i, j, T, hi, hj, hs, hT, he⟩
    obtain ⟨T, rfl⟩ := A.shift_bij.2 T
    rw [A.atm_phase ph hi, A.atm_phase ph hj, A.event_phase] at he
    exact ⟨i, j, T, hi, hj, hs, (A.ball_phase ph D T).1 hT, he⟩
  · rintro ⟨i, j, T, hi, hj, hs, hT, he⟩
    refine ⟨i, j, A.shift T, hi, hj, hs, (A.ball_phase ph D T).2 hT, ?_⟩
    rw [A.atm_phase ph hi, A.atm_phase ph hj, A.event_phase]
    exact he

end

end Pdffit.Axes
