import Verif.Model.Special
import Mathlib.Tactic.Linarith
import Mathlib.Tactic.FieldSimp
import Mathlib.Tactic.NormNum
import Mathlib.Tactic.Push

/-!
# C87  Arguments that are not finite numbers

The property, that NaN and infinite arguments are rejected, holds for `pdfrange` only. The other checks are written as comparisons that a NaN
passes, and what follows converts such numbers to `int`, which is undefined.
-/

namespace Pdffit.C87
open Special Dbl

/-- A finite number. -/
def Finite (a : Dbl) : Prop := ∃ x, a = num x

theorem lt_num {x y : ℚ} : lt (num x) (num y) = decide (x < y) := rfl
theorem le_num {x y : ℚ} : le (num x) (num y) = decide (x ≤ y) := rfl

theorem le_not_nan {a b : Dbl} (h : le a b = true) : a ≠ nan ∧ b ≠ nan := by
  cases a <;> cases b <;> simp_all [le]

theorem lt_not_nan {a b : Dbl} (h : lt a b = true) : a ≠ nan ∧ b ≠ nan := by
  cases a <;> cases b <;> simp_all [lt]

/-- **C87** `pdfrange` rejects NaN always, and infinite numbers when the limits of the data are finite. What it accepts lies within the data. -/
theorem C87_range {d d' : DSet} {lo hi : Dbl} (h : d.range lo hi = .ok d') :
    lo ≠ nan ∧ hi ≠ nan ∧ d' = { d with rfmin := lo, rfmax := hi } ∧
      ∀ a b, d.rmin = num a → d.rmax = num b → ∃ x y, lo = num x ∧ hi = num y ∧ a ≤ x ∧ x < y ∧ y ≤ b := by
  unfold DSet.range at h
  split_ifs at h with hc
  simp only [Bool.and_eq_true] at hc
  obtain ⟨⟨⟨h1, h2⟩, h3⟩, h4⟩ := hc
  refine ⟨(le_not_nan h1).2, (le_not_nan h3).1, by cases h; rfl, ?_⟩
  intro a b ha hb
  rw [ha] at h1
  rw [hb] at h2 h3
  cases lo <;> cases hi <;> simp_all [le, lt]

/-- A rejected `pdfrange` is a `ValueError`. -/
theorem C87_range_raises {d : DSet} {lo hi : Dbl} (hn : lo = nan ∨ hi = nan) : d.range lo hi = .err .value := by
  unfold DSet.range
  rw [if_neg]
  simp only [Bool.and_eq_true]
  rintro ⟨⟨⟨h1, -⟩, h3⟩, -⟩
  exact hn.elim (le_not_nan h1).2 (le_not_nan h3).1

/-- Not below zero, or NaN. -/
def NotNeg (a : Dbl) : Prop := a = nan ∨ a = pinf ∨ ∃ x, a = num x ∧ 0 ≤ x

theorem notNeg_iff {a : Dbl} : lt a (num 0) = false ↔ NotNeg a := by
  cases a <;> simp [lt, NotNeg]

/-- **C87** What `alloc` accepts: for finite numbers as documented, but also NaN everywhere and infinite limits. -/
theorem C87_alloc_accepts (qmax qdamp rmin rmax : Dbl) (bin : ℤ) :
    (∃ d, alloc qmax qdamp rmin rmax bin = .ok d) ↔
      NotNeg rmin ∧ NotNeg rmax ∧ lt rmax rmin = false ∧ 2 ≤ bin ∧ NotNeg qmax ∧ NotNeg qdamp := by
  rw [← notNeg_iff, ← notNeg_iff, ← notNeg_iff, ← notNeg_iff]
  unfold alloc
  constructor
  · rintro ⟨d, h⟩
    split_ifs at h with h1 h2 h3 h4
    simp only [Bool.or_eq_true, not_or, Bool.not_eq_true] at h1 h3 h4
    exact ⟨h1.1.2, h1.2, h1.1.1, by omega, h3, h4⟩
  · rintro ⟨h1, h2, h3, h4, h5, h6⟩
    simp [h1, h2, h3, h5, h6, not_le.2 (by omega : (1 : ℤ) < bin)]

/-- **C87** (partial) With finite numbers `alloc` accepts what is documented. -/
theorem C87_alloc_partial (qmax qdamp rmin rmax : ℚ) (bin : ℤ) :
    (∃ d, alloc (num qmax) (num qdamp) (num rmin) (num rmax) bin = .ok d) ↔ 0 ≤ rmin ∧ rmin ≤ rmax ∧ 2 ≤ bin ∧ 0 ≤ qmax ∧ 0 ≤ qdamp := by
  rw [C87_alloc_accepts]
  have key : ∀ x : ℚ, NotNeg (num x) ↔ 0 ≤ x := fun x => by simp [NotNeg]
  rw [key, key, key, key, lt_num, decide_eq_false_iff_not, not_lt]
  constructor
  · rintro ⟨a, -, c, d⟩; exact ⟨a, c, d⟩
  · rintro ⟨a, c, d⟩; exact ⟨a, a.trans c, c, d⟩

theorem nint_not {a : Dbl} (h : ¬ Finite a) : nint a = .ub := by
  cases a with
  | num x => exact absurd ⟨x, rfl⟩ h
  | _ => rfl

theorem iceil_not {a : Dbl} (h : ¬ Finite a) : iceil a = .ub := by
  cases a with
  | num x => exact absurd ⟨x, rfl⟩ h
  | _ => rfl

theorem not_finite {a : Dbl} (h : a = nan ∨ a = pinf ∨ a = ninf) : ¬ Finite a := by
  rintro ⟨x, rfl⟩; simp at h

/-- A conversion does not raise. -/
theorem nint_noerr (a : Dbl) (e : Exc) : nint a ≠ .err e := by
  cases a with
  | num x => unfold nint toInt; dsimp only; split_ifs <;> simp
  | _ => simp [nint, toInt]

theorem bind_ub {α β : Type} {x : Res α} {f : α → Res β} (h : ∀ e, x ≠ .err e) (hf : x = .ub ∨ ∀ a, f a = .ub) : (x >>= f) = .ub := by
  cases x with
  | ok a => rcases hf with h | h
            · cases h
            · exact h a
  | err e => exact absurd rfl (h e)
  | ub => rfl

theorem alloc_eq {qmax qdamp rmin rmax : Dbl} {bin : ℤ} {d : DSet} (h : alloc qmax qdamp rmin rmax bin = .ok d) :
    d = ⟨rmin, rmax, rmin, rmax, div (sub rmax rmin) (num (bin - 1 : ℤ)), qmax, qdamp, bin⟩ := by
  unfold alloc at h
  split_ifs at h
  cases h; rfl

theorem indices_ub {d : DSet} {pad : ℤ → ℤ} (h : d.index d.rfmax = .ub ∨ lt (num 0) d.qmax = true ∧ ∀ n, d.loQ (pad n) = .ub) : d.indices pad = .ub := by
  unfold DSet.indices
  refine bind_ub (nint_noerr _) (.inr fun _ => ?_)
  refine bind_ub (nint_noerr _) ?_
  rcases h with h | ⟨h1, h2⟩
  · exact .inl h
  · refine .inr fun _ => bind_ub (nint_noerr _) (.inr fun _ => bind_ub (nint_noerr _) (.inr fun _ => ?_))
    rw [if_pos h1, h2]
    rfl

/-- **C87 is violated**: data sets that `alloc` accepts with a limit that is not finite, or with an infinite `qmax`, have a calculation with undefined behaviour.
The same for equal limits. -/
theorem C87_calc_undefined {qmax qdamp rmin rmax : Dbl} {bin : ℤ} {d : DSet} (h : alloc qmax qdamp rmin rmax bin = .ok d)
    (hbad : ¬ Finite rmin ∨ ¬ Finite rmax ∨ rmin = rmax ∨ qmax = pinf) (pad : ℤ → ℤ) (hpad : ∀ n, 2 ≤ pad n) : d.indices pad = .ub := by
  obtain ⟨h1, h2, h3, h4, h5, h6⟩ := (C87_alloc_accepts qmax qdamp rmin rmax bin).1 ⟨d, h⟩
  have hd := alloc_eq h
  have hb : (0 : ℚ) < ((bin - 1 : ℤ) : ℚ) := by exact_mod_cast (by omega : (0 : ℤ) < bin - 1)
  apply indices_ub
  by_cases hl : ¬ Finite rmin ∨ ¬ Finite rmax ∨ rmin = rmax
  · left
    unfold DSet.index
    refine nint_not (not_finite ?_)
    rw [hd]
    dsimp only
    generalize ((bin - 1 : ℤ) : ℚ) = n at hb
    have hn : n ≠ 0 := hb.ne'
    rcases h1 with rfl | rfl | ⟨x, rfl, hx⟩
    · cases rmax <;> simp [sub, neg, add, div]
    · rcases h2 with rfl | rfl | ⟨y, rfl, hy⟩
      · simp [sub, add, div]
      · simp [sub, neg, add, div]
      · simp [lt] at h3
    · rcases h2 with rfl | rfl | ⟨y, rfl, hy⟩
      · simp [sub, add, div]
      · simp [sub, neg, add, div, not_lt.2 hb.le]
      · have : x = y := by
          rcases hl with h | h | h
          · exact absurd ⟨x, rfl⟩ h
          · exact absurd ⟨y, rfl⟩ h
          · simpa using h
        subst this
        simp [sub, neg, add, div, hn, signed]
  · push Not at hl
    obtain ⟨⟨x, rfl⟩, ⟨y, rfl⟩, hne⟩ := hl
    have hq : qmax = pinf := by
      rcases hbad with h | h | h | h
      · exact absurd ⟨x, rfl⟩ h
      · exact absurd ⟨y, rfl⟩ h
      · exact absurd h hne
      · exact h
    right
    rw [hd]
    refine ⟨by rw [hq]; rfl, fun n => ?_⟩
    unfold DSet.loQ
    apply iceil_not
    rw [hq]
    dsimp only
    generalize hm : ((bin - 1 : ℤ) : ℚ) = m at hb
    have hp : ((pad n - 1 : ℤ) : ℚ) ≠ 0 := by
      have := hpad n
      exact_mod_cast (by omega : pad n - 1 ≠ 0)
    generalize ((pad n - 1 : ℤ) : ℚ) = p at hp
    have hxy : y + -x ≠ 0 := fun e => hne (by rw [show x = y by linarith])
    simp only [sub, neg, add, div, mul, hb.ne', if_false]
    rw [if_neg (mul_ne_zero hp (div_ne_zero hxy hb.ne'))]
    dsimp only
    split_ifs <;> rintro ⟨z, hz⟩ <;> cases hz

/-- **C87** (partial) With finite limits and without cutoff the indices are those of all points; a NaN as `qmax` counts as no cutoff. -/
theorem C87_calc_partial {qmax qdamp : Dbl} {rmin rmax : ℚ} {bin : ℤ} {d : DSet} (h : alloc qmax qdamp (num rmin) (num rmax) bin = .ok d)
    (hlt : rmin < rmax) (hbin : bin ≤ 2 ^ 31 - 1) (hq : qmax = nan ∨ qmax = num 0) (pad : ℤ → ℤ) :
    d.indices pad = .ok ((0, bin - 1), (0, bin - 1), none) := by
  obtain ⟨-, -, -, h4, -, -⟩ := (C87_alloc_accepts qmax qdamp _ _ bin).1 ⟨d, h⟩
  have hd := alloc_eq h
  have hb : (0 : ℚ) < ((bin - 1 : ℤ) : ℚ) := by exact_mod_cast (by omega : (0 : ℤ) < bin - 1)
  have hq' : lt (num 0) d.qmax = false := by rw [hd]; rcases hq with rfl | rfl <;> rfl
  have hround : ∀ n : ℤ, 0 ≤ n → Special.round (n : ℚ) = n := by
    intro n hn
    unfold Special.round
    rw [if_pos (by exact_mod_cast hn), Int.floor_eq_iff]
    constructor <;> linarith
  have hx : rmax + -rmin ≠ 0 := by linarith
  have i0 : d.index (num rmin) = .ok 0 := by
    rw [hd]
    unfold DSet.index nint
    have e : div (sub (num rmin) (num rmin)) (div (sub (num rmax) (num rmin)) (num (bin - 1 : ℤ))) = num ((0 : ℤ) : ℚ) := by
      simp only [sub, neg, add, div, hb.ne', if_false, div_eq_zero_iff, hx, or_self]
      norm_num
    dsimp only
    rw [e]
    unfold toInt
    dsimp only
    rw [hround 0 (le_refl _)]
    norm_num
  have i1 : d.index (num rmax) = .ok (bin - 1) := by
    rw [hd]
    unfold DSet.index nint
    have e : div (sub (num rmax) (num rmin)) (div (sub (num rmax) (num rmin)) (num (bin - 1 : ℤ))) = num ((bin - 1 : ℤ) : ℚ) := by
      simp only [sub, neg, add, div, hb.ne', if_false, div_eq_zero_iff, hx, or_self]
      congr 1
      have := hb.ne'
      field_simp
    dsimp only
    rw [e]
    unfold toInt
    dsimp only
    rw [hround (bin - 1) (by omega), if_pos (by omega)]
  have hl : d.limits = (num rmin, num rmax) := by
    unfold DSet.limits
    rw [hq']
    rw [hd]
    rfl
  have hf1 : d.rfmin = num rmin := by rw [hd]
  have hf2 : d.rfmax = num rmax := by rw [hd]
  unfold DSet.indices
  rw [hl, hf1, hf2, i0, i1, hq']
  rfl

/-- **C87** A peak whose position or width is NaN, or which is infinitely wide, covers the calculated points and no others. One that starts at infinity (as with
`sratio = -inf`) has no defined index. -/
theorem C87_peak (d : DSet) {a b : ℚ} (h1 : d.limits = (num a, num b)) :
    (∀ lo, lo = nan ∨ lo = ninf → d.ib lo = d.index (num a)) ∧ (∀ hi, hi = nan ∨ hi = pinf → d.ie hi = d.index (num b)) ∧
      (∀ x : ℚ, d.deltar = num x → (∃ y, d.rmin = num y) → d.ib pinf = .ub) := by
  refine ⟨?_, ?_, ?_⟩
  · rintro lo (rfl | rfl) <;> unfold DSet.ib <;> rw [h1] <;> rfl
  · rintro lo (rfl | rfl) <;> unfold DSet.ie <;> rw [h1] <;> rfl
  · rintro x hx ⟨y, hy⟩
    unfold DSet.ib DSet.index
    apply nint_not
    rw [h1, hx, hy]
    simp only [cmax, lt, if_true, sub, neg, add, div]
    split_ifs <;> rintro ⟨z, hz⟩ <;> cases hz

theorem add_nan (a : Dbl) : add a nan = nan ∧ add nan a = nan := by cases a <;> exact ⟨rfl, rfl⟩
theorem mul_nan (a : Dbl) : mul a nan = nan ∧ mul nan a = nan := by cases a <;> exact ⟨rfl, rfl⟩

/-- **C87 is violated**: a cell with an angle that is not finite passes the check of the volume. -/
theorem C87_cell (c : ℚ → ℚ) (win : Dbl × Dbl × Dbl) (h : ¬ Finite win.1 ∨ ¬ Finite win.2.1 ∨ ¬ Finite win.2.2) : lattice c win = .ok () := by
  obtain ⟨a, b, g⟩ := win
  have key : ∀ a, ¬ Finite a → cosd c a = nan := by
    intro a ha
    cases a with
    | num x => exact absurd ⟨x, rfl⟩ ha
    | _ => rfl
  unfold lattice
  rw [if_neg]
  intro hle
  apply (le_not_nan hle).1
  rcases h with h | h | h <;> simp only [key _ h] <;> simp only [sub, (mul_nan _).1, (mul_nan _).2, neg, (add_nan _).1, (add_nan _).2]

/-- **C87** (partial) With finite angles the check is that of the volume. -/
theorem C87_cell_partial (c : ℚ → ℚ) (x y z : ℚ) : lattice c (num x, num y, num z) =
    if 1 - c x ^ 2 - c y ^ 2 - c z ^ 2 + 2 * c x * c y * c z ≤ eps then .err .structure else .ok () := by
  have e : (1 + -(c x * c x) + -(c y * c y) + -(c z * c z) + 2 * c x * c y * c z) = 1 - c x ^ 2 - c y ^ 2 - c z ^ 2 + 2 * c x * c y * c z := by ring
  simp only [lattice, cosd, sub, mul, neg, add, le_num, decide_eq_true_eq]
  rw [e]

/-- **C87 is violated**: an upper limit of bonds that is not finite is undefined behaviour, and so is a lower limit of plus infinity on every line of lattice points. -/
theorem C87_bonds_undefined {diam ar : ℚ} (har : 0 < ar) {bmin bmax : Dbl} :
    (¬ Finite bmax → hiM ar (rsph diam bmin bmax).2 = .ub) ∧
      (bmin = pinf → ∀ (sq : ℚ → ℚ) (rmax rline2 o0 c1r : ℚ), 0 < c1r →
        hole sq (rsph diam bmin bmax).1 (num rmax) (num rline2) (num o0) (num c1r) = .ub) := by
  constructor
  · intro h
    unfold hiM
    apply iceil_not
    cases bmax with
    | num x => exact absurd ⟨x, rfl⟩ h
    | _ => simp [rsph, add, mul, signed, har.ne', har, har.le, Finite, not_lt.2]
  · rintro rfl sq rmax rline2 o0 c1r hc
    have h1 : sqs (rsph diam pinf bmax).1 = pinf := rfl
    have h2 : ∃ z, sub (num rline2) (sqs (num rmax)) = num z := by
      unfold sqs
      split_ifs <;> exact ⟨_, rfl⟩
    obtain ⟨z, hz⟩ := h2
    unfold hole
    rw [h1, hz]
    have h3 : mul (sqrt sq pinf) (num c1r) = pinf := by simp [sqrt, mul, signed, hc.ne', hc]
    have h4 : add pinf (num z) = pinf := rfl
    rw [h4]
    dsimp only
    rw [h3]
    rfl

/-- **C87** A lower limit of bonds that is NaN gives an empty list, one of minus infinity the same as no lower limit. -/
theorem C87_bonds_lower (diam : ℚ) (bmax : Dbl) (sq : ℚ → ℚ) (rmax rline2 o0 c1r : ℚ) :
    (∀ dist, listed nan bmax dist = false) ∧ (∀ x : ℚ, listed ninf bmax (num x) = le (num x) bmax) ∧
      hole sq (rsph diam nan bmax).1 (num rmax) (num rline2) (num o0) (num c1r) = .ok none ∧
      hole sq (rsph diam ninf bmax).1 (num rmax) (num rline2) (num o0) (num c1r) = .ok none := by
  have h2 : ∃ z, sub (num rline2) (sqs (num rmax)) = num z := by
    unfold sqs
    split_ifs <;> exact ⟨_, rfl⟩
  obtain ⟨z, hz⟩ := h2
  refine ⟨fun dist => by cases dist <;> rfl, fun x => by simp [listed, le], ?_, ?_⟩ <;> unfold hole <;> rw [hz] <;> rfl

/-- The limits of the calculation with finite limits of the fit: extended by six periods of the termination ripples, but not below the first point of the data;
not extended with a `qmax` of zero or NaN. -/
theorem C87_limits_partial (d : DSet) {a x y : ℚ} (ha : d.rmin = num a) (hx : d.rfmin = num x) (hy : d.rfmax = num y) :
    (∀ q : ℚ, d.qmax = num q → 0 < q → d.limits = (num (max a (x - 12 * mpi / q)), num (y + 12 * mpi / q))) ∧
      (d.qmax = num 0 ∨ d.qmax = nan → d.limits = (num x, num y)) := by
  constructor
  · intro q hq h0
    unfold DSet.limits
    rw [hq, lt_num, if_pos (by simpa using h0), ha, hx, hy]
    simp only [div, if_neg h0.ne', sub, neg, add, cmax, lt_num, decide_eq_true_eq, ← sub_eq_add_neg]
    split_ifs with h
    · rw [max_eq_right h.le]
    · rw [max_eq_left (not_lt.1 h)]
  · rintro (h | h) <;> unfold DSet.limits <;> rw [h, hx, hy] <;> rfl

/-- Finite limits: undefined behaviour if the last point has a number that is not an `int`. -/
theorem C87_calc_large (d : DSet) {a b δ : ℚ} (ha : d.rmin = num a) (hb : d.rfmax = num b) (hd : d.deltar = num δ) (h0 : δ ≠ 0)
    (hl : 2 ^ 31 ≤ (b - a) / δ) (pad : ℤ → ℤ) : d.indices pad = .ub := by
  refine indices_ub (.inl ?_)
  unfold DSet.index
  rw [ha, hb, hd]
  simp only [sub, neg, add, div, if_neg h0, ← sub_eq_add_neg, nint, toInt]
  refine if_neg fun h => ?_
  have h1 : (2 ^ 31 : ℤ) ≤ Special.round ((b - a) / δ) := by
    unfold Special.round
    rw [if_pos (le_trans (by norm_num) hl), Int.le_floor]
    push_cast
    linarith
  omega

/-- Finite limits of bonds: the generator of lattice points gets limits extended by the diameter of the cell. It is undefined behaviour if the number of lattice
planes within the upper one is not an `int`. -/
theorem C87_bonds_partial (diam ar a b : ℚ) : rsph diam (num a) (num b) = (num (a - diam), num (b + diam)) ∧
    hiM ar (rsph diam (num a) (num b)).2 =
      if -2 ^ 31 ≤ ⌈(b + diam) * ar⌉ ∧ ⌈(b + diam) * ar⌉ ≤ 2 ^ 31 - 1 then .ok ⌈(b + diam) * ar⌉ else .ub := by
  refine ⟨?_, rfl⟩
  simp only [rsph, sub, neg, add, ← sub_eq_add_neg]

example : hiM (1 / 4) (rsph 7 (num 0) (num 10)).2 = .ok 5 ∧ hiM (1 / 4) (rsph 7 (num 0) (num (10 ^ 10))).2 = .ub := by decide +kernel
/-- 3000000001 points cannot be numbered. -/
example (d : DSet) (pad : ℤ → ℤ) (h : d = ⟨num 0, num 30, num 0, num 30, num (1 / 10 ^ 8), num 0, num 0, 3000000001⟩) : d.indices pad = .ub := by
  subst h
  exact C87_calc_large _ rfl rfl rfl (by norm_num) (by norm_num) pad

example : ∃ d, alloc (num 25) (num 0) nan (num 10) 100 = .ok d := (C87_alloc_accepts _ _ _ _ _).2 ⟨.inl rfl, .inr (.inr ⟨10, rfl, by norm_num⟩), rfl, by norm_num,
  .inr (.inr ⟨25, rfl, by norm_num⟩), .inr (.inr ⟨0, rfl, le_refl _⟩)⟩
example : ∃ d, alloc pinf (num 0) (num 1) pinf 100 = .ok d := (C87_alloc_accepts _ _ _ _ _).2 ⟨.inr (.inr ⟨1, rfl, by norm_num⟩), .inr (.inl rfl), rfl, by norm_num,
  .inr (.inl rfl), .inr (.inr ⟨0, rfl, le_refl _⟩)⟩
/-- 10 points from 1 to 10 without cutoff. -/
example : ((alloc (num 0) (num 0) (num 1) (num 10) 10) >>= fun d => d.indices fun n => n) = .ok ((0, 9), (0, 9), none) := by decide +kernel
/-- With a cutoff at 25. -/
example : ((alloc (num 25) (num 0) (num 1) (num 10) 10) >>= fun d => d.indices fun _ => 32) = .ok ((0, 9), (0, 11), some 124) := by decide +kernel
/-- `pdfrange` accepts finite limits. -/
example : ((alloc (num 25) (num 0) (num 1) (num 10) 10) >>= fun d => d.range (num 2) (num 5) >>= fun d => d.indices fun _ => 32) = .ok ((1, 4), (0, 6), some 124) := by
  decide +kernel
/-- A cube. -/
example : lattice (fun _ => 0) (num 90, num 90, num 90) = .ok () ∧ lattice (fun _ => 1) (num 0, num 0, num 0) = .err .structure := by decide +kernel

end Pdffit.C87
