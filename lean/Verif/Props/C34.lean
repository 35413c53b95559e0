import Verif.Lemmas.DataRead
import Verif.Model.Determine
import Verif.Props.C30
import Mathlib.Tactic.Linarith
import Mathlib.Tactic.Ring
import Mathlib.Tactic.FieldSimp
import Mathlib.Tactic.NormNum
import Mathlib.Tactic.Positivity

/-!
# C34: accepted data lie on the regular grid that is used for them

What `isRegular` guarantees is `deviation_partial`: the k-th of n values differs from `rmin + k deltar` by at most
`min k (n-1-k)` times the tolerance. The claim is violated in three ways: the deviation is not bounded by a fixed multiple of the
tolerance (`unbounded`), decreasing and constant values are accepted (`decreasing`, `constant`), and a single point is accepted by
`read_data_arrays` with a step that is not a number (`single`).

`inv` connects the readers with C30: accepted increasing data satisfy the invariant from which index safety is proved.
-/

namespace Pdffit.C34
open DataRead

section
variable {K : Type} [Field K] [LinearOrder K] [IsStrictOrderedRing K]

omit [LinearOrder K] [IsStrictOrderedRing K] in
theorem steps_get (r : List K) : ∀ (k : ℕ) (a b : K), r[k]? = some a → r[k + 1]? = some b → (steps r)[k]? = some (b - a) := by
  induction r with
  | nil => intro k a b h; simp at h
  | cons x r ih =>
    intro k a b h1 h2
    cases r with
    | nil => simp at h2
    | cons y r =>
      unfold steps
      cases k with
      | zero =>
        simp only [List.getElem?_cons_zero, Option.some.injEq, List.getElem?_cons_succ, zero_add] at h1 h2 ⊢
        rw [h1, h2]
      | succ k =>
        simp only [List.getElem?_cons_succ] at h1 h2 ⊢
        exact ih k a b h1 (by simpa using h2)

omit [LinearOrder K] [IsStrictOrderedRing K] in
theorem mem_steps {r : List K} {d : K} (h : d ∈ steps r) : ∃ k a b, r[k]? = some a ∧ r[k + 1]? = some b ∧ d = b - a := by
  induction r with
  | nil => simp [steps] at h
  | cons x r ih =>
    cases r with
    | nil => simp [steps] at h
    | cons y r =>
      unfold steps at h
      rcases List.mem_cons.1 h with rfl | h
      · exact ⟨0, x, y, rfl, rfl, rfl⟩
      · obtain ⟨k, a, b, h1, h2, h3⟩ := ih h
        exact ⟨k + 1, a, b, h1, h2, h3⟩

/-- `isRegular` compares every step with the mean step. -/
theorem regular_iff (f : ℕ → K) (n : ℕ) :
    isRegular ((List.range (n + 2)).map f) = true ↔ ∀ k ≤ n, |f (k + 1) - f k - (f (n + 1) - f 0) / (n + 1)| ≤ tol := by
  have get : ∀ k, ((List.range (n + 2)).map f)[k]? = if k < n + 2 then some (f k) else none := by
    intro k
    rw [List.getElem?_map]
    split_ifs with h
    · rw [List.getElem?_range h]; rfl
    · rw [List.getElem?_eq_none (by simp; omega)]; rfl
  have hm : meanStep ((List.range (n + 2)).map f) = (f (n + 1) - f 0) / (n + 1) := by
    unfold meanStep
    rw [List.head?_eq_getElem?, List.getLast?_eq_getElem?, get, get]
    simp only [List.length_map, List.length_range]
    rw [if_pos (by omega), if_pos (by omega)]
    have : ((n + 2 : ℕ) : K) - 1 = n + 1 := by push_cast; ring
    rw [this]
    rfl
  unfold isRegular
  rw [if_neg (by simp), List.all_eq_true]
  constructor
  · intro h k hk
    have := h (f (k + 1) - f k) (List.mem_of_getElem? (steps_get _ k _ _ (by rw [get, if_pos (by omega)]) (by rw [get, if_pos (by omega)])))
    rw [hm] at this
    simpa using this
  · intro h d hd
    obtain ⟨k, a, b, h1, h2, rfl⟩ := mem_steps hd
    rw [get] at h1 h2
    split_ifs at h1 with hk1
    split_ifs at h2 with hk2
    injection h1 with h1
    injection h2 with h2
    subst h1 h2
    rw [hm]
    simpa using h k (by omega)

omit [LinearOrder K] [IsStrictOrderedRing K] in
theorem list_eq_map (r : List K) : r = (List.range r.length).map fun k => r.getD k 0 := by
  refine List.ext_getElem? fun k => ?_
  rw [List.getElem?_map]
  by_cases h : k < r.length
  · rw [List.getElem?_range h, List.getElem?_eq_getElem h]
    simp [h]
  · rw [List.getElem?_eq_none (by omega), List.getElem?_eq_none (by simp; omega)]
    rfl

/-- **C34, the part that holds**: if `r` is accepted, its k-th value lies within `min k (n-1-k)` tolerances of the grid point. -/
theorem deviation_partial (r : List K) (n : ℕ) (hn : r.length = n + 2) (h : isRegular r = true) (k : ℕ) (hk : k ≤ n + 1) :
    |r.getD k 0 - (r.getD 0 0 + k * ((r.getD (n + 1) 0 - r.getD 0 0) / (n + 1)))| ≤ (min k (n + 1 - k) : ℕ) * (tol : K) := by
  rw [list_eq_map r, hn] at h
  rw [regular_iff] at h
  generalize hf : (fun k => r.getD k 0) = f at h
  have e : ∀ k, r.getD k 0 = f k := fun k => congrFun hf k
  simp only [e] at h ⊢
  set dx := (f (n + 1) - f 0) / (n + 1) with hdx
  have hpos : (0 : K) < n + 1 := by positivity
  have hlast : f (n + 1) = f 0 + (n + 1) * dx := by rw [hdx]; field_simp; ring
  have left : ∀ k, k ≤ n + 1 → |f k - (f 0 + k * dx)| ≤ k * tol := by
    intro k
    induction k with
    | zero => intro _; simp
    | succ k ih =>
      intro hk
      have h1 := ih (by omega)
      have h2 := h k (by omega)
      have : f (k + 1) - (f 0 + ((k + 1 : ℕ) : K) * dx) = (f k - (f 0 + k * dx)) + (f (k + 1) - f k - dx) := by
        push_cast; ring
      rw [this]
      refine (abs_add_le _ _).trans ?_
      push_cast
      linarith
  have right : ∀ j, j ≤ n + 1 → |f (n + 1 - j) - (f 0 + ((n + 1 - j : ℕ) : K) * dx)| ≤ j * tol := by
    intro j
    induction j with
    | zero =>
      intro _
      rw [Nat.sub_zero, hlast]
      push_cast
      simp
    | succ j ih =>
      intro hj
      have h1 := ih (by omega)
      have h2 := h (n + 1 - (j + 1)) (by omega)
      have e1 : n + 1 - (j + 1) + 1 = n + 1 - j := by omega
      rw [e1] at h2
      have e2 : ((n + 1 - j : ℕ) : K) = ((n + 1 - (j + 1) : ℕ) : K) + 1 := by
        rw [← e1]; push_cast; ring
      rw [e2] at h1
      have : f (n + 1 - (j + 1)) - (f 0 + ((n + 1 - (j + 1) : ℕ) : K) * dx) =
          (f (n + 1 - j) - (f 0 + (((n + 1 - (j + 1) : ℕ) : K) + 1) * dx)) -
            (f (n + 1 - j) - f (n + 1 - (j + 1)) - dx) := by ring
      rw [this]
      refine (abs_sub _ _).trans ?_
      have e3 : ((j + 1 : ℕ) : K) * tol = j * tol + tol := by push_cast; ring
      rw [e3]
      linarith
  rcases le_total k (n + 1 - k) with hc | hc
  · rw [min_eq_left hc]
    exact left k hk
  · rw [min_eq_right hc]
    have := right (n + 1 - k) (by omega)
    rwa [show n + 1 - (n + 1 - k) = k by omega] at this

/-- If the mean step exceeds the tolerance, accepted values increase strictly. -/
theorem increasing_partial (r : List K) (n : ℕ) (hn : r.length = n + 2) (h : isRegular r = true)
    (hs : tol < (r.getD (n + 1) 0 - r.getD 0 0) / (n + 1)) (k : ℕ) (hk : k ≤ n) : r.getD k 0 < r.getD (k + 1) 0 := by
  rw [list_eq_map r, hn] at h
  rw [regular_iff] at h
  have := (abs_le.1 (h k hk)).1
  linarith

/-- **C34, violation**: no multiple of the tolerance bounds the distance from the grid, even for strictly increasing values. -/
theorem unbounded (C : ℕ) : ∃ (r : List K) (n k : ℕ), r.length = n + 2 ∧ k ≤ n + 1 ∧ isRegular r = true ∧
    (∀ j, j ≤ n → r.getD j 0 < r.getD (j + 1) 0) ∧
    C * (tol : K) < |r.getD k 0 - (r.getD 0 0 + k * ((r.getD (n + 1) 0 - r.getD 0 0) / (n + 1)))| := by
  -- steps 1 + tol up to the middle, 1 - tol afterwards
  let m := C + 1
  let f : ℕ → K := fun k => k + (min k (2 * m - k) : ℕ) * tol
  have htol : (0 : K) < tol ∧ (tol : K) < 1 := by unfold tol; constructor <;> norm_num
  have hstep : ∀ k, k ≤ 2 * C + 1 → f (k + 1) - f k = 1 + tol ∨ f (k + 1) - f k = 1 - tol := by
    intro k hk
    by_cases hc : k < m
    · left
      have e1 : min k (2 * m - k) = k := by omega
      have e2 : min (k + 1) (2 * m - (k + 1)) = k + 1 := by omega
      simp only [f, e1, e2]
      push_cast
      ring
    · right
      have e1 : min k (2 * m - k) = 2 * m - (k + 1) + 1 := by omega
      have e2 : min (k + 1) (2 * m - (k + 1)) = 2 * m - (k + 1) := by omega
      simp only [f, e1, e2]
      push_cast
      ring
  have f0 : f 0 = 0 := by simp [f]
  have fl : f (2 * C + 1 + 1) = 2 * C + 1 + 1 := by
    have : min (2 * C + 1 + 1) (2 * m - (2 * C + 1 + 1)) = 0 := by omega
    simp only [f, this]
    push_cast
    ring
  have hmean : (f (2 * C + 1 + 1) - f 0) / ((2 * C + 1 : ℕ) + 1 : K) = 1 := by
    rw [fl, f0]
    push_cast
    rw [sub_zero]
    exact div_self (by positivity)
  have get : ∀ k, k ≤ 2 * C + 1 + 1 → ((List.range (2 * C + 1 + 2)).map f).getD k 0 = f k := by
    intro k hk
    rw [List.getD_eq_getElem?_getD, List.getElem?_map, List.getElem?_range (by omega)]
    rfl
  refine ⟨(List.range (2 * C + 1 + 2)).map f, 2 * C + 1, m, by simp, by omega, ?_, ?_, ?_⟩
  · rw [regular_iff]
    intro k hk
    rw [hmean]
    rcases hstep k hk with e | e
    · rw [e, show (1 : K) + tol - 1 = tol by ring, abs_of_pos htol.1]
    · rw [e, show (1 : K) - tol - 1 = -tol by ring, abs_neg, abs_of_pos htol.1]
  · intro j hj
    rw [get j (by omega), get (j + 1) (by omega)]
    rcases hstep j hj with e | e
    · linarith [htol.1]
    · linarith [htol.2]
  · rw [get m (by omega), get 0 (by omega), get _ le_rfl, hmean, f0]
    have e1 : min m (2 * m - m) = m := by omega
    have e2 : f m - (0 + (m : K) * 1) = m * tol := by
      simp only [f, e1]
      ring
    rw [e2, abs_of_nonneg (by have := htol.1; positivity)]
    have : (C : K) < m := by simp [m]
    exact mul_lt_mul_of_pos_right this htol.1

/-- What accepted data of a text look like. -/
theorem stream_ok (S : Scan K) (n : ℕ) (t : List Char) (L : Loaded K) (h : readStream S n t = some (.ok L)) :
    ∃ (tab : List (List K)) (m : ℕ), tab.length = m + 2 ∧ isRegular (tab.map fun x => x.getD 0 0) = true ∧
      L.rmin = (tab.map fun x => x.getD 0 0).getD 0 0 ∧ L.rmax = (tab.map fun x => x.getD 0 0).getD (m + 1) 0 ∧
      L.deltar = some ((L.rmax - L.rmin) / (m + 1)) ∧ L.bin = m + 2 ∧ L.obs = tab.map (fun x => x.getD 1 0) ∧
      L.wic.length = m + 2 ∧ L.nfmin = 0 ∧ L.nfmax = m + 1 := by
  unfold readStream at h
  cases hh : header n t with
  | none => rw [hh] at h; cases h
  | some x =>
    rw [hh] at h
    injection h with h
    generalize rows S x.1 x.2 = tab at h
    unfold readRows at h
    dsimp only at h
    split_ifs at h with h1 h2
    injection h with h
    obtain ⟨m, hm⟩ : ∃ m, tab.length = m + 2 := ⟨tab.length - 2, by simp at h2; omega⟩
    refine ⟨tab, m, hm, h1, ?_⟩
    have e1 : (tab.map fun x => x.getD 0 0).head?.getD 0 = (tab.map fun x => x.getD 0 0).getD 0 0 := by
      rw [List.head?_eq_getElem?, List.getD_eq_getElem?_getD]
    have e2 : (tab.map fun x => x.getD 0 0).getLast?.getD 0 = (tab.map fun x => x.getD 0 0).getD (m + 1) 0 := by
      rw [List.getLast?_eq_getElem?, List.getD_eq_getElem?_getD, List.length_map, hm]
      rfl
    rw [e1, e2] at h
    rw [← h]
    refine ⟨rfl, rfl, ?_, by simp [hm], rfl, ?_, rfl, ?_⟩
    · have : ((tab.map fun x => x.getD 1 0).length : K) - 1 = m + 1 := by
        rw [List.length_map, hm]; push_cast; ring
      dsimp only
      rw [this]
    · unfold wics
      split_ifs <;> simp [hm]
    · simp [hm]
      ring

end

/-- Accepted increasing data satisfy the invariant used for C30 and C31, with any radiation, `qmax`, and so on. -/
theorem inv (S : Scan ℝ) (n : ℕ) (t : List Char) (L : Loaded ℝ) (h : readStream S n t = some (.ok L)) (hlt : L.rmin < L.rmax)
    (qmax qdamp qbroad dscale : ℝ) :
    ∃ dr, L.deltar = some dr ∧ 0 < dr ∧
      C30.Inv ⟨⟨L.rmin, dr, L.rmin, L.rmax, qmax, qdamp, qbroad, dscale⟩, L.rmax, L.bin, L.obs, L.wic.map fun x => x.getD 0⟩ := by
  obtain ⟨tab, m, h1, -, -, -, h5, h6, h7, h8, -⟩ := stream_ok S n t L h
  have hp : (0 : ℝ) < m + 1 := by positivity
  refine ⟨_, h5, div_pos (by linarith) hp, div_pos (by linarith) hp, le_rfl, hlt.le, le_rfl, ?_, ?_, ?_⟩
  · dsimp only
    rw [h6]
    push_cast
    field_simp
    ring
  · dsimp only
    rw [h6, h7, List.length_map, h1]
  · dsimp only
    rw [List.length_map, h8, h6]

/-- What accepted arrays look like: the lengths agree, the values are regular, and the members are those of the arrays. -/
theorem arrays_ok (r G : List ℝ) (dG : Option (List ℝ)) (L : Loaded ℝ) (h : readArrays r G dG = .ok L) :
    r.length = G.length ∧ (∀ d, dG = some d → d.length = G.length) ∧ r ≠ [] ∧ isRegular r = true ∧ L.obs = G ∧ L.bin = r.length ∧
      L.rmin = r.getD 0 0 ∧ L.rmax = r.getD (r.length - 1) 0 ∧ L.wic.length = r.length ∧
      (r.length ≠ 1 → L.deltar = some ((L.rmax - L.rmin) / ((r.length : ℝ) - 1))) := by
  unfold readArrays at h
  split at h
  · simp at h
  rename_i hlen
  simp only [not_or, ne_eq, not_not, not_exists, not_and] at hlen
  cases hr : r with
  | nil => simp [hr] at h
  | cons x l =>
    have hg : r.getLast? = some (r.getD (r.length - 1) 0) := by
      rw [List.getLast?_eq_getElem?, hr]
      simp
    have hh : r.head? = some (r.getD 0 0) := by rw [hr]; rfl
    rw [hg, hh] at h
    dsimp only at h
    split_ifs at h with h1 h2
    all_goals
      injection h with h
      subst h
      rw [← hr]
      refine ⟨hlen.1, hlen.2, by rw [hr]; simp, h1, rfl, rfl, rfl, rfl, ?_, ?_⟩
      · cases hd : dG with
        | none => simp [wicArrays, hlen.1]
        | some d => simp [wicArrays, hlen.1, hlen.2 d hd]
    · exact fun h => absurd h2 h
    · exact fun _ => rfl

/-- Arrays of different lengths raise `ValueError`. -/
theorem arrays_lengths (r G : List ℝ) (dG : Option (List ℝ))
    (h : r.length ≠ G.length ∨ ∃ d, dG = some d ∧ d.length ≠ G.length) : readArrays r G dG = .err .value := by
  unfold readArrays
  rw [if_pos h]

/-- **C34, the part that holds**, for arrays. -/
theorem arrays_partial (r G : List ℝ) (dG : Option (List ℝ)) (L : Loaded ℝ) (h : readArrays r G dG = .ok L) (n : ℕ)
    (hn : r.length = n + 2) (k : ℕ) (hk : k ≤ n + 1) :
    ∃ dr, L.deltar = some dr ∧ |r.getD k 0 - (L.rmin + k * dr)| ≤ (min k (n + 1 - k) : ℕ) * (1 / 1000) := by
  obtain ⟨-, -, -, h1, -, -, h2, h3, -, h4⟩ := arrays_ok r G dG L h
  refine ⟨_, h4 (by omega), ?_⟩
  have := deviation_partial r n hn h1 k hk
  rw [h3, h2, hn]
  have e : ((n + 2 : ℕ) : ℝ) - 1 = n + 1 := by push_cast; ring
  rw [e]
  exact this

example : ∃ L, readArrays [1, 2, 3] [5, 6, 7] none = .ok L ∧ L.deltar = some 1 := by
  have hr : isRegular ([1, 2, 3] : List ℝ) = true := by
    simp [isRegular, steps, meanStep, tol]
    norm_num
  have : ∃ L, readArrays [1, 2, 3] [5, 6, 7] none = .ok L := by
    unfold readArrays
    rw [if_neg (by simp)]
    simp only [List.head?_cons, List.getLast?_cons_cons, List.getLast?_singleton]
    rw [if_pos hr]
    exact ⟨_, rfl⟩
  obtain ⟨L, hL⟩ := this
  obtain ⟨-, -, -, -, -, -, h2, h3, -, h4⟩ := arrays_ok _ _ _ L hL
  refine ⟨L, hL, ?_⟩
  rw [h4 (by decide), h2, h3]
  simp
  norm_num

/-- **C34, violation**: decreasing values are accepted, with a negative step. -/
theorem decreasing : ∃ L, readArrays [2, 1] [0, 0] none = .ok L ∧ L.rmax < L.rmin ∧ L.deltar = some (-1) := by
  have hr : isRegular ([2, 1] : List ℝ) = true := by
    simp [isRegular, steps, meanStep, tol]
    norm_num
  unfold readArrays
  rw [if_neg (by simp)]
  simp only [List.head?_cons, List.getLast?_cons_cons, List.getLast?_singleton]
  rw [if_pos hr]
  refine ⟨_, rfl, by norm_num, ?_⟩
  simp
  norm_num

/-- **C34, violation**: constant values are accepted, with step zero. -/
theorem constant : ∃ L, readArrays [1, 1] [0, 0] none = .ok L ∧ L.rmin = L.rmax ∧ L.deltar = some 0 := by
  have hr : isRegular ([1, 1] : List ℝ) = true := by
    simp [isRegular, steps, meanStep, tol]
  unfold readArrays
  rw [if_neg (by simp)]
  simp only [List.head?_cons, List.getLast?_cons_cons, List.getLast?_singleton]
  rw [if_pos hr]
  exact ⟨_, rfl, rfl, by simp⟩

/-- **C34, violation**: one point is accepted by `read_data_arrays`, the step is `0/0`; empty arrays are read outside their
bounds. -/
theorem single : (∃ L, readArrays [1] [0] none = .ok L ∧ L.deltar = none) ∧ readArrays [] [] none = .ub := by
  constructor
  · unfold readArrays
    rw [if_neg (by simp)]
    simp only [List.head?_cons, List.getLast?_singleton]
    rw [if_pos (by rfl)]
    exact ⟨_, rfl, by simp⟩
  · unfold readArrays
    rw [if_neg (by simp)]
    rfl

/-- Three values with unequal steps that are accepted, and their distance from the grid. -/
example : isRegular ([1, 2 + 1 / 2000, 3] : List ℚ) = true ∧ isRegular ([1, 2 + 1 / 500, 3] : List ℚ) = false := by
  constructor
  · simp [isRegular, steps, meanStep, tol, abs_le]; norm_num
  · simp [isRegular, steps, meanStep, tol, abs_le]; norm_num

end Pdffit.C34
