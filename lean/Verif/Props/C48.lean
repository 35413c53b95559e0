import Verif.Lemmas.Matrix
import Mathlib.Data.Matrix.Mul
import Mathlib.LinearAlgebra.Matrix.Notation
import Mathlib.Algebra.BigOperators.Fin
import Mathlib.Algebra.Field.Rat

/-!
# C48: resizing and multiplying matrices is correct
-/

namespace Pdffit.C48
variable {K : Type}

/-- The object `a` holds the mathematical matrix `M`: right dimensions, and every element access
inside them is defined and gives the entry. -/
structure Holds {m n : Nat} (a : Mat K) (M : Matrix (Fin m) (Fin n) K) : Prop where
  rows : a.rows = m
  cols : a.cols = n
  wf : a.WF
  get : ∀ (i : Fin m) (j : Fin n), a.get i j = .ok (M i j)

theorem Holds.elem {m n : Nat} {a : Mat K} {M : Matrix (Fin m) (Fin n) K} (h : Holds a M)
    (i : Fin m) (j : Fin n) : a.data[(i : Nat) * n + j]? = some (M i j) := by
  have h1 := h.get i j
  obtain ⟨v, g1, g2⟩ := Mat.get_ok h.wf (i := i) (j := j) (by rw [h.rows]; exact i.2) (by rw [h.cols]; exact j.2)
  rw [g1] at h1
  cases h1
  rw [h.cols] at g2
  exact g2

theorem holds_of {m n : Nat} (d : List K) (M : Matrix (Fin m) (Fin n) K) (hl : d.length = m * n)
    (h : ∀ (i : Fin m) (j : Fin n), d[(i : Nat) * n + j]? = some (M i j)) :
    Holds ⟨m, n, d⟩ M :=
  ⟨rfl, rfl, hl, fun i j => at?_some (h i j)⟩

/-- The constructor gives the zero matrix. -/
theorem C48_zeros [Zero K] (m n : Nat) :
    Holds (Mat.zeros m n) (fun (_ : Fin m) (_ : Fin n) => (0 : K)) := by
  refine holds_of _ _ (by simp) fun i j => ?_
  rw [List.getElem?_replicate, if_pos (flat_lt i.2 j.2)]

/-- Element assignment changes exactly that element. -/
theorem C48_element_assignment {m n : Nat} (a : Mat K) (M : Matrix (Fin m) (Fin n) K)
    (h : Holds a M) (i : Fin m) (j : Fin n) (v : K) :
    ∃ r, a.set i j v = .ok r ∧
      Holds r (fun i' j' => if i' = i ∧ j' = j then v else M i' j') := by
  have hlen : (i : Nat) * n + j < a.data.length := by
    rw [h.wf, h.rows, h.cols]; exact flat_lt i.2 j.2
  refine ⟨{ a with data := a.data.set (i * n + j) v }, ?_, h.rows, h.cols, ?_, ?_⟩
  · unfold Mat.set
    rw [h.cols, wr_ok hlen]
    rfl
  · simp only [Mat.WF, List.length_set]; exact h.wf
  · intro i' j'
    refine at?_some ?_
    dsimp only
    rw [h.cols]
    by_cases he : i' = i ∧ j' = j
    · rw [if_pos he, he.1, he.2, List.getElem?_set_self hlen]
    · rw [if_neg he, List.getElem?_set_ne]
      · exact h.elem i' j'
      · intro hh
        obtain ⟨e1, e2⟩ := flat_inj j.2 j'.2 hh
        exact he ⟨Fin.ext e1.symm, Fin.ext e2.symm⟩

/-- `resize` keeps the overlapping block and fills the rest with the given value. -/
theorem C48_resize {m n : Nat} (a : Mat K) (M : Matrix (Fin m) (Fin n) K) (h : Holds a M)
    (m' n' : Nat) (v : K) :
    ∃ r, a.resize m' n' v = .ok r ∧
      Holds r (fun (i : Fin m') (j : Fin n') =>
        if hh : (i : Nat) < m ∧ (j : Nat) < n then M ⟨i, hh.1⟩ ⟨j, hh.2⟩ else v) := by
  unfold Mat.resize
  by_cases hd : m' = a.rows ∧ n' = a.cols
  · rw [if_pos hd]
    obtain ⟨h1, h2⟩ := hd
    have e1 : m' = m := h1.trans h.rows
    have e2 : n' = n := h2.trans h.cols
    subst e1 e2
    refine ⟨a, rfl, h.rows, h.cols, h.wf, fun i j => ?_⟩
    rw [dif_pos ⟨i.2, j.2⟩]
    exact h.get i j
  · rw [if_neg hd, h.rows, h.cols]
    by_cases hne : m = 0 ∨ n = 0
    · -- nothing to copy
      have : ∃ d, (Res.forN (min m' m) (fun i d =>
          Res.forN (min n' n) (fun j d => do
            let x ← a.get i j
            Res.wr d (i * n' + j) x) d) (List.replicate (m' * n') v)) = .ok d ∧
            d = List.replicate (m' * n') v := by
        rcases hne with rfl | rfl
        · rw [Nat.min_zero]; exact ⟨_, rfl, rfl⟩
        · rw [Nat.min_zero]
          exact Res.forN_inv (fun _ d => d = List.replicate (m' * n') v) _ _ _ rfl
            (fun i s _ hs => ⟨s, rfl, hs⟩)
      obtain ⟨d, h1, rfl⟩ := this
      rw [h1]
      refine ⟨_, rfl, holds_of _ _ (by simp) fun i j => ?_⟩
      rw [dif_neg (by omega), List.getElem?_replicate, if_pos (flat_lt i.2 j.2)]
    · have hm0 : 0 < m := by omega
      have hn0 : 0 < n := by omega
      obtain ⟨d, h1, h2, h3, h4⟩ := fill2 n' (min m' m) (min n' n) (List.replicate (m' * n') v)
        (Nat.min_le_left _ _)
        (by rw [List.length_replicate]; exact Nat.mul_le_mul_right _ (Nat.min_le_left _ _))
        (fun i j d => do
          let x ← a.get i j
          Res.wr d (i * n' + j) x)
        (fun i j => M ⟨min i (m - 1), by omega⟩ ⟨min j (n - 1), by omega⟩) (by
          intro i j d hi hj
          have := h.get ⟨i, by omega⟩ ⟨j, by omega⟩
          dsimp only at this
          rw [this]
          simp only [Res.bind_ok]
          congr <;> omega)
      rw [h1]
      refine ⟨_, rfl, holds_of _ _ (by rw [h2, List.length_replicate]) fun i j => ?_⟩
      by_cases hh : (i : Nat) < m ∧ (j : Nat) < n
      · rw [dif_pos hh, h3 i j (by omega) (by omega)]
        congr <;> omega
      · rw [dif_neg hh, h4 i j j.2 (by omega), List.getElem?_replicate, if_pos (flat_lt i.2 j.2)]

/-- `transposed` is the transpose. -/
theorem C48_transposed [Zero K] {m n : Nat} (a : Mat K) (M : Matrix (Fin m) (Fin n) K)
    (h : Holds a M) : ∃ r, a.transposed = .ok r ∧ Holds r M.transpose := by
  unfold Mat.transposed
  rw [h.rows, h.cols]
  obtain ⟨⟨d, pt⟩, h1, h2, h3, h4⟩ := Res.forN_inv
    (fun (c : Nat) (s : List K × Nat) => s.2 = c * m ∧ s.1.length = n * m ∧
      ∀ (j : Fin n) (i : Fin m), (j : Nat) < c → s.1[(j : Nat) * m + i]? = some (M i j)) n
    (fun j s => Res.forN m (fun i s => do
      let x ← a.get i j
      let d ← Res.wr s.1 s.2 x
      .ok (d, s.2 + 1)) s) ((Mat.zeros n m : Mat K).data, 0)
    ⟨by simp, by simp [Mat.zeros], by intro j i hj; omega⟩ (by
      rintro c ⟨d, pt⟩ hc ⟨g1, g2, g3⟩
      dsimp only at g1 g2 g3
      obtain ⟨⟨d', pt'⟩, k1, k2, k3, k4, k5⟩ := Res.forN_inv
        (fun (q : Nat) (s : List K × Nat) => s.2 = c * m + q ∧ s.1.length = n * m ∧
          (∀ (j : Fin n) (i : Fin m), (j : Nat) < c → s.1[(j : Nat) * m + i]? = some (M i j)) ∧
          ∀ (i : Fin m), (i : Nat) < q → s.1[c * m + i]? = some (M i ⟨c, hc⟩)) m
        (fun i s => do
          let x ← a.get i c
          let d ← Res.wr s.1 s.2 x
          .ok (d, s.2 + 1)) (d, pt)
        ⟨g1, g2, g3, by intro i hi; omega⟩ (by
          rintro q ⟨d', pt'⟩ hq ⟨l1, l2, l3, l4⟩
          dsimp only at l1 l2 l3 l4
          subst l1
          have hlt : c * m + q < d'.length := by rw [l2]; exact flat_lt hc hq
          have hget := h.get ⟨q, hq⟩ ⟨c, hc⟩
          dsimp only at hget
          refine ⟨(d'.set (c * m + q) (M ⟨q, hq⟩ ⟨c, hc⟩), c * m + q + 1), ?_, rfl, by simp [l2], ?_, ?_⟩
          · dsimp only
            rw [hget]
            simp only [Res.bind_ok]
            rw [wr_ok hlt]
            rfl
          · intro j i hj
            dsimp only
            rw [List.getElem?_set_ne]
            · exact l3 j i hj
            · intro he
              obtain ⟨e1, e2⟩ := flat_inj hq i.2 he
              omega
          · intro i hi
            dsimp only
            by_cases hiq : (i : Nat) = q
            · obtain rfl : i = ⟨q, hq⟩ := Fin.ext hiq
              rw [List.getElem?_set_self hlt]
            · rw [List.getElem?_set_ne (by omega)]
              exact l4 i (by omega))
      refine ⟨(d', pt'), k1, ?_, k3, ?_⟩
      · rw [k2]; ring
      · intro j i hj
        by_cases hjc : (j : Nat) = c
        · obtain rfl : j = ⟨c, hc⟩ := Fin.ext hjc
          exact k5 i i.2
        · exact k4 j i (by omega))
  rw [h1]
  exact ⟨_, rfl, holds_of _ _ h3 fun j i => h4 j i j.2⟩

/-- `operator*` is the matrix product when the dimensions fit … -/
theorem C48_product [Semiring K] {m n p : Nat} (a b : Mat K) (M : Matrix (Fin m) (Fin n) K)
    (N : Matrix (Fin n) (Fin p) K) (ha : Holds a M) (hb : Holds b N) :
    ∃ r, a.mul b = .ok r ∧ Holds r (M * N) := by
  unfold Mat.mul
  rw [if_neg (by rw [ha.cols, hb.rows]; simp), ha.rows, ha.cols, hb.cols]
  -- inner product
  have hdot : ∀ (i : Fin m) (j : Fin p), Res.forN n (fun k c => do
        let x ← a.get i k
        let y ← b.get k j
        .ok (c + x * y)) 0 = Res.ok ((M * N) i j) := by
    intro i j
    obtain ⟨c, h1, h2⟩ := Res.forN_inv
      (fun (q : Nat) (c : K) => c = ∑ k ∈ Finset.range q, (if h : k < n then M i ⟨k, h⟩ * N ⟨k, h⟩ j else 0))
      n (fun k c => do
        let x ← a.get i k
        let y ← b.get k j
        .ok (c + x * y)) 0 (by simp) (by
          intro q c hq hc
          have g1 := ha.get i ⟨q, hq⟩
          have g2 := hb.get ⟨q, hq⟩ j
          dsimp only at g1 g2
          refine ⟨c + M i ⟨q, hq⟩ * N ⟨q, hq⟩ j, by rw [g1, g2]; rfl, ?_⟩
          rw [Finset.sum_range_succ, dif_pos hq, hc])
    rw [h1, h2, Matrix.mul_apply, Finset.sum_range]
    congr 1
    refine Finset.sum_congr rfl fun k _ => ?_
    rw [dif_pos k.2]
  by_cases hne : m = 0 ∨ p = 0
  · have : ∃ d, (Res.forN m (fun i d =>
        Res.forN p (fun j d => do
          let c ← Res.forN n (fun k c => do
            let x ← a.get i k
            let y ← b.get k j
            .ok (c + x * y)) 0
          Res.wr d (i * p + j) c) d) (Mat.zeros m p : Mat K).data) = .ok d ∧
          d.length = m * p := by
      rcases hne with rfl | rfl
      · exact ⟨_, rfl, by simp [Mat.zeros]⟩
      · exact Res.forN_inv (fun _ (d : List K) => d.length = m * 0) _ _ _ (by simp [Mat.zeros])
          (fun i s _ hs => ⟨s, rfl, hs⟩)
    obtain ⟨d, h1, h2⟩ := this
    rw [h1]
    exact ⟨_, rfl, holds_of _ _ h2 fun i j => absurd i.2 (by have := j.2; omega)⟩
  · obtain ⟨d, h1, h2, h3, _⟩ := fill2 p m p (Mat.zeros m p : Mat K).data (le_refl _)
      (by simp [Mat.zeros])
      (fun i j d => do
          let c ← Res.forN n (fun k c => do
            let x ← a.get i k
            let y ← b.get k j
            .ok (c + x * y)) 0
          Res.wr d (i * p + j) c)
      (fun i j => (M * N) ⟨min i (m - 1), by omega⟩ ⟨min j (p - 1), by omega⟩) (by
        intro i j d hi hj
        have := hdot ⟨i, hi⟩ ⟨j, hj⟩
        dsimp only at this ⊢
        rw [this]
        simp only [Res.bind_ok]
        rw [show (⟨min i (m - 1), by omega⟩ : Fin m) = ⟨i, hi⟩ from Fin.ext (by dsimp only; omega),
          show (⟨min j (p - 1), by omega⟩ : Fin p) = ⟨j, hj⟩ from Fin.ext (by dsimp only; omega)])
    rw [h1]
    refine ⟨_, rfl, holds_of _ _ (by rw [h2]; simp [Mat.zeros]) fun i j => ?_⟩
    rw [h3 i j i.2 j.2,
      show (⟨min i (m - 1), by omega⟩ : Fin m) = i from Fin.ext (by dsimp only; omega),
      show (⟨min j (p - 1), by omega⟩ : Fin p) = j from Fin.ext (by dsimp only; omega)]

/-- … and raises otherwise. -/
theorem C48_product_mismatch [Semiring K] (a b : Mat K) (h : a.cols ≠ b.rows) :
    a.mul b = .err .other := by
  unfold Mat.mul
  rw [if_pos h]

/-- `rowVector` is the row. -/
theorem C48_rowVector {m n : Nat} (a : Mat K) (M : Matrix (Fin m) (Fin n) K) (h : Holds a M)
    (i : Fin m) : a.rowVector i = .ok (List.ofFn (M i)) := by
  unfold Mat.rowVector
  rw [h.cols]
  obtain ⟨l, h1, h2, h3⟩ := Res.forN_inv
    (fun (q : Nat) (l : List K) => l.length = q ∧ ∀ j : Fin n, (j : Nat) < q → l[(j : Nat)]? = some (M i j))
    n (fun j l => do
      let x ← Res.at? a.data (n * i + j)
      .ok (l ++ [x])) [] ⟨rfl, by intro j hj; omega⟩ (by
        rintro q l hq ⟨g1, g2⟩
        have he := h.elem i ⟨q, hq⟩
        dsimp only at he
        refine ⟨l ++ [M i ⟨q, hq⟩], ?_, by simp [g1], ?_⟩
        · rw [Nat.mul_comm, at?_some he]; rfl
        · intro j hj
          by_cases hjq : (j : Nat) = q
          · obtain rfl : j = ⟨q, hq⟩ := Fin.ext hjq
            rw [List.getElem?_append_right (by dsimp only; omega)]
            simp [g1]
          · rw [List.getElem?_append_left (by omega)]
            exact g2 j (by omega))
  rw [h1]
  congr 1
  apply List.ext_getElem?
  intro k
  by_cases hk : k < n
  · rw [h3 ⟨k, hk⟩ hk]
    simp [hk]
  · rw [List.getElem?_eq_none (by omega), List.getElem?_eq_none (by simp; omega)]

/-- `colVector` is the column. -/
theorem C48_colVector {m n : Nat} (a : Mat K) (M : Matrix (Fin m) (Fin n) K) (h : Holds a M)
    (j : Fin n) : a.colVector j = .ok (List.ofFn fun i => M i j) := by
  unfold Mat.colVector
  rw [h.rows, h.cols]
  obtain ⟨⟨l, pt⟩, h1, hpt, h2, h3⟩ := Res.forN_inv
    (fun (q : Nat) (s : List K × Nat) => s.2 = q * n + j ∧ s.1.length = q ∧
      ∀ i : Fin m, (i : Nat) < q → s.1[(i : Nat)]? = some (M i j))
    m (fun _ s => do
      let x ← Res.at? a.data s.2
      .ok (s.1 ++ [x], s.2 + n)) (([], (j : Nat)) : List K × Nat)
      ⟨by simp, rfl, by intro j hj; omega⟩ (by
        rintro q ⟨l, pt⟩ hq ⟨g0, g1, g2⟩
        dsimp only at g0 g1 g2
        have he := h.elem ⟨q, hq⟩ j
        dsimp only at he
        refine ⟨(l ++ [M ⟨q, hq⟩ j], pt + n), ?_, ?_, by simp [g1], ?_⟩
        · dsimp only
          rw [g0, at?_some he]; rfl
        · dsimp only; rw [g0]; ring
        · intro i hi
          dsimp only
          by_cases hjq : (i : Nat) = q
          · obtain rfl : i = ⟨q, hq⟩ := Fin.ext hjq
            rw [List.getElem?_append_right (by dsimp only; omega)]
            simp [g1]
          · rw [List.getElem?_append_left (by omega)]
            exact g2 i (by omega))
  rw [h1]
  show Res.ok l = _
  congr 1
  dsimp only at h2 h3
  apply List.ext_getElem?
  intro k
  by_cases hk : k < m
  · rw [h3 ⟨k, hk⟩ hk]
    simp [hk]
  · rw [List.getElem?_eq_none (by omega), List.getElem?_eq_none (by simp; omega)]

/-- `sd` is the vector of square roots of the diagonal of a square matrix … -/
theorem C48_sd [Zero K] (sqrt : K → K) {n : Nat} (a : Mat K) (M : Matrix (Fin n) (Fin n) K)
    (h : Holds a M) : a.sd sqrt = .ok (List.ofFn fun i => sqrt (M i i)) := by
  unfold Mat.sd
  rw [if_neg (by rw [h.cols, h.rows]; simp)]
  have hlen : a.data.length = n * n := by rw [h.wf, h.rows, h.cols]
  have main : ∀ (fuel q : Nat) (v : List K), n ≤ q + fuel → q ≤ n → 0 < fuel → v.length = n →
      (∀ i : Fin n, (i : Nat) < q → v[(i : Nat)]? = some (sqrt (M i i))) →
      Mat.sdLoop sqrt a fuel (q * (n + 1)) q v = .ok (List.ofFn fun i => sqrt (M i i)) := by
    intro fuel
    induction fuel with
    | zero => intro q v h1 h2 h3; omega
    | succ fuel ih =>
      intro q v h1 h2 h3 h4 h5
      rw [Mat.sdLoop]
      by_cases hq : q < n
      · have hlt : q * (n + 1) < a.data.length := by
          rw [hlen]
          have : (q + 1) * n ≤ n * n := Nat.mul_le_mul_right n hq
          nlinarith
        rw [if_pos hlt]
        have he := h.elem ⟨q, hq⟩ ⟨q, hq⟩
        dsimp only at he
        rw [show q * (n + 1) = q * n + q by ring, at?_some he]
        simp only [Res.bind_ok]
        rw [wr_ok (by omega)]
        simp only [Res.bind_ok]
        rw [h.cols, show q * n + q + n + 1 = (q + 1) * (n + 1) by ring]
        by_cases hf : fuel = 0
        · subst hf
          have hq1 : q + 1 = n := by omega
          rw [Mat.sdLoop]
          congr 1
          apply List.ext_getElem?
          intro k
          by_cases hk : k < n
          · by_cases hkq : k = q
            · subst hkq; rw [List.getElem?_set_self (by omega)]; simp [hk]
            · rw [List.getElem?_set_ne (by omega), h5 ⟨k, hk⟩ (by dsimp only; omega)]; simp [hk]
          · rw [List.getElem?_eq_none (by simp; omega), List.getElem?_eq_none (by simp; omega)]
        · refine ih (q + 1) _ (by omega) (by omega) (by omega) (by simp [h4]) ?_
          intro i hi
          by_cases hkq : (i : Nat) = q
          · rw [hkq, List.getElem?_set_self (by omega)]
            have : i = ⟨q, hq⟩ := Fin.ext hkq
            rw [this]
          · rw [List.getElem?_set_ne (by omega)]; exact h5 i (by omega)
      · have hqn : q = n := by omega
        subst hqn
        rw [if_neg (by rw [hlen]; nlinarith)]
        congr 1
        apply List.ext_getElem?
        intro k
        by_cases hk : k < q
        · rw [h5 ⟨k, hk⟩ hk]; simp [hk]
        · rw [List.getElem?_eq_none (by omega), List.getElem?_eq_none (by simp; omega)]
  have := main (a.data.length + 1) 0 (List.replicate a.cols 0)
    (by rw [hlen]; nlinarith) (Nat.zero_le _) (by omega) (by simp [h.cols]) (by intro i hi; omega)
  simpa using this

/-- … and raises otherwise. -/
theorem C48_sd_not_square [Zero K] (sqrt : K → K) (a : Mat K) (h : a.cols ≠ a.rows) :
    a.sd sqrt = .err .other := by
  unfold Mat.sd
  rw [if_pos h]

/-! ### Non-trivial case -/

example : ∃ a b r t : Mat ℚ, Holds a !![1, 2, 3; 4, 5, 6] ∧ Holds b !![1, 0; 2, 1; 0, 3] ∧
    a.mul b = .ok r ∧ r.data = [5, 11, 14, 23] ∧
    a.resize 3 2 7 = .ok t ∧ t.data = [1, 2, 4, 5, 7, 7] := by
  refine ⟨⟨2, 3, [1, 2, 3, 4, 5, 6]⟩, ⟨3, 2, [1, 0, 2, 1, 0, 3]⟩, ⟨2, 2, [5, 11, 14, 23]⟩,
    ⟨3, 2, [1, 2, 4, 5, 7, 7]⟩, ⟨rfl, rfl, rfl, ?_⟩, ⟨rfl, rfl, rfl, ?_⟩, ?_, rfl, ?_, rfl⟩
  · intro i j; fin_cases i <;> fin_cases j <;> rfl
  · intro i j; fin_cases i <;> fin_cases j <;> rfl
  · simp [Mat.mul, Res.forN, Mat.get, Res.at?, Res.wr, Mat.zeros]; norm_num
  · simp [Mat.resize, Res.forN, Mat.get, Res.at?, Res.wr]

end Pdffit.C48
