import Verif.Model.Matrix
import Mathlib.Algebra.Ring.Defs
import Mathlib.Algebra.BigOperators.Group.Finset.Basic
import Mathlib.Algebra.BigOperators.Intervals
import Mathlib.Tactic.Ring
import Mathlib.Tactic.Linarith

namespace Pdffit
variable {K : Type}

theorem flat_lt {i j m n : Nat} (hi : i < m) (hj : j < n) : i * n + j < m * n := by
  have : (i + 1) * n ≤ m * n := Nat.mul_le_mul_right n hi
  rw [Nat.add_mul] at this
  omega

theorem flat_inj {i j i' j' n : Nat} (hj : j < n) (hj' : j' < n)
    (h : i * n + j = i' * n + j') : i = i' ∧ j = j' := by
  have h1 : (i * n + j) / n = i := by
    rw [Nat.mul_comm, Nat.mul_add_div (by omega), Nat.div_eq_of_lt hj, Nat.add_zero]
  have h2 : (i' * n + j') / n = i' := by
    rw [Nat.mul_comm, Nat.mul_add_div (by omega), Nat.div_eq_of_lt hj', Nat.add_zero]
  have : i = i' := by rw [← h1, ← h2, h]
  subst this
  exact ⟨rfl, by omega⟩

theorem at?_some {l : List K} {i : Nat} {v : K} (h : l[i]? = some v) : Res.at? l i = .ok v := by
  simp [Res.at?, h]

theorem Mat.get_ok {a : Mat K} (h : a.WF) {i j : Nat} (hi : i < a.rows) (hj : j < a.cols) :
    ∃ v, a.get i j = .ok v ∧ a.data[i * a.cols + j]? = some v := by
  have hl : i * a.cols + j < a.data.length := by rw [h]; exact flat_lt hi hj
  exact ⟨a.data[i * a.cols + j], by simp [Mat.get, Res.at?, hl], by simp [hl]⟩

theorem wr_ok {l : List K} {i : Nat} {v : K} (h : i < l.length) : Res.wr l i v = .ok (l.set i v) := by
  simp [Res.wr, h]

/-- filling a block row by row: generic two-level write loop. -/
theorem fill2 (n m c : Nat) (d0 : List K) (hc : c ≤ n) (hm : m * n ≤ d0.length)
    (g : Nat → Nat → List K → Res (List K)) (val : Nat → Nat → K)
    (hg : ∀ i j d, i < m → j < c → g i j d = Res.wr d (i * n + j) (val i j)) :
    ∃ d, Res.forN m (fun i d => Res.forN c (fun j d => g i j d) d) d0 = .ok d ∧
      d.length = d0.length ∧
      (∀ i j, i < m → j < c → d[i * n + j]? = some (val i j)) ∧
      (∀ i j, j < n → (m ≤ i ∨ c ≤ j) → d[i * n + j]? = d0[i * n + j]?) := by
  obtain ⟨d, h1, h2, h3, h4⟩ := Res.forN_inv
    (fun (r : Nat) (d : List K) => d.length = d0.length ∧
      (∀ i j, i < r → j < c → d[i * n + j]? = some (val i j)) ∧
      (∀ i j, j < n → (r ≤ i ∨ c ≤ j) → d[i * n + j]? = d0[i * n + j]?)) m
    (fun i d => Res.forN c (fun j d => g i j d) d) d0
    ⟨rfl, by intro i j h; omega, by intros; rfl⟩ (by
      rintro r d hr ⟨g1, g2, g3⟩
      obtain ⟨d', k1, k2, k3, k4⟩ := Res.forN_inv
        (fun (q : Nat) (d' : List K) => d'.length = d0.length ∧
          (∀ j, j < q → d'[r * n + j]? = some (val r j)) ∧
          (∀ i j, j < n → (i ≠ r ∨ q ≤ j) → d'[i * n + j]? = d[i * n + j]?)) c
        (fun j d => g r j d) d ⟨g1, by intro j h; omega, by intros; rfl⟩ (by
          rintro q d' hq ⟨l1, l2, l3⟩
          have hlt : r * n + q < d'.length := by
            rw [l1]
            exact lt_of_lt_of_le (flat_lt hr (lt_of_lt_of_le hq hc)) hm
          refine ⟨d'.set (r * n + q) (val r q), ?_, ?_, ?_, ?_⟩
          · rw [hg r q d' hr hq, wr_ok hlt]
          · simp [l1]
          · intro j hj
            by_cases hjq : j = q
            · subst hjq; simp [List.getElem?_set_self hlt]
            · rw [List.getElem?_set_ne (by omega)]
              exact l2 j (by omega)
          · intro i j hj hor
            rw [List.getElem?_set_ne]
            · exact l3 i j hj (by omega)
            · intro he
              obtain ⟨e1, e2⟩ := flat_inj (lt_of_lt_of_le hq hc) hj he
              omega)
      refine ⟨d', k1, k2, ?_, ?_⟩
      · intro i j hi hj
        by_cases hir : i = r
        · subst hir; exact k3 j hj
        · rw [k4 i j (by omega) (Or.inl hir)]; exact g2 i j (by omega) hj
      · intro i j hj hor
        rw [k4 i j hj (by omega)]
        exact g3 i j hj (by omega))
  exact ⟨d, h1, h2, h3, h4⟩

end Pdffit
