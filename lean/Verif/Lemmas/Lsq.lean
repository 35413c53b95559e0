import Verif.Model.Lsq
import Mathlib.Algebra.BigOperators.Group.List.Basic
import Mathlib.Tactic.Ring
import Mathlib.Tactic.Linarith

namespace Pdffit
variable {K : Type} [Field K]

theorem nfree_le (ia : Nat → Bool) (l : Nat) : nfree ia l ≤ l := by
  induction l with
  | zero => simp [nfree]
  | succ l ih => simp only [nfree]; split <;> omega

theorem nfree_mono (ia : Nat → Bool) {l m : Nat} (h : l ≤ m) : nfree ia l ≤ nfree ia m := by
  induction h with
  | refl => exact le_refl _
  | step _ ih => simp only [nfree]; split <;> omega

theorem nfree_lt (ia : Nat → Bool) {l m : Nat} (h : l < m) (hl : ia l = true) :
    nfree ia l < nfree ia m := by
  have h1 : nfree ia (l+1) ≤ nfree ia m := nfree_mono ia h
  simp only [nfree, hl, if_true] at h1
  omega

theorem nfree_inj (ia : Nat → Bool) {l m : Nat} (hl : ia l = true) (hm : ia m = true)
    (h : nfree ia l = nfree ia m) : l = m := by
  rcases Nat.lt_trichotomy l m with h' | h' | h'
  · have := nfree_lt ia h' hl; omega
  · exact h'
  · have := nfree_lt ia h' hm; omega

/-- every compact index below `nfree ia n` is the rank of a free parameter. -/
theorem nfree_surj (ia : Nat → Bool) {n j : Nat} (h : j < nfree ia n) :
    ∃ l, l < n ∧ ia l = true ∧ nfree ia l = j := by
  induction n with
  | zero => simp [nfree] at h
  | succ n ih =>
    simp only [nfree] at h
    split at h
    · rename_i hn
      by_cases hj : j < nfree ia n
      · obtain ⟨l, h1, h2, h3⟩ := ih hj
        exact ⟨l, by omega, h2, h3⟩
      · exact ⟨n, by omega, hn, by omega⟩
    · obtain ⟨l, h1, h2, h3⟩ := ih h
      exact ⟨l, by omega, h2, h3⟩

theorem accRow_fst (ia : Nat → Bool) (d : Nat → K) (wt : K) (j : Nat) (al) (n : Nat) :
    (accRow ia d wt j al n).1 = nfree ia n := by
  induction n with
  | zero => rfl
  | succ n ih => simp only [accRow, nfree]; split <;> simp [ih]

theorem accRow_other (ia : Nat → Bool) (d : Nat → K) (wt : K) (j : Nat) (al) (n r c : Nat)
    (h : r ≠ j ∨ nfree ia n ≤ c) : (accRow ia d wt j al n).2 r c = al r c := by
  induction n with
  | zero => rfl
  | succ n ih =>
    simp only [accRow]
    split
    · rename_i hn
      simp only [nfree, hn, if_true] at h
      have hne : ¬ (r = j ∧ c = nfree ia n) := by omega
      simp only [accRow_fst, upd2, hne, if_false]
      exact ih (by omega)
    · rename_i hn
      simp only [nfree, hn] at h
      exact ih (by simpa using h)

theorem accRow_free (ia : Nat → Bool) (d : Nat → K) (wt : K) (j : Nat) (al) (n m : Nat)
    (hm : m < n) (hf : ia m = true) :
    (accRow ia d wt j al n).2 j (nfree ia m) = al j (nfree ia m) + wt * d m := by
  induction n with
  | zero => omega
  | succ n ih =>
    simp only [accRow]
    by_cases hmn : m = n
    · subst hmn
      simp only [hf, if_true, accRow_fst, upd2, and_self]
      rw [accRow_other _ _ _ _ _ _ _ _ (Or.inr (le_refl _))]
    · have hlt : m < n := by omega
      split
      · have h1 := nfree_lt ia hlt hf
        simp only [accRow_fst, upd2]
        rw [if_neg (by omega)]
        exact ih hlt
      · exact ih hlt

theorem accPoint_fst (ia : Nat → Bool) (pt : Pt K) (al be) (n : Nat) :
    (accPoint ia pt al be n).1 = nfree ia n := by
  induction n with
  | zero => rfl
  | succ n ih => simp only [accPoint, nfree]; split <;> simp [ih]

theorem accPoint_other (ia : Nat → Bool) (pt : Pt K) (al be) (n r c : Nat)
    (h : nfree ia n ≤ r) : (accPoint ia pt al be n).2.1 r c = al r c := by
  induction n with
  | zero => rfl
  | succ n ih =>
    simp only [accPoint]
    split
    · rename_i hn
      simp only [nfree, hn, if_true] at h
      simp only [accPoint_fst]
      rw [accRow_other _ _ _ _ _ _ _ _ (Or.inl (by omega))]
      exact ih (by omega)
    · rename_i hn
      exact ih (by simpa [nfree, hn] using h)

theorem accPoint_beta_other (ia : Nat → Bool) (pt : Pt K) (al be) (n r : Nat)
    (h : nfree ia n ≤ r) : (accPoint ia pt al be n).2.2 r = be r := by
  induction n with
  | zero => rfl
  | succ n ih =>
    simp only [accPoint]
    split
    · rename_i hn
      simp only [nfree, hn, if_true] at h
      simp only [accPoint_fst, upd]
      rw [if_neg (by omega)]
      exact ih (by omega)
    · rename_i hn
      exact ih (by simpa [nfree, hn] using h)

/-- one point adds `w d_l d_m` in row `rank l`, column `rank m`, for free `m ≤ l`. -/
theorem accPoint_free (ia : Nat → Bool) (pt : Pt K) (al be) (n l m : Nat)
    (hl : l < n) (hml : m ≤ l) (fl : ia l = true) (fm : ia m = true) :
    (accPoint ia pt al be n).2.1 (nfree ia l) (nfree ia m) =
      al (nfree ia l) (nfree ia m) + pt.d l * pt.w * pt.d m := by
  induction n with
  | zero => omega
  | succ n ih =>
    simp only [accPoint]
    by_cases hln : l = n
    · subst hln
      simp only [fl, if_true, accPoint_fst]
      rw [accRow_free _ _ _ _ _ _ _ (by omega) fm, accPoint_other _ _ _ _ _ _ _ (le_refl _)]
    · have hlt : l < n := by omega
      split
      · have h1 := nfree_lt ia hlt fl
        simp only [accPoint_fst]
        rw [accRow_other _ _ _ _ _ _ _ _ (Or.inl (by omega))]
        exact ih hlt
      · exact ih hlt

theorem accPoint_beta (ia : Nat → Bool) (pt : Pt K) (al be) (n l : Nat)
    (hl : l < n) (fl : ia l = true) :
    (accPoint ia pt al be n).2.2 (nfree ia l) =
      be (nfree ia l) + (pt.obs - pt.mod) * (pt.d l * pt.w) := by
  induction n with
  | zero => omega
  | succ n ih =>
    simp only [accPoint]
    by_cases hln : l = n
    · subst hln
      simp only [fl, if_true, accPoint_fst, upd]
      rw [accPoint_beta_other _ _ _ _ _ _ (le_refl _)]
    · have hlt : l < n := by omega
      split
      · have h1 := nfree_lt ia hlt fl
        simp only [accPoint_fst, upd]
        rw [if_neg (by omega)]
        exact ih hlt
      · exact ih hlt

theorem foldPts_free (ia : Nat → Bool) (n l m : Nat)
    (hl : l < n) (hml : m ≤ l) (fl : ia l = true) (fm : ia m = true) (pts : List (Pt K)) :
    ∀ s : (Nat → Nat → K) × (Nat → K),
    (pts.foldl (fun s pt => (accPoint ia pt s.1 s.2 n).2) s).1 (nfree ia l) (nfree ia m) =
      s.1 (nfree ia l) (nfree ia m) + (pts.map fun pt => pt.w * pt.d l * pt.d m).sum := by
  induction pts with
  | nil => intro s; simp
  | cons p ps ih =>
    intro s
    rw [List.foldl_cons, ih, accPoint_free ia p _ _ n l m hl hml fl fm, List.map_cons,
      List.sum_cons]
    ring

theorem foldPts_beta (ia : Nat → Bool) (n l : Nat)
    (hl : l < n) (fl : ia l = true) (pts : List (Pt K)) :
    ∀ s : (Nat → Nat → K) × (Nat → K),
    (pts.foldl (fun s pt => (accPoint ia pt s.1 s.2 n).2) s).2 (nfree ia l) =
      s.2 (nfree ia l) + (pts.map fun pt => pt.w * (pt.obs - pt.mod) * pt.d l).sum := by
  induction pts with
  | nil => intro s; simp
  | cons p ps ih =>
    intro s
    rw [List.foldl_cons, ih, accPoint_beta ia p _ _ n l hl fl, List.map_cons,
      List.sum_cons]
    ring

theorem lastOr0_nil : lastOr0 ([] : List K) = 0 := rfl

theorem cumChisq_length (prev : K) (l : List (Pt K)) : (cumChisq prev l).length = l.length := by
  induction l generalizing prev with
  | nil => rfl
  | cons p ps ih => simp [cumChisq, ih]

theorem cumChisq_getElem? (prev : K) (l : List (Pt K)) (i : Nat) (h : i < l.length) :
    (cumChisq prev l)[i]? = some (prev + ((l.take (i+1)).map contrib).sum) := by
  induction l generalizing prev i with
  | nil => simp at h
  | cons p ps ih =>
    cases i with
    | zero => simp [cumChisq]
    | succ i =>
      simp only [cumChisq, List.getElem?_cons_succ]
      rw [ih _ _ (by simpa using h)]
      simp [add_assoc]

theorem lastOr0_cumChisq (l : List (Pt K)) : lastOr0 (cumChisq 0 l) = (l.map contrib).sum := by
  by_cases h : l = []
  · subst h; simp [cumChisq, lastOr0]
  · have hl : 0 < l.length := List.length_pos_iff.2 h
    unfold lastOr0
    rw [List.getLast?_eq_getElem?, cumChisq_length, cumChisq_getElem? _ _ _ (by omega)]
    rw [Nat.sub_add_cancel hl, List.take_length]
    simp

theorem foldl_add_map {α : Type} (f : α → K) (l : List α) (c : K) :
    l.foldl (fun c x => c + f x) c = c + (l.map f).sum := by
  induction l generalizing c with
  | nil => simp
  | cons a l ih => simp [ih, add_assoc]

theorem mrqAcc_chisq (ia : Nat → Bool) (ma) (dss : List (List (Pt K))) (al be) :
    (mrqAcc ia ma dss al be).2.2.1 = (dss.flatten.map contrib).sum := by
  simp only [mrqAcc, foldl_add_map, zero_add, List.map_map]
  induction dss with
  | nil => simp
  | cons a l ih => simp [ih, lastOr0_cumChisq]

theorem mrqAcc_alpha_lower (ia : Nat → Bool) (ma) (dss : List (List (Pt K))) (al be) (l m : Nat)
    (hl : l < ma) (hml : m ≤ l) (fl : ia l = true) (fm : ia m = true) :
    (mrqAcc ia ma dss al be).1 (nfree ia l) (nfree ia m) =
      (dss.flatten.map fun pt => pt.w * pt.d l * pt.d m).sum := by
  have h1 := nfree_mono ia hml
  have h2 := nfree_lt ia hl fl
  simp only [mrqAcc]
  rw [if_neg (by omega), foldPts_free ia ma l m hl hml fl fm]
  simp [h1, h2]

theorem mrqAcc_alpha (ia : Nat → Bool) (ma) (dss : List (List (Pt K))) (al be) (l m : Nat)
    (hl : l < ma) (hm : m < ma) (fl : ia l = true) (fm : ia m = true) :
    (mrqAcc ia ma dss al be).1 (nfree ia l) (nfree ia m) =
      (dss.flatten.map fun pt => pt.w * pt.d l * pt.d m).sum := by
  by_cases h : m ≤ l
  · exact mrqAcc_alpha_lower ia ma dss al be l m hl h fl fm
  · have h1 := nfree_lt ia (show l < m by omega) fl
    have h2 := nfree_lt ia hm fm
    have h3 := mrqAcc_alpha_lower ia ma dss al be m l hm (by omega) fm fl
    simp only [mrqAcc] at h3 ⊢
    rw [if_neg (by omega)] at h3
    rw [if_pos ⟨h1, h2⟩, h3]
    congr 1
    apply List.map_congr_left
    intro p _; ring

theorem mrqAcc_beta (ia : Nat → Bool) (ma) (dss : List (List (Pt K))) (al be) (l : Nat)
    (hl : l < ma) (fl : ia l = true) :
    (mrqAcc ia ma dss al be).2.1 (nfree ia l) =
      (dss.flatten.map fun pt => pt.w * (pt.obs - pt.mod) * pt.d l).sum := by
  have h2 := nfree_lt ia hl fl
  simp only [mrqAcc]
  rw [foldPts_beta ia ma l hl fl]
  simp [h2]

/-! ### covsrt -/

/-- Source index during the backward loop: positions at or above `j` hold their final
content; those below hold the compact content. -/
def covSrc (ia : Nat → Bool) (ma j : Nat) (i : Nat) : Option Nat :=
  if i < j then (if i < nfree ia j then some i else none)
  else if i < ma ∧ ia i = true then some (nfree ia i) else none

def covGet (c : Nat → Nat → K) (a b : Option Nat) : K :=
  match a, b with
  | some i, some j => c i j
  | _, _ => 0

theorem covSrc_swap (ia : Nat → Bool) (ma j i : Nat) (hj : j < ma) (hf : ia j = true)
    (hi : i < ma) :
    covSrc ia ma (j+1) (Equiv.swap (nfree ia j) j i) = covSrc ia ma j i := by
  have hle := nfree_le ia j
  unfold covSrc
  simp only [nfree, hf, if_true]
  rcases Nat.lt_trichotomy i j with h | h | h
  · by_cases hk : i = nfree ia j
    · subst hk
      rw [Equiv.swap_apply_left]
      have : ¬ (j < nfree ia j + 1) := by omega
      simp [this, h]
    · rw [Equiv.swap_apply_of_ne_of_ne hk (by omega)]
      have h1 : i < j + 1 := by omega
      simp only [h1, h, if_true]
      by_cases h2 : i < nfree ia j
      · simp [h2, show i < nfree ia j + 1 by omega]
      · simp [h2, show ¬ i < nfree ia j + 1 by omega]
  · subst h
    rw [Equiv.swap_apply_right]
    simp [show nfree ia i < i + 1 by omega, hi, hf]
  · rw [Equiv.swap_apply_of_ne_of_ne (by omega) (by omega)]
    simp [show ¬ i < j + 1 by omega, show ¬ i < j by omega]

theorem covLoop_spec (ia : Nat → Bool) (ma : Nat) (c0 : Nat → Nat → K) (j : Nat) (hj : j ≤ ma) :
    ∀ c : Nat → Nat → K,
    (∀ i l, i < ma → l < ma → c i l = covGet c0 (covSrc ia ma j i) (covSrc ia ma j l)) →
    ∃ c', covLoop ia j (nfree ia j) c = .ok c' ∧
      ∀ i l, i < ma → l < ma → c' i l = covGet c0 (covSrc ia ma 0 i) (covSrc ia ma 0 l) := by
  induction j with
  | zero => intro c hc; exact ⟨c, rfl, hc⟩
  | succ j ih =>
    intro c hc
    by_cases hf : ia j = true
    · simp only [covLoop, hf, if_true, nfree]
      apply ih (by omega)
      intro i l hi hl
      have hk : nfree ia j < ma := lt_of_le_of_lt (nfree_le ia j) (by omega)
      have sw : ∀ x, x < ma → Equiv.swap (nfree ia j) j x < ma := by
        intro x hx
        rw [Equiv.swap_apply_def]
        split
        · omega
        · split <;> omega
      simp only [covSwap]
      rw [hc _ _ (sw i hi) (sw l hl), covSrc_swap ia ma j i (by omega) hf hi,
        covSrc_swap ia ma j l (by omega) hf hl]
    · simp only [covLoop, hf]
      simp only [nfree, hf]
      apply ih (by omega)
      intro i l hi hl
      have e : ∀ x, covSrc ia ma (j+1) x = covSrc ia ma j x := by
        intro x
        have hle := nfree_le ia j
        unfold covSrc
        simp only [nfree, hf]
        rcases Nat.lt_trichotomy x j with h | h | h
        · simp [h, show x < j + 1 by omega]
        · subst h
          simp [hf, show ¬ x < nfree ia x by omega]
        · simp [show ¬ x < j + 1 by omega, show ¬ x < j by omega]
      rw [hc i l hi hl, e, e]

theorem covsrt_spec (ia : Nat → Bool) (ma : Nat) (c : Nat → Nat → K) :
    ∃ c', covsrt c ma ia (nfree ia ma) = .ok c' ∧
      ∀ i l, i < ma → l < ma →
        c' i l = if ia i = true ∧ ia l = true then c (nfree ia i) (nfree ia l) else 0 := by
  obtain ⟨c', h1, h2⟩ := covLoop_spec ia ma c ma (le_refl _) (covZero c ma (nfree ia ma)) (by
    intro i l hi hl
    unfold covSrc covZero
    rw [if_pos hi, if_pos hl]
    by_cases h1 : i < nfree ia ma <;> by_cases h2 : l < nfree ia ma
    · rw [if_neg (by omega), if_pos h1, if_pos h2]; rfl
    · rw [if_pos (by omega), if_neg h2]; simp [covGet]
    · rw [if_pos (by omega), if_neg h1]; simp [covGet]
    · rw [if_pos (by omega), if_neg h1]; simp [covGet])
  refine ⟨c', h1, fun i l hi hl => ?_⟩
  rw [h2 i l hi hl]
  unfold covSrc
  by_cases a : ia i = true <;> by_cases b : ia l = true <;> simp [a, b, hi, hl, covGet]

end Pdffit
