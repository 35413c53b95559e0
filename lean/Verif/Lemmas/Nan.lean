import Verif.Model.Nan
import Verif.Lemmas.RefineLive

/-! Arithmetic with NaN; the elimination and the normal equations. -/

namespace Pdffit.Nan
open Nm
set_option linter.unusedSectionVars false

namespace Nm
variable {K : Type}

@[simp] theorem zero_def [Zero K] : (0 : Nm K) = num 0 := rfl
@[simp] theorem one_def [One K] : (1 : Nm K) = num 1 := rfl
@[simp] theorem num_add [Add K] (x y : K) : num x + num y = num (x + y) := rfl
@[simp] theorem num_sub [Sub K] (x y : K) : num x - num y = num (x - y) := rfl
@[simp] theorem num_mul [Mul K] (x y : K) : num x * num y = num (x * y) := rfl
@[simp] theorem num_div [Div K] (x y : K) : num x / num y = num (x / y) := rfl
@[simp] theorem nan_add [Add K] (x : Nm K) : nan + x = nan := rfl
@[simp] theorem add_nan [Add K] (x : Nm K) : x + nan = nan := by cases x <;> rfl
@[simp] theorem nan_sub [Sub K] (x : Nm K) : nan - x = nan := rfl
@[simp] theorem sub_nan [Sub K] (x : Nm K) : x - nan = nan := by cases x <;> rfl
@[simp] theorem nan_mul [Mul K] (x : Nm K) : nan * x = nan := rfl
@[simp] theorem mul_nan [Mul K] (x : Nm K) : x * nan = nan := by cases x <;> rfl
@[simp] theorem nan_div [Div K] (x : Nm K) : nan / x = nan := rfl
@[simp] theorem div_nan [Div K] (x : Nm K) : x / nan = nan := by cases x <;> rfl
@[simp] theorem fabs_num [Lattice K] [AddGroup K] (x : K) : fabs (num x) = num |x| := rfl
@[simp] theorem fabs_nan [Lattice K] [AddGroup K] : fabs (nan : Nm K) = nan := rfl
@[simp] theorem num_lt [LT K] (x y : K) : num x < num y ↔ x < y := Iff.rfl
@[simp] theorem num_le [LE K] (x y : K) : num x ≤ num y ↔ x ≤ y := Iff.rfl
@[simp] theorem nan_lt [LT K] (x : Nm K) : ¬ nan < x := fun h => h
@[simp] theorem lt_nan [LT K] (x : Nm K) : ¬ x < nan := by cases x <;> exact fun h => h
@[simp] theorem nan_le [LE K] (x : Nm K) : ¬ nan ≤ x := fun h => h
@[simp] theorem le_nan [LE K] (x : Nm K) : ¬ x ≤ nan := by cases x <;> exact fun h => h

end Nm

variable {K W : Type} [Field K] [LinearOrder K]

/-! ## Elimination -/

/-- Matrix of numbers. -/
def liftM {n m : ℕ} (a : Matrix (Fin n) (Fin m) K) : Matrix (Fin n) (Fin m) (Nm K) := fun i j => num (a i j)

theorem foldl_id {α β : Type*} (f : α → β → α) (l : List β) (s : α) (h : ∀ x ∈ l, f s x = s) : l.foldl f s = s := by
  induction l with
  | nil => rfl
  | cons x l ih =>
    rw [List.foldl_cons, h x (List.mem_cons_self ..)]
    exact ih fun y hy => h y (List.mem_cons_of_mem _ hy)

theorem gjSearch_nan {n : ℕ} (a : Matrix (Fin n) (Fin n) (Nm K)) (ipiv : Fin n → ℕ) (init)
    (h : ∀ j k, ipiv j ≠ 1 → ipiv k = 0 → a j k = nan) : gjSearch a ipiv init = (0, init) := by
  unfold gjSearch
  refine foldl_id _ _ _ fun j _ => ?_
  split_ifs with hj
  · refine foldl_id _ _ _ fun k _ => ?_
    split_ifs with hk hle
    · rw [h j k hj hk] at hle
      exact absurd hle (by simp)
    · rfl
    · rfl
  · rfl

/-- A matrix of NaN is reported as singular. -/
theorem gaussj_nan {n m : ℕ} (hn : 0 < n) (a : Matrix (Fin n) (Fin n) (Nm K)) (b : Matrix (Fin n) (Fin m) (Nm K))
    (h : ∀ j k, a j k = nan) : gaussj a b = .err .calculation := by
  obtain ⟨k, rfl⟩ : ∃ k, n = k + 1 := ⟨n - 1, by omega⟩
  unfold gaussj gjLoop gjStep
  rw [gjSearch_nan _ _ _ fun j k _ _ => h j k]
  rfl

open Classical in
theorem gjSearch_lift {n : ℕ} (a : Matrix (Fin n) (Fin n) K) (ipiv : Fin n → ℕ) (init) :
    gjSearch (liftM a) ipiv init = (num (Pdffit.gjSearch a ipiv init).1, (Pdffit.gjSearch a ipiv init).2) := by
  unfold gjSearch Pdffit.gjSearch
  have inner : ∀ (j : Fin n) (l : List (Fin n)) (s : K × Option (Fin n × Fin n)),
      l.foldl (fun (s : Nm K × Option (Fin n × Fin n)) k =>
        if ipiv k = 0 then if s.1 ≤ fabs (liftM a j k) then (fabs (liftM a j k), some (j, k)) else s else s) (num s.1, s.2) =
      (num (l.foldl (fun (s : K × Option (Fin n × Fin n)) k =>
        if ipiv k = 0 then if |a j k| ≥ s.1 then (|a j k|, some (j, k)) else s else s) s).1,
       (l.foldl (fun (s : K × Option (Fin n × Fin n)) k =>
        if ipiv k = 0 then if |a j k| ≥ s.1 then (|a j k|, some (j, k)) else s else s) s).2) := by
    intro j l
    induction l with
    | nil => intro s; rfl
    | cons k l ih =>
      intro s
      rw [List.foldl_cons, List.foldl_cons, ← ih]
      congr 1
      by_cases hk : ipiv k = 0
      · simp only [hk, if_true, liftM, fabs_num, num_le, ge_iff_le]
        split_ifs <;> rfl
      · simp only [hk, if_false]
  have outer : ∀ (l : List (Fin n)) (s : K × Option (Fin n × Fin n)),
      l.foldl (fun (s : Nm K × Option (Fin n × Fin n)) j => if ipiv j ≠ 1 then (List.finRange n).foldl (fun s k =>
        if ipiv k = 0 then if s.1 ≤ fabs (liftM a j k) then (fabs (liftM a j k), some (j, k)) else s else s) s else s) (num s.1, s.2) =
      (num (l.foldl (fun (s : K × Option (Fin n × Fin n)) j => if ipiv j ≠ 1 then (List.finRange n).foldl (fun s k =>
        if ipiv k = 0 then if |a j k| ≥ s.1 then (|a j k|, some (j, k)) else s else s) s else s) s).1,
       (l.foldl (fun (s : K × Option (Fin n × Fin n)) j => if ipiv j ≠ 1 then (List.finRange n).foldl (fun s k =>
        if ipiv k = 0 then if |a j k| ≥ s.1 then (|a j k|, some (j, k)) else s else s) s else s) s).2) := by
    intro l
    induction l with
    | nil => intro s; rfl
    | cons j l ih =>
      intro s
      rw [List.foldl_cons, List.foldl_cons, ← ih]
      congr 1
      by_cases hj : ipiv j ≠ 1
      · rw [if_pos hj, if_pos hj, inner]
      · rw [if_neg hj, if_neg hj]
  exact outer _ (0, init)

/-- The state `s` with NaN has the matrix and the bookkeeping of the state `t`. -/
structure SameA {n m m' : ℕ} (s : GJ n m (Nm K)) (t : GJ n m' K) : Prop where
  a : s.a = liftM t.a
  ipiv : s.ipiv = t.ipiv
  piv : s.piv = t.piv
  idx : s.idx = t.idx

theorem swap_lift {n k : ℕ} (x : Matrix (Fin n) (Fin k) K) (r c : Fin n) :
    gjSwapRows (liftM x) r c = liftM (Pdffit.gjSwapRows x r c) := rfl

theorem reduceA_lift {n : ℕ} (a : Matrix (Fin n) (Fin n) K) (c : Fin n) : gjReduceA (liftM a) c = liftM (Pdffit.gjReduceA a c) := by
  funext i j
  unfold gjReduceA Pdffit.gjReduceA liftM
  dsimp only
  split_ifs <;> simp

theorem reduceB_lift {n m : ℕ} (a : Matrix (Fin n) (Fin n) K) (b : Matrix (Fin n) (Fin m) K) (c : Fin n) :
    gjReduceB (liftM a) (liftM b) c = liftM (Pdffit.gjReduceB a b c) := by
  funext i j
  unfold gjReduceB Pdffit.gjReduceB liftM
  dsimp only
  split_ifs <;> simp

theorem unscramble_lift {n : ℕ} (l : List (Fin n × Fin n)) : ∀ a : Matrix (Fin n) (Fin n) K,
    gjUnscramble (liftM a) l = liftM (Pdffit.gjUnscramble a l) := by
  induction l with
  | nil => intro a; rfl
  | cons rc l ih => intro a; exact ih _

/-- One pass on a matrix of numbers, whatever the right-hand sides are. -/
theorem gjStep_lift {n m m' : ℕ} (s : GJ n m (Nm K)) (t : GJ n m' K) (h : SameA s t) :
    match Pdffit.gjStep t with
    | .ok t' => ∃ s', gjStep s = .ok s' ∧ SameA s' t' ∧ (∀ b : Matrix (Fin n) (Fin m') K, (∃ hm : m = m', s.b = hm ▸ liftM t.b) →
        ∃ hm : m = m', s'.b = hm ▸ liftM t'.b) ∧ ((∀ i j, s.b i j = nan) → ∀ i j, s'.b i j = nan)
    | .err e => gjStep s = .err e
    | .ub => gjStep s = .err .calculation := by
  obtain ⟨a, b, ipiv, piv, idx⟩ := s
  obtain ⟨h1, h2, h3, h4⟩ := h
  dsimp only at h1 h2 h3 h4
  subst h1 h2 h3 h4
  unfold Pdffit.gjStep gjStep
  dsimp only
  rw [gjSearch_lift]
  dsimp only
  rcases hs : (Pdffit.gjSearch t.a t.ipiv t.piv).2 with _ | ⟨r, c⟩
  · rfl
  · dsimp only
    rw [swap_lift]
    by_cases hz : Pdffit.gjSwapRows t.a r c c c = 0
    · rw [if_pos hz]
      dsimp only
      rw [if_pos (by unfold liftM; rw [hz]; rfl)]
    · rw [if_neg hz]
      dsimp only
      rw [if_neg (by unfold liftM; intro hn; exact hz (by simpa using hn))]
      refine ⟨_, rfl, ⟨reduceA_lift _ _, rfl, rfl, rfl⟩, ?_, ?_⟩
      · rintro _ ⟨rfl, hb⟩
        refine ⟨rfl, ?_⟩
        dsimp only at hb ⊢
        rw [hb, swap_lift, reduceB_lift]
      · intro hb i j
        dsimp only at hb ⊢
        have hb' : ∀ i j, gjSwapRows b r c i j = nan := fun i j => hb _ _
        unfold gjReduceB
        simp only [hb']
        split_ifs <;> simp

theorem gjLoop_lift {n m m' : ℕ} : ∀ (k : ℕ) (s : GJ n m (Nm K)) (t : GJ n m' K), SameA s t →
    match Pdffit.gjLoop k t with
    | .ok t' => ∃ s', gjLoop k s = .ok s' ∧ SameA s' t' ∧ ((∃ hm : m = m', s.b = hm ▸ liftM t.b) →
        ∃ hm : m = m', s'.b = hm ▸ liftM t'.b) ∧ ((∀ i j, s.b i j = nan) → ∀ i j, s'.b i j = nan)
    | .err e => gjLoop k s = .err e
    | .ub => gjLoop k s = .err .calculation := by
  intro k
  induction k with
  | zero => intro s t h; exact ⟨s, rfl, h, id, id⟩
  | succ k ih =>
    intro s t h
    have h1 := gjStep_lift s t h
    unfold Pdffit.gjLoop gjLoop
    rcases ht : Pdffit.gjStep t with t' | e | _
    · rw [ht] at h1
      obtain ⟨s', e1, e2, e3, e4⟩ := h1
      have h2 := ih s' t' e2
      rw [e1]
      show match Pdffit.gjLoop k t' with
        | .ok t' => ∃ s'', gjLoop k s' = .ok s'' ∧ SameA s'' t' ∧ ((∃ hm : m = m', s.b = hm ▸ liftM t.b) →
            ∃ hm : m = m', s''.b = hm ▸ liftM t'.b) ∧ ((∀ i j, s.b i j = nan) → ∀ i j, s''.b i j = nan)
        | .err e => gjLoop k s' = .err e
        | .ub => gjLoop k s' = .err .calculation
      rcases hl : Pdffit.gjLoop k t' with u | e | _
      · rw [hl] at h2
        obtain ⟨s'', f1, f2, f3, f4⟩ := h2
        exact ⟨s'', f1, f2, fun hb => f3 (e3 0 hb), fun hb => f4 (e4 hb)⟩
      · rw [hl] at h2; exact h2
      · rw [hl] at h2; exact h2
    · rw [ht] at h1
      rw [h1]; rfl
    · rw [ht] at h1
      rw [h1]; rfl

/-- The inverse of a matrix of numbers is that of the numbers, whatever the right-hand sides are; right-hand sides of NaN stay NaN. -/
theorem gaussj_lift [IsStrictOrderedRing K] {n m : ℕ} (A : Matrix (Fin n) (Fin n) K) (b : Matrix (Fin n) (Fin m) (Nm K)) (hd : A.det ≠ 0) :
    ∃ A' X, gaussj (liftM A) b = .ok (liftM A', X) ∧ A * A' = 1 ∧ ((∀ i j, b i j = nan) → ∀ i j, X i j = nan) := by
  rcases C13.C13_gaussj_inverts_or_reports_singular A (0 : Matrix (Fin n) (Fin m) K) with ⟨h, _⟩ | ⟨_, A', X, hg, h1, -, -⟩
  · exact absurd h hd
  · have hl := gjLoop_lift n (GJ.mk (liftM A) b (fun _ => 0) none []) (GJ.mk A (0 : Matrix (Fin n) (Fin m) K) (fun _ => 0) none [])
      ⟨rfl, rfl, rfl, rfl⟩
    unfold Pdffit.gaussj at hg
    unfold gaussj
    rcases ht : Pdffit.gjLoop n (GJ.mk A (0 : Matrix (Fin n) (Fin m) K) (fun _ => 0) none []) with t | e | _
    · rw [ht] at hl hg
      obtain ⟨s, e1, e2, -, e4⟩ := hl
      rw [e1]
      dsimp only at hg ⊢
      injection hg with hg
      injection hg with hg1 hg2
      refine ⟨A', s.b, ?_, h1, e4⟩
      rw [e2.a, e2.idx, unscramble_lift, hg1]
    · rw [ht] at hg; simp at hg
    · rw [ht] at hg; simp at hg

/-- On numbers `gaussj` is that of `Model/Gaussj.lean`. -/
theorem gaussj_num [IsStrictOrderedRing K] {n m : ℕ} (A : Matrix (Fin n) (Fin n) K) (B : Matrix (Fin n) (Fin m) K) :
    gaussj (liftM A) (liftM B) = match Pdffit.gaussj A B with
      | .ok x => .ok (liftM x.1, liftM x.2)
      | .err e => .err e
      | .ub => .ub := by
  have hl := gjLoop_lift n (GJ.mk (liftM A) (liftM B) (fun _ => 0) none []) (GJ.mk A B (fun _ => 0) none []) ⟨rfl, rfl, rfl, rfl⟩
  have hu : Pdffit.gaussj A B ≠ .ub := by
    rcases C13.C13_gaussj_inverts_or_reports_singular A B with ⟨_, h⟩ | ⟨_, A', X, h, _⟩ <;> rw [h] <;> simp
  unfold Pdffit.gaussj at hu ⊢
  unfold gaussj
  rcases ht : Pdffit.gjLoop n (GJ.mk A B (fun _ => 0) none []) with t | e | _
  · rw [ht] at hl
    obtain ⟨s, e1, e2, e3, -⟩ := hl
    rw [e1]
    obtain ⟨hm, hb⟩ := e3 ⟨rfl, rfl⟩
    have hb : s.b = liftM t.b := hb
    dsimp only
    rw [e2.a, e2.idx, unscramble_lift, hb]
  · rw [ht] at hl
    rw [hl]
  · rw [ht] at hu
    exact absurd rfl hu

end Pdffit.Nan
