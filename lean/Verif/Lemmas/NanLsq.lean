import Verif.Lemmas.Nan
import Verif.Lemmas.Matrix

/-! Normal equations with NaN. -/

namespace Pdffit.Nan
open Nm
set_option linter.unusedSectionVars false
variable {K W : Type} [Field K] [LinearOrder K]

theorem accRow_fst (ia : ℕ → Bool) (d : ℕ → Nm K) (wt : Nm K) (j : ℕ) (al) (n : ℕ) :
    (accRow ia d wt j al n).1 = nfree ia n := by
  induction n with
  | zero => rfl
  | succ n ih => simp only [accRow, nfree]; split <;> simp [ih]

theorem accRow_other (ia : ℕ → Bool) (d : ℕ → Nm K) (wt : Nm K) (j : ℕ) (al) (n r c : ℕ)
    (h : r ≠ j ∨ nfree ia n ≤ c) : (accRow ia d wt j al n).2 r c = al r c := by
  induction n with
  | zero => rfl
  | succ n ih =>
    simp only [accRow]
    split
    · rename_i hn
      simp only [nfree, hn, if_true] at h
      have hne : ¬ (r = j ∧ c = nfree ia n) := by omega
      simp only [accRow_fst, upd2, hne, if_false]
      exact ih (by omega)
    · rename_i hn
      simp only [nfree, hn] at h
      exact ih (by simpa using h)

theorem accRow_free (ia : ℕ → Bool) (d : ℕ → Nm K) (wt : Nm K) (j : ℕ) (al) (n m : ℕ)
    (hm : m < n) (hf : ia m = true) :
    (accRow ia d wt j al n).2 j (nfree ia m) = al j (nfree ia m) + wt * d m := by
  induction n with
  | zero => omega
  | succ n ih =>
    simp only [accRow]
    by_cases hmn : m = n
    · subst hmn
      simp only [hf, if_true, accRow_fst, upd2, and_self]
      rw [accRow_other _ _ _ _ _ _ _ _ (Or.inr (le_refl _))]
    · have hlt : m < n := by omega
      split
      · have h1 := nfree_lt ia hlt hf
        simp only [accRow_fst, upd2]
        rw [if_neg (by omega)]
        exact ih hlt
      · exact ih hlt

theorem accPoint_fst (ia : ℕ → Bool) (pt : Pt (Nm K)) (al be) (n : ℕ) :
    (accPoint ia pt al be n).1 = nfree ia n := by
  induction n with
  | zero => rfl
  | succ n ih => simp only [accPoint, nfree]; split <;> simp [ih]

theorem accPoint_other (ia : ℕ → Bool) (pt : Pt (Nm K)) (al be) (n r c : ℕ)
    (h : nfree ia n ≤ r) : (accPoint ia pt al be n).2.1 r c = al r c := by
  induction n with
  | zero => rfl
  | succ n ih =>
    simp only [accPoint]
    split
    · rename_i hn
      simp only [nfree, hn, if_true] at h
      simp only [accPoint_fst]
      rw [accRow_other _ _ _ _ _ _ _ _ (Or.inl (by omega))]
      exact ih (by omega)
    · rename_i hn
      exact ih (by simpa [nfree, hn] using h)

theorem accPoint_beta_other (ia : ℕ → Bool) (pt : Pt (Nm K)) (al be) (n r : ℕ)
    (h : nfree ia n ≤ r) : (accPoint ia pt al be n).2.2 r = be r := by
  induction n with
  | zero => rfl
  | succ n ih =>
    simp only [accPoint]
    split
    · rename_i hn
      simp only [nfree, hn, if_true] at h
      simp only [accPoint_fst, upd]
      rw [if_neg (by omega)]
      exact ih (by omega)
    · rename_i hn
      exact ih (by simpa [nfree, hn] using h)

/-- one point adds `w d_l d_m` in row `rank l`, column `rank m`, for free `m ≤ l`. -/
theorem accPoint_free (ia : ℕ → Bool) (pt : Pt (Nm K)) (al be) (n l m : ℕ)
    (hl : l < n) (hml : m ≤ l) (fl : ia l = true) (fm : ia m = true) :
    (accPoint ia pt al be n).2.1 (nfree ia l) (nfree ia m) =
      al (nfree ia l) (nfree ia m) + pt.d l * pt.w * pt.d m := by
  induction n with
  | zero => omega
  | succ n ih =>
    simp only [accPoint]
    by_cases hln : l = n
    · subst hln
      simp only [fl, if_true, accPoint_fst]
      rw [accRow_free _ _ _ _ _ _ _ (by omega) fm, accPoint_other _ _ _ _ _ _ _ (le_refl _)]
    · have hlt : l < n := by omega
      split
      · have h1 := nfree_lt ia hlt fl
        simp only [accPoint_fst]
        rw [accRow_other _ _ _ _ _ _ _ _ (Or.inl (by omega))]
        exact ih hlt
      · exact ih hlt

theorem accPoint_beta (ia : ℕ → Bool) (pt : Pt (Nm K)) (al be) (n l : ℕ)
    (hl : l < n) (fl : ia l = true) :
    (accPoint ia pt al be n).2.2 (nfree ia l) =
      be (nfree ia l) + (pt.obs - pt.mod) * (pt.d l * pt.w) := by
  induction n with
  | zero => omega
  | succ n ih =>
    simp only [accPoint]
    by_cases hln : l = n
    · subst hln
      simp only [fl, if_true, accPoint_fst, upd]
      rw [accPoint_beta_other _ _ _ _ _ _ (le_refl _)]
    · have hlt : l < n := by omega
      split
      · have h1 := nfree_lt ia hlt fl
        simp only [accPoint_fst, upd]
        rw [if_neg (by omega)]
        exact ih hlt
      · exact ih hlt

/-! ## Sums -/

theorem foldl_nan {α : Type} (f : α → Nm K) : ∀ (l : List α) (s : Nm K), (s = nan ∨ ∃ x ∈ l, f x = nan) → l.foldl (fun s x => s + f x) s = nan := by
  intro l
  induction l with
  | nil =>
    rintro s (h | ⟨x, h, -⟩)
    · exact h
    · simp at h
  | cons y l ih =>
    rintro s (h | ⟨x, h, hx⟩)
    · exact ih _ (.inl (by rw [h]; simp))
    · rcases List.mem_cons.1 h with rfl | h
      · exact ih _ (.inl (by dsimp only; rw [hx]; simp))
      · exact ih _ (.inr ⟨x, h, hx⟩)

theorem foldl_num {α : Type} (f : α → Nm K) (g : α → K) : ∀ (l : List α) (s : K), (∀ x ∈ l, f x = num (g x)) →
    l.foldl (fun s x => s + f x) (num s) = num (s + (l.map g).sum) := by
  intro l
  induction l with
  | nil => intro s _; simp
  | cons y l ih =>
    intro s h
    rw [List.foldl_cons, h y (by simp), num_add, ih _ fun x hx => h x (by simp [hx]), List.map_cons, List.sum_cons, add_assoc]

theorem foldPts_free (ia : ℕ → Bool) (n l m : ℕ) (hl : l < n) (hml : m ≤ l) (fl : ia l = true) (fm : ia m = true) (pts : List (Pt (Nm K))) :
    ∀ s : (ℕ → ℕ → Nm K) × (ℕ → Nm K), (pts.foldl (fun s pt => (accPoint ia pt s.1 s.2 n).2) s).1 (nfree ia l) (nfree ia m) =
      pts.foldl (fun x pt => x + pt.d l * pt.w * pt.d m) (s.1 (nfree ia l) (nfree ia m)) := by
  induction pts with
  | nil => intro s; rfl
  | cons p ps ih =>
    intro s
    rw [List.foldl_cons, ih, accPoint_free ia p _ _ n l m hl hml fl fm, List.foldl_cons]

theorem foldPts_beta (ia : ℕ → Bool) (n l : ℕ) (hl : l < n) (fl : ia l = true) (pts : List (Pt (Nm K))) :
    ∀ s : (ℕ → ℕ → Nm K) × (ℕ → Nm K), (pts.foldl (fun s pt => (accPoint ia pt s.1 s.2 n).2) s).2 (nfree ia l) =
      pts.foldl (fun x pt => x + (pt.obs - pt.mod) * (pt.d l * pt.w)) (s.2 (nfree ia l)) := by
  induction pts with
  | nil => intro s; rfl
  | cons p ps ih =>
    intro s
    rw [List.foldl_cons, ih, accPoint_beta ia p _ _ n l hl fl, List.foldl_cons]

theorem mrqAcc_beta (ia : ℕ → Bool) (ma) (dss : List (List (Pt (Nm K)))) (al be) (l : ℕ) (hl : l < ma) (fl : ia l = true) :
    (mrqAcc ia ma dss al be).2.1 (nfree ia l) = dss.flatten.foldl (fun x pt => x + (pt.obs - pt.mod) * (pt.d l * pt.w)) (num 0) := by
  have h2 := nfree_lt ia hl fl
  simp only [mrqAcc]
  rw [foldPts_beta ia ma l hl fl]
  dsimp only
  rw [if_pos h2]
  rfl

theorem mrqAcc_alpha_lower (ia : ℕ → Bool) (ma) (dss : List (List (Pt (Nm K)))) (al be) (l m : ℕ)
    (hl : l < ma) (hml : m ≤ l) (fl : ia l = true) (fm : ia m = true) :
    (mrqAcc ia ma dss al be).1 (nfree ia l) (nfree ia m) = dss.flatten.foldl (fun x pt => x + pt.d l * pt.w * pt.d m) (num 0) := by
  have h1 := nfree_mono ia hml
  have h2 := nfree_lt ia hl fl
  simp only [mrqAcc]
  rw [if_neg (by omega), foldPts_free ia ma l m hl hml fl fm]
  dsimp only
  rw [if_pos ⟨h2, h1⟩]
  rfl

theorem mrqAcc_alpha_upper (ia : ℕ → Bool) (ma) (dss : List (List (Pt (Nm K)))) (al be) (l m : ℕ)
    (hm : m < ma) (hml : l < m) (fl : ia l = true) (fm : ia m = true) :
    (mrqAcc ia ma dss al be).1 (nfree ia l) (nfree ia m) = (mrqAcc ia ma dss al be).1 (nfree ia m) (nfree ia l) := by
  have h1 := nfree_lt ia hml fl
  have h2 := nfree_lt ia hm fm
  simp only [mrqAcc]
  rw [if_pos ⟨h1, h2⟩, if_neg (by omega)]

/-- One point that makes every entry of the curvature matrix NaN. -/
def Spoils (ia : ℕ → Bool) (ma : ℕ) (pt : Pt (Nm K)) : Prop := pt.w = nan ∨ ∀ l, l < ma → ia l = true → pt.d l = nan

theorem mrqAcc_alpha_nan (ia : ℕ → Bool) (ma) (dss : List (List (Pt (Nm K)))) (al be) (h : ∃ pt ∈ dss.flatten, Spoils ia ma pt) (j k : ℕ)
    (hj : j < nfree ia ma) (hk : k < nfree ia ma) : (mrqAcc ia ma dss al be).1 j k = nan := by
  obtain ⟨l, hl, fl, rfl⟩ := nfree_surj ia hj
  obtain ⟨m, hm, fm, rfl⟩ := nfree_surj ia hk
  have low : ∀ l m, l < ma → m ≤ l → ia l = true → ia m = true → (mrqAcc ia ma dss al be).1 (nfree ia l) (nfree ia m) = nan := by
    intro l m hl hml fl fm
    rw [mrqAcc_alpha_lower ia ma dss al be l m hl hml fl fm]
    obtain ⟨pt, hp, hs⟩ := h
    refine foldl_nan _ _ _ (.inr ⟨pt, hp, ?_⟩)
    rcases hs with hs | hs
    · rw [hs]; simp
    · rw [hs l hl fl]; simp
  by_cases h : m ≤ l
  · exact low l m hl h fl fm
  · rw [mrqAcc_alpha_upper ia ma dss al be l m hm (by omega) fl fm]
    exact low m l hm (by omega) fm fl

theorem mrqAcc_beta_nan (ia : ℕ → Bool) (ma) (dss : List (List (Pt (Nm K)))) (al be) (h : ∃ pt ∈ dss.flatten, pt.obs = nan) (j : ℕ)
    (hj : j < nfree ia ma) : (mrqAcc ia ma dss al be).2.1 j = nan := by
  obtain ⟨l, hl, fl, rfl⟩ := nfree_surj ia hj
  rw [mrqAcc_beta ia ma dss al be l hl fl]
  obtain ⟨pt, hp, hs⟩ := h
  refine foldl_nan _ _ _ (.inr ⟨pt, hp, ?_⟩)
  rw [hs]; simp

/-- The weights and derivatives of the points `ps` are the numbers of `qs`. -/
def SameWD (ps : List (Pt (Nm K))) (qs : List (Pt K)) : Prop := List.Forall₂ (fun p q => p.w = num q.w ∧ ∀ m, p.d m = num (q.d m)) ps qs

theorem foldl_WD (l m : ℕ) : ∀ (ps : List (Pt (Nm K))) (qs : List (Pt K)) (s : K), SameWD ps qs →
    ps.foldl (fun x pt => x + pt.d l * pt.w * pt.d m) (num s) = num (s + (qs.map fun pt => pt.w * pt.d l * pt.d m).sum) := by
  intro ps qs s h
  induction h generalizing s with
  | nil => simp
  | cons h _ ih =>
    rw [List.foldl_cons, h.1, h.2, h.2, num_mul, num_mul, num_add, ih, List.map_cons, List.sum_cons]
    congr 1; ring

theorem mrqAcc_alpha_num (ia : ℕ → Bool) (ma) (dss : List (List (Pt (Nm K)))) (qs : List (List (Pt K))) (al be)
    (h : SameWD dss.flatten qs.flatten) (l m : ℕ) (hl : l < ma) (hm : m < ma) (fl : ia l = true) (fm : ia m = true) :
    (mrqAcc ia ma dss al be).1 (nfree ia l) (nfree ia m) = num (qs.flatten.map fun pt => pt.w * pt.d l * pt.d m).sum := by
  have low : ∀ l m, l < ma → m ≤ l → ia l = true → ia m = true →
      (mrqAcc ia ma dss al be).1 (nfree ia l) (nfree ia m) = num (qs.flatten.map fun pt => pt.w * pt.d l * pt.d m).sum := by
    intro l m hl hml fl fm
    rw [mrqAcc_alpha_lower ia ma dss al be l m hl hml fl fm, foldl_WD l m _ _ _ h, zero_add]
  by_cases hml : m ≤ l
  · exact low l m hl hml fl fm
  · rw [mrqAcc_alpha_upper ia ma dss al be l m hm (by omega) fl fm, low m l hm (by omega) fm fl]
    congr 2
    exact List.map_congr_left fun p _ => by ring

theorem last_cum : ∀ (ps : List (Pt (Nm K))) (s : Nm K), (cumChisq s ps).getLast?.getD s = ps.foldl (fun x p => x + contrib p) s := by
  intro ps
  induction ps with
  | nil => intro s; rfl
  | cons p ps ih =>
    intro s
    rw [List.foldl_cons, ← ih]
    show ((s + contrib p) :: cumChisq (s + contrib p) ps).getLast?.getD s = _
    rw [List.getLast?_cons]
    rfl

theorem mrqAcc_chisq (ia : ℕ → Bool) (ma) (dss : List (List (Pt (Nm K)))) (al be) :
    (mrqAcc ia ma dss al be).2.2.1 = dss.foldl (fun c l => c + l.foldl (fun x p => x + contrib p) 0) 0 := by
  simp only [mrqAcc, List.foldl_map, lastOr0, last_cum]

theorem mrqAcc_chisq_nan (ia : ℕ → Bool) (ma) (dss : List (List (Pt (Nm K)))) (al be) (h : ∃ pt ∈ dss.flatten, contrib pt = nan) :
    (mrqAcc ia ma dss al be).2.2.1 = nan := by
  rw [mrqAcc_chisq]
  obtain ⟨pt, hp, hn⟩ := h
  obtain ⟨l, hl, hpl⟩ := List.mem_flatten.1 hp
  exact foldl_nan _ _ _ (.inr ⟨l, hl, foldl_nan _ _ _ (.inr ⟨pt, hpl, hn⟩)⟩)

/-! ## Derivatives with respect to the parameters -/

/-- The product of two matrices of matching sizes; a NaN in a row of the first makes the row of the product NaN. -/
theorem mul_nan_row (a b : Mat (Nm K)) (ha : a.WF) (hb : b.WF) (hc : a.cols = b.rows) :
    ∃ c, Mat.mul a b = .ok c ∧ c.rows = a.rows ∧ c.cols = b.cols ∧ c.WF ∧
      ∀ i k, i < a.rows → k < a.cols → a.get i k = .ok nan → ∀ j, j < b.cols → c.get i j = .ok nan := by
  have inner : ∀ i j, ∃ c : Nm K, i < a.rows → j < b.cols → Res.forN a.cols (fun k c => do
      let x ← a.get i k
      let y ← b.get k j
      .ok (c + x * y)) 0 = .ok c ∧ ((∃ k < a.cols, a.get i k = .ok nan) → c = nan) := by
    intro i j
    by_cases hi : i < a.rows
    swap
    · exact ⟨0, fun h => absurd h hi⟩
    by_cases hj : j < b.cols
    swap
    · exact ⟨0, fun _ h => absurd h hj⟩
    obtain ⟨c, h1, h2⟩ := Res.forN_inv (fun (n : ℕ) (c : Nm K) => (∃ k < n, a.get i k = .ok nan) → c = nan) a.cols
      (fun k c => do
        let x ← a.get i k
        let y ← b.get k j
        .ok (c + x * y)) 0 (by rintro ⟨k, hk, _⟩; omega) (by
        intro k c hk h
        obtain ⟨x, hx, -⟩ := Mat.get_ok ha hi hk
        obtain ⟨y, hy, -⟩ := Mat.get_ok hb (show k < b.rows by omega) hj
        refine ⟨c + x * y, ?_, ?_⟩
        · rw [hx, hy]; rfl
        · rintro ⟨q, hq, hn⟩
          by_cases hqk : q = k
          · subst hqk
            rw [hx] at hn
            injection hn with hn
            rw [hn]; simp
          · rw [h ⟨q, by omega, hn⟩]; simp)
    exact ⟨c, fun _ _ => ⟨h1, h2⟩⟩
  choose val hval using inner
  obtain ⟨d, h1, h2, h3, -⟩ := fill2 b.cols a.rows b.cols (Mat.zeros a.rows b.cols).data le_rfl (by simp [Mat.zeros])
    (fun i j d => do
        let c ← Res.forN a.cols (fun k c => do
          let x ← a.get i k
          let y ← b.get k j
          .ok (c + x * y)) 0
        Res.wr d (i * b.cols + j) c) val (by
      intro i j d hi hj
      rw [(hval i j hi hj).1]; rfl)
  refine ⟨⟨a.rows, b.cols, d⟩, ?_, rfl, rfl, ?_, ?_⟩
  · unfold Mat.mul
    rw [if_neg (not_not.2 hc)]
    have h1' : Res.forN a.rows (fun i d => Res.forN b.cols (fun j d => do
        let c ← Res.forN a.cols (fun k c => do
          let x ← a.get i k
          let y ← b.get k j
          .ok (c + x * y)) 0
        Res.wr d (i * b.cols + j) c) d) (Mat.zeros a.rows b.cols).data = .ok d := h1
    rw [h1']; rfl
  · show d.length = _
    rw [h2]; simp [Mat.zeros]
  · intro i k hi hk hn j hj
    have h := h3 i j hi hj
    rw [(hval i j hi hj).2 ⟨k, hk, hn⟩] at h
    exact at?_some h

end Pdffit.Nan

