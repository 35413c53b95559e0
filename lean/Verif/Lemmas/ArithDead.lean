import Verif.Lemmas.Arith
import Verif.Lemmas.Lsq
import Mathlib.Data.Fintype.Card

/-! A parameter without influence, in any arithmetic in which zero absorbs. -/

namespace Pdffit.Any
open Arith
set_option linter.unusedSectionVars false
variable {F W : Type} [Arith F]

/-- The laws of zero. They hold with any rounding that keeps zero, fused or not, and fail for infinities and NaN. -/
structure Absorb (F : Type) [Arith F] : Prop where
  zmul : ∀ x : F, mul zero x = zero
  mulz : ∀ x : F, mul x zero = zero
  zmadd : ∀ x : F, madd zero zero x = zero
  maddz : ∀ x : F, madd zero x zero = zero
  zmsub : ∀ x : F, msub zero zero x = zero
  msubz : ∀ x : F, msub zero x zero = zero
  refl : eq (zero : F) zero = true
  abs : ∀ x : F, le zero (fabs x) = true

/-! ### The search -/

theorem foldl_reach {α σ : Type} (f : σ → α → σ) (P R : σ → Prop) (x0 : α) (hP : ∀ s x, P s → P (f s x) ∨ R (f s x)) (hR : ∀ s x, R s → R (f s x))
    (h0 : ∀ s, P s → R (f s x0)) : ∀ (l : List α), x0 ∈ l → ∀ s, P s ∨ R s → R (l.foldl f s) := by
  have keep : ∀ (l : List α) s, R s → R (l.foldl f s) := by
    intro l
    induction l with
    | nil => intro s h; exact h
    | cons x l ih => intro s h; exact ih _ (hR s x h)
  intro l
  induction l with
  | nil => intro h; simp at h
  | cons x l ih =>
    intro hm s hs
    rcases List.mem_cons.1 hm with rfl | hm
    · exact keep l _ (hs.elim (h0 s) (hR s _))
    · exact ih hm _ (hs.elim (hP s x) fun h => .inr (hR s x h))

theorem foldl_keep {α σ : Type} (f : σ → α → σ) (P : σ → Prop) (hP : ∀ s x, P s → P (f s x)) : ∀ (l : List α) s, P s → P (l.foldl f s) := by
  intro l
  induction l with
  | nil => intro s h; exact h
  | cons x l ih => intro s h; exact ih _ (hP s x h)

/-- As long as a column is unused, the search finds an unused column. -/
theorem gjSearch_fresh (ha : Absorb F) {n : ℕ} (a : Matrix (Fin n) (Fin n) F) (ipiv : Fin n → ℕ) (init) (i : Fin n) (hi : ipiv i = 0) :
    ∃ r c, (gjSearch a ipiv init).2 = some (r, c) ∧ ipiv c = 0 := by
  let P : F × Option (Fin n × Fin n) → Prop := fun s => s.1 = zero
  let R : F × Option (Fin n × Fin n) → Prop := fun s => ∃ r c, s.2 = some (r, c) ∧ ipiv c = 0
  let g : Fin n → F × Option (Fin n × Fin n) → Fin n → F × Option (Fin n × Fin n) := fun j s k =>
    if ipiv k = 0 then if le s.1 (fabs (a j k)) then (fabs (a j k), some (j, k)) else s else s
  have gR : ∀ j s k, R s → R (g j s k) := by
    intro j s k h
    show R (if _ then _ else _)
    split
    · rename_i hk
      split
      · exact ⟨j, k, rfl, hk⟩
      · exact h
    · exact h
  have gP : ∀ j s k, P s → P (g j s k) ∨ R (g j s k) := by
    intro j s k h
    show P (if _ then _ else _) ∨ R (if _ then _ else _)
    split
    · rename_i hk
      split
      · exact .inr ⟨j, k, rfl, hk⟩
      · exact .inl h
    · exact .inl h
  have g0 : ∀ j s, P s → R (g j s i) := by
    intro j s h
    have h : s.1 = zero := h
    show R (if _ then _ else _)
    rw [if_pos hi, h, if_pos (ha.abs _)]
    exact ⟨j, i, rfl, hi⟩
  have hrow : ∀ j s, P s ∨ R s → R ((List.finRange n).foldl (g j) s) := fun j s => foldl_reach (g j) P R i (gP j) (gR j) (g0 j) _ (List.mem_finRange i) s
  exact foldl_reach (fun s j => if ipiv j ≠ 1 then (List.finRange n).foldl (g j) s else s) P R i
    (by
      intro s j h
      split
      · exact .inr (hrow j s (.inl h))
      · exact .inl h)
    (by
      intro s j h
      split
      · exact hrow j s (.inr h)
      · exact h)
    (by
      intro s h
      rw [if_pos (by omega)]
      exact hrow i s (.inl h))
    _ (List.mem_finRange i) (zero, init) (.inl rfl)

/-- Row and column `i` are zero and column `i` is unused. -/
structure Dead {n m : ℕ} (i : Fin n) (s : GJ n m F) : Prop where
  row : ∀ l, s.a i l = zero
  col : ∀ l, s.a l i = zero
  new : s.ipiv i = 0

theorem gjStep_dead (ha : Absorb F) {n m : ℕ} (i : Fin n) (s : GJ n m F) (h : Dead i s) :
    gjStep s = .err .calculation ∨ ∃ s' c, gjStep s = .ok s' ∧ Dead i s' ∧ s.ipiv c = 0 ∧ ∀ k, s'.ipiv k = if k = c then s.ipiv k + 1 else s.ipiv k := by
  obtain ⟨r, c, hs, hc⟩ := gjSearch_fresh ha s.a s.ipiv s.piv i h.new
  unfold gjStep
  rw [hs]
  dsimp only
  split
  · exact .inl rfl
  · rename_i hne
    right
    have hcc : gjSwapRows s.a r c c c = s.a r c := by unfold gjSwapRows; rw [Equiv.swap_apply_right]
    rw [hcc] at hne
    have hri : i ≠ r := by rintro rfl; rw [h.row] at hne; exact hne ha.refl
    have hci : i ≠ c := by rintro rfl; rw [h.col] at hne; exact hne ha.refl
    refine ⟨_, c, rfl, ⟨fun l => ?_, fun l => ?_, ?_⟩, hc, fun k => rfl⟩
    · have hrow : ∀ l, gjSwapRows s.a r c i l = zero := by
        intro l; unfold gjSwapRows; rw [Equiv.swap_apply_of_ne_of_ne hri hci]; exact h.row l
      show gjReduceA (gjSwapRows s.a r c) c i l = zero
      unfold gjReduceA
      dsimp only
      rw [if_neg hci, hrow, hrow, ite_self]
      exact ha.msubz _
    · have hcol : ∀ l, gjSwapRows s.a r c l i = zero := fun l => h.col _
      show gjReduceA (gjSwapRows s.a r c) c l i = zero
      unfold gjReduceA
      dsimp only
      rw [hcol, hcol, if_neg hci, if_neg hci, ha.zmul, ha.zmsub, ite_self]
    · show (if i = c then s.ipiv i + 1 else s.ipiv i) = 0
      rw [if_neg hci]
      exact h.new

theorem gjLoop_dead (ha : Absorb F) {n m : ℕ} (i : Fin n) (k : ℕ) : ∀ s : GJ n m F, Dead i s →
    (Finset.univ.filter fun c => s.ipiv c = 0).card = k → gjLoop k s = .err .calculation := by
  induction k with
  | zero =>
    intro s h hk
    rw [Finset.card_eq_zero] at hk
    have : i ∈ Finset.univ.filter fun c => s.ipiv c = 0 := by simp [h.new]
    rw [hk] at this
    simp at this
  | succ k ih =>
    intro s h hk
    rw [gjLoop]
    rcases gjStep_dead ha i s h with h1 | ⟨s', c, h1, h2, h3, h4⟩
    · rw [h1]; rfl
    · rw [h1]
      refine ih s' h2 ?_
      have : (Finset.univ.filter fun d => s'.ipiv d = 0) = (Finset.univ.filter fun d => s.ipiv d = 0).erase c := by
        ext d
        simp only [Finset.mem_filter, Finset.mem_univ, true_and, Finset.mem_erase, h4]
        by_cases hd : d = c
        · simp [hd]
        · simp [hd]
      rw [this, Finset.card_erase_of_mem (by simp [h3]), hk]
      rfl

/-- A matrix with a zero row and the same column zero is reported. -/
theorem gaussj_dead (ha : Absorb F) {n m : ℕ} (a : Matrix (Fin n) (Fin n) F) (b : Matrix (Fin n) (Fin m) F) (i : Fin n)
    (hr : ∀ l, a i l = zero) (hc : ∀ l, a l i = zero) : gaussj a b = .err .calculation := by
  unfold gaussj
  rw [gjLoop_dead ha i n (GJ.mk a b (fun _ => 0) none []) ⟨hr, hc, rfl⟩ (by simp)]

theorem solveNormal_dead (ha : Absorb F) (mfit : ℕ) (m : ℕ → ℕ → F) (be : ℕ → F) (cov) (da) (i : ℕ) (hi : i < mfit)
    (hr : ∀ l < mfit, m i l = zero) (hc : ∀ l < mfit, m l i = zero) : solveNormal mfit m be cov da = .err .calculation := by
  have h := gaussj_dead ha (n := mfit) (m := 1) (fun i j => m i j) (fun i _ => be i) ⟨i, hi⟩ (fun l => hr l l.2) (fun l => hc l l.2)
  unfold solveNormal
  split
  · rename_i h1; exact absurd (h.symm.trans h1) (by simp)
  · rename_i h1; cases h1.symm.trans h; rfl
  · rename_i h1; exact absurd (h.symm.trans h1) (by simp)

/-! ### The sums -/

/-- Row and column `p` of the lower triangle of size `N` are zero. -/
def Void (N p : ℕ) (al : ℕ → ℕ → F) : Prop := ∀ r c, c ≤ r → r < N → (r = p ∨ c = p) → al r c = zero

theorem accRow_fst (ia : ℕ → Bool) (d : ℕ → F) (wt j al) (m : ℕ) : (accRow ia d wt j al m).1 = nfree ia m := by
  induction m with
  | zero => rfl
  | succ m ih =>
    rw [accRow, nfree]
    split <;> simp [ih]

theorem accPoint_fst (ia : ℕ → Bool) (pt : Pt F) (al be) (l : ℕ) : (accPoint ia pt al be l).1 = nfree ia l := by
  induction l with
  | zero => rfl
  | succ l ih =>
    rw [accPoint, nfree]
    dsimp only
    split <;> simp [ih]

theorem accRow_void {N : ℕ} (ha : Absorb F) (ia : ℕ → Bool) (d : ℕ → F) (wt : F) (l i : ℕ) (hl : ia l = true) (hi : ia i = true)
    (hz : wt = zero ∨ (l ≠ i ∧ d i = zero)) (al) (h : Void N (nfree ia i) al) (m : ℕ) (hm : m ≤ l + 1) :
    Void N (nfree ia i) (accRow ia d wt (nfree ia l) al m).2 := by
  induction m with
  | zero => exact h
  | succ m ih =>
    have ih := ih (by omega)
    have h1 := accRow_fst ia d wt (nfree ia l) al m
    rw [accRow]
    split
    · rename_i hfm
      intro r c hcr hN hp
      show upd2 _ _ _ _ r c = zero
      unfold upd2
      split
      · rename_i hrc
        obtain ⟨rfl, rfl⟩ := hrc
        rw [ih _ _ hcr hN hp]
        rcases hz with rfl | ⟨hli, hd⟩
        · exact ha.zmadd _
        · rcases hp with hp | hp
          · exact absurd (nfree_inj ia hl hi hp) hli
          · rw [h1] at hp
            rw [nfree_inj ia hfm hi hp, hd]
            exact ha.maddz _
      · exact ih r c hcr hN hp
    · exact ih

theorem accPoint_void {N : ℕ} (ha : Absorb F) (ia : ℕ → Bool) (pt : Pt F) (i : ℕ) (hi : ia i = true) (hz : pt.w = zero ∨ pt.d i = zero) (al be)
    (h : Void N (nfree ia i) al) (l : ℕ) : Void N (nfree ia i) (accPoint ia pt al be l).2.1 := by
  induction l with
  | zero => exact h
  | succ l ih =>
    have h1 := accPoint_fst ia pt al be l
    rw [accPoint]
    dsimp only
    split
    · rename_i hfl
      dsimp only
      rw [h1]
      refine accRow_void ha ia pt.d _ l i hfl hi ?_ _ ih (l + 1) (le_refl _)
      rcases hz with hz | hz
      · left; rw [hz]; exact ha.mulz _
      · by_cases hli : l = i
        · left; rw [hli, hz]; exact ha.zmul _
        · exact .inr ⟨hli, hz⟩
    · exact ih

/-- The curvature of a parameter without influence. -/
theorem mrqAcc_void (ha : Absorb F) (ia : ℕ → Bool) (ma : ℕ) (dss : List (List (Pt F))) (i : ℕ) (hi : ia i = true)
    (hz : ∀ pt ∈ dss.flatten, pt.w = zero ∨ pt.d i = zero) (alpha be) :
    ∀ k, k < nfree ia ma → nfree ia i < nfree ia ma → (mrqAcc ia ma dss alpha be).1 (nfree ia i) k = zero ∧ (mrqAcc ia ma dss alpha be).1 k (nfree ia i) = zero := by
  have key : ∀ (l : List (Pt F)), (∀ pt ∈ l, pt.w = zero ∨ pt.d i = zero) → ∀ s : (ℕ → ℕ → F) × (ℕ → F), Void (nfree ia ma) (nfree ia i) s.1 →
      Void (nfree ia ma) (nfree ia i) (l.foldl (fun s pt => (accPoint ia pt s.1 s.2 ma).2) s).1 := by
    intro l
    induction l with
    | nil => intro _ s h; exact h
    | cons pt l ih =>
      intro hz s h
      exact ih (fun q hq => hz q (List.mem_cons_of_mem _ hq)) _ (accPoint_void ha ia pt i hi (hz pt List.mem_cons_self) s.1 s.2 h ma)
  intro k hk hp
  unfold mrqAcc
  dsimp only
  generalize hs : List.foldl (fun s pt => (accPoint ia pt s.1 s.2 ma).2) _ dss.flatten = ab
  have hv : Void (nfree ia ma) (nfree ia i) ab.1 := by
    rw [← hs]
    refine key _ hz _ fun r c h1 h2 _ => ?_
    dsimp only
    rw [if_pos ⟨h2, h1⟩]
  constructor
  · split
    · exact hv _ _ (by omega) hk (.inr rfl)
    · exact hv _ _ (by omega) hp (.inl rfl)
  · split
    · exact hv _ _ (by omega) hp (.inl rfl)
    · exact hv _ _ (by omega) hk (.inr rfl)

/-- A free parameter without influence is reported in the first call. -/
theorem refineStep_dead (ha : Absorb F) (hneg : lt (minusOne : F) zero = true) (th : Theory F W) (toler : F) (s : Statics F) (e : Eng F W)
    (hfresh : ¬(s.fitRunning = true ∧ e.iter ≠ 0)) (w w' : W) (hset : th.setup e.par e.world = (w, none)) (hev : th.eval e.par w = (w', none))
    (i : ℕ) (hi : i < e.par.p.length) (hfree : e.par.ip.getD i false = true) (hz : ∀ pt ∈ (th.pts w').flatten, pt.w = zero ∨ pt.d i = zero) :
    (refineStep th toler s e).2.2 = .exc .calculation := by
  unfold refineStep
  rw [if_neg hfresh]
  dsimp only
  rw [hset]
  dsimp only
  unfold refineBody
  rw [if_pos (.inl (by simp))]
  unfold mrqmin
  rw [if_pos hneg]
  set e0 : Eng F W := { e with iter := 0, alambda := minusOne, stagnating := 0, chisq := th.dmax, world := w, ochisq := th.dmax } with he0
  have hp : (setP { e0 with alambda := thousandth } (arr { e0 with alambda := thousandth })).par = e.par := setP_self { e0 with alambda := thousandth }
  have hcof : ∃ e2, mrqcof th { e0 with alambda := thousandth } (arr { e0 with alambda := thousandth }) e0.alpha (fun _ => zero) =
      (e2, .ok ((mrqAcc (ia e) (ma e) (th.pts w') e0.alpha (fun _ => zero)).1, (mrqAcc (ia e) (ma e) (th.pts w') e0.alpha (fun _ => zero)).2.1)) ∧ e2.par = e.par := by
    unfold mrqcof
    dsimp only
    have hw : (setP { e0 with alambda := thousandth } (arr { e0 with alambda := thousandth })).world = w := rfl
    rw [hp, hw, hev]
    dsimp only
    have h1 : ia (setP { e0 with alambda := thousandth } (arr { e0 with alambda := thousandth })) = ia e := by unfold ia; rw [hp]
    have h2 : ma (setP { e0 with alambda := thousandth } (arr { e0 with alambda := thousandth })) = ma e := by unfold ma; rw [hp]
    rw [h1, h2]
    exact ⟨_, rfl, rfl⟩
  obtain ⟨e2, h2, h3⟩ := hcof
  have hin : ∃ wk e1, mrqInit th s.work e0 = (wk, e1, none) ∧ wk.mfit = nfree (ia e) (ma e) ∧
      e1.alpha = (mrqAcc (ia e) (ma e) (th.pts w') e0.alpha (fun _ => zero)).1 := by
    unfold mrqInit
    dsimp only
    rw [h2]
    exact ⟨_, _, rfl, rfl, rfl⟩
  obtain ⟨wk, e1, h4, h5, h6⟩ := hin
  rw [h4]
  dsimp only
  have hlt : nfree (ia e) i < nfree (ia e) (ma e) := nfree_lt (ia e) hi hfree
  have hv := mrqAcc_void ha (ia e) (ma e) (th.pts w') i hfree hz e0.alpha (fun _ => zero)
  have hs : solveNormal wk.mfit (augmented e1) wk.beta e1.covar wk.da = .err .calculation := by
    rw [h5]
    refine solveNormal_dead ha _ _ _ _ _ (nfree (ia e) i) hlt ?_ ?_
    · intro l hl
      show augmented e1 (nfree (ia e) i) l = zero
      unfold augmented
      rw [h6, (hv _ hlt hlt).1, (hv l hl hlt).1, ha.zmul, ite_self]
    · intro l hl
      show augmented e1 l (nfree (ia e) i) = zero
      unfold augmented
      rw [h6]
      split
      · rename_i he
        rw [he, (hv _ hlt hlt).1, ha.zmul]
      · exact (hv l hl hlt).2
  unfold mrqTry
  rw [hs]

theorem refineLoop_exc (th : Theory F W) (toler : F) (n : ℕ) (s : Statics F) (e : Eng F W) {x} (h : (refineStep th toler s e).2.2 = .exc x) :
    (refineLoop th toler (n + 1) (s, e)).2 = (.exc x, 1) := by
  rw [refineLoop.eq_def]
  dsimp only
  rw [h]

/-- A matrix of two rows whose entries are all `g`. -/
theorem gaussj_twins (h0 : ∀ x : F, le zero (fabs x) = true) (hr : ∀ x : F, le x x = true) (g : F) (hg : eq g zero = false) (b : Matrix (Fin 2) (Fin 1) F) :
    gaussj (n := 2) (m := 1) (fun _ _ => g) b = .err .calculation ↔ eq (msub g (mul g (div one g)) g) zero = true := by
  have h1 : (gjSearch (F := F) (fun (_ _ : Fin 2) => g) (fun _ => 0) none).2 = some (1, 1) := by
    simp [gjSearch, List.finRange_succ, h0, hr]
  have h2 : ∀ (a : Matrix (Fin 2) (Fin 2) F), (gjSearch a (fun k => if k = 1 then 0 + 1 else 0) (some (1, 1))).2 = some (0, 0) := by
    intro a
    simp [gjSearch, List.finRange_succ, h0]
  have hst : gjStep (GJ.mk (fun _ _ => g) b (fun _ => 0) none []) = .ok (GJ.mk (gjReduceA (n := 2) (fun _ _ => g) 1) (gjReduceB (fun _ _ => g) b 1)
      (fun k => if k = 1 then 0 + 1 else 0) (some (1, 1)) [(1, 1)]) := by
    have hsw : gjSwapRows b 1 1 = b := by funext i j; unfold gjSwapRows; rw [Equiv.swap_self]; rfl
    have hsa : gjSwapRows (fun (_ _ : Fin 2) => g) 1 1 = fun _ _ => g := rfl
    unfold gjStep
    dsimp only
    rw [h1]
    dsimp only
    rw [hsw, hsa, if_neg (by simp [hg])]
  have h00 : gjReduceA (n := 2) (fun _ _ => g) 1 0 0 = msub g (mul g (div one g)) g := by
    unfold gjReduceA
    simp
  have hsw0 : ∀ (a : Matrix (Fin 2) (Fin 2) F), gjSwapRows a 0 0 = a := by intro a; funext i j; unfold gjSwapRows; rw [Equiv.swap_self]; rfl
  have hl : gjLoop 2 (GJ.mk (fun _ _ => g) b (fun _ => 0) none []) = gjStep (GJ.mk (gjReduceA (n := 2) (fun _ _ => g) 1) (gjReduceB (fun _ _ => g) b 1)
      (fun k => if k = 1 then 0 + 1 else 0) (some (1, 1)) [(1, 1)]) >>= gjLoop 0 := by
    rw [gjLoop, hst]
    rfl
  by_cases ht : eq (msub g (mul g (div one g)) g) zero = true
  · have : gjStep (GJ.mk (gjReduceA (n := 2) (fun _ _ => g) 1) (gjReduceB (fun _ _ => g) b 1)
      (fun k => if k = 1 then 0 + 1 else 0) (some (1, 1)) [(1, 1)]) = .err .calculation := by
      unfold gjStep
      dsimp only
      rw [h2]
      dsimp only
      rw [hsw0, h00, if_pos ht]
    rw [this] at hl
    unfold gaussj
    rw [hl]
    exact ⟨fun _ => ht, fun _ => rfl⟩
  · have : ∃ s, gjStep (GJ.mk (gjReduceA (n := 2) (fun _ _ => g) 1) (gjReduceB (fun _ _ => g) b 1)
      (fun k => if k = 1 then 0 + 1 else 0) (some (1, 1)) [(1, 1)]) = .ok s := by
      unfold gjStep
      dsimp only
      rw [h2]
      dsimp only
      rw [hsw0, h00, if_neg ht]
      exact ⟨_, rfl⟩
    obtain ⟨s, hs⟩ := this
    rw [hs] at hl
    unfold gaussj
    rw [hl]
    exact ⟨fun h => (nomatch h), fun h => absurd h ht⟩

end Pdffit.Any
