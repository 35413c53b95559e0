import Verif.Model.Corr
import Verif.Props.C46
import Verif.Props.C53

/-!
# C65  The listed correlations are those of the refinement

* `C65_correlations_partial`: after a finished refinement the report lists exactly the pairs of refined parameters whose correlation
  `C i j / √(C i i * C j j)` is above 0.8 in magnitude, each once, ordered by the numbers of the parameters; the values are strictly between -1 and 1.
  This stays so if values are changed, and parameters fixed or freed afterwards (only pairs that were refined and are still free are listed).

Violations:

* `unfinished`, `unfinished_reachable`: between the steps of a first refinement all deviations are zero; then every pair with an entry in the
  scratch matrix is listed with an infinite correlation.
* `stale`: between the steps of a second refinement the matrix is the curvature and the deviations are the old ones: a correlation of 54.
* `new_parameter`: a parameter that is defined after the refinement makes the report read behind the end of the arrays.
-/

namespace Pdffit.C65
open Corr Report
open C48 (Holds)

section
variable {K : Type} [Field K] [LinearOrder K]

/-- The quotient for two positions. -/
def quo (dp : List K) (C : ℕ → ℕ → K) (i j : ℕ) : Ext K := ((Ext.fin (C i j)).div (dp.getD i 0)).div (dp.getD j 0)

theorem div_zero_num (x y : K) : ((Ext.fin 0).div x).div y = .nan ∨ ((Ext.fin 0).div x).div y = .fin 0 := by
  by_cases h1 : x = 0
  · exact Or.inl (by simp [Ext.div, h1])
  · by_cases h2 : y = 0
    · exact Or.inl (by simp [Ext.div, h1, h2])
    · exact Or.inr (by simp [Ext.div, h1, h2])

def prow (s : ParStore K) (dp : List K) (C : ℕ → ℕ → K) (i : ℕ) (js : List ℕ) : List (ℕ × ℕ × Ext K) :=
  js.filterMap fun j => if C14.free s j ∧ (quo dp C i j).big then some (s.id.getD i 0, s.id.getD j 0, quo dp C i j) else none

def prows (s : ParStore K) (dp : List K) (C : ℕ → ℕ → K) : List ℕ → List (ℕ × ℕ × Ext K)
  | [] => []
  | i :: is => (if C14.free s i then prow s dp C i is else []) ++ prows s dp C is

theorem getD_lt {α : Type} {l : List α} {i : ℕ} (h : i < l.length) {d : α} : l.getD i d = l[i] := by simp [h]

theorem at?_getD {α : Type} (l : List α) (i : ℕ) (h : i < l.length) (d : α) : Res.at? l i = .ok (l.getD i d) := by
  rw [C46.at?_lt l i h]
  simp [h]

theorem row_ok {s : ParStore K} (w : s.Wf) (dp : List K) (hd : dp.length = s.p.length) (C : ℕ → ℕ → K) {i : ℕ} (hi : i < s.id.length) :
    ∀ js : List ℕ, (∀ j ∈ js, j < s.id.length) → row s dp (covarMat s.p.length C) i js = .ok (prow s dp C i js)
  | [], _ => rfl
  | j :: js, h => by
    have hj : j < s.id.length := h j (by simp)
    have ih := row_ok w dp hd C hi js fun k hk => h k (List.mem_cons_of_mem _ hk)
    unfold row
    rw [at?_getD s.ip j (by rw [w.li]; exact hj) false, Res.bind_ok]
    have hc : (covarMat s.p.length C).get i j = .ok (C i j) :=
      (C53.covarMat_holds s.p.length C).get ⟨i, by rw [w.lp]; exact hi⟩ ⟨j, by rw [w.lp]; exact hj⟩
    unfold prow
    rw [List.filterMap_cons]
    by_cases hf : C14.free s j
    · have hf' : s.ip.getD j false = true := hf
      rw [hf', if_pos rfl, hc, Res.bind_ok, at?_getD dp i (by rw [hd, w.lp]; exact hi) 0, Res.bind_ok,
        at?_getD dp j (by rw [hd, w.lp]; exact hj) 0, Res.bind_ok, ih, Res.bind_ok]
      change (if (quo dp C i j).big then _ else _) = _
      by_cases hb : (quo dp C i j).big = true
      · rw [if_pos hb, if_pos ⟨hf, hb⟩, at?_getD s.id i hi 0, Res.bind_ok, at?_getD s.id j hj 0, Res.bind_ok]
        rfl
      · rw [if_neg hb, if_neg fun h => hb h.2]
        rfl
    · have hf' : s.ip.getD j false = false := by simpa [C14.free] using hf
      rw [hf', if_neg (by simp), if_neg fun h => hf h.1, ih]
      rfl

theorem rows_ok {s : ParStore K} (w : s.Wf) (dp : List K) (hd : dp.length = s.p.length) (C : ℕ → ℕ → K) :
    ∀ is : List ℕ, (∀ i ∈ is, i < s.id.length) → rows s dp (covarMat s.p.length C) is = .ok (prows s dp C is)
  | [], _ => rfl
  | i :: is, h => by
    have hi : i < s.id.length := h i (by simp)
    have ih := rows_ok w dp hd C is fun k hk => h k (List.mem_cons_of_mem _ hk)
    unfold rows
    rw [at?_getD s.ip i (by rw [w.li]; exact hi) false, Res.bind_ok, ih,
      row_ok w dp hd C hi is fun k hk => h k (List.mem_cons_of_mem _ hk)]
    by_cases hf : C14.free s i
    · have hf' : s.ip.getD i false = true := hf
      rw [hf', if_pos rfl, Res.bind_ok, prows, if_pos hf]
      rfl
    · have hf' : s.ip.getD i false = false := by simpa [C14.free] using hf
      rw [hf', if_neg (by simp), Res.bind_ok, prows, if_neg hf]
      rfl

theorem mem_prow (s : ParStore K) (dp : List K) (C : ℕ → ℕ → K) (i : ℕ) (js : List ℕ) (x : ℕ × ℕ × Ext K) :
    x ∈ prow s dp C i js ↔ ∃ j ∈ js, C14.free s j ∧ (quo dp C i j).big ∧ x = (s.id.getD i 0, s.id.getD j 0, quo dp C i j) := by
  unfold prow
  rw [List.mem_filterMap]
  constructor
  · rintro ⟨j, hj, h⟩
    split_ifs at h with hc
    exact ⟨j, hj, hc.1, hc.2, (Option.some.inj h).symm⟩
  · rintro ⟨j, hj, h1, h2, rfl⟩
    exact ⟨j, hj, by rw [if_pos ⟨h1, h2⟩]⟩

/-- For positions in the order of the numbers: the listed pairs. -/
theorem mem_prows (s : ParStore K) (dp : List K) (C : ℕ → ℕ → K) (x : ℕ × ℕ × Ext K) :
    ∀ is : List ℕ, (is.map fun i => s.id.getD i 0).Pairwise (· < ·) →
      (x ∈ prows s dp C is ↔ ∃ i ∈ is, ∃ j ∈ is, s.id.getD i 0 < s.id.getD j 0 ∧ C14.free s i ∧ C14.free s j ∧ (quo dp C i j).big ∧
        x = (s.id.getD i 0, s.id.getD j 0, quo dp C i j))
  | [], _ => by simp [prows]
  | i :: is, h => by
    rw [List.map_cons, List.pairwise_cons] at h
    have ih := mem_prows s dp C x is h.2
    have hlt : ∀ j ∈ is, s.id.getD i 0 < s.id.getD j 0 := fun j hj => h.1 _ (List.mem_map_of_mem hj)
    rw [prows, List.mem_append, ih]
    constructor
    · rintro (hx | ⟨a, ha, b, hb, hr⟩)
      · split_ifs at hx with hf
        · obtain ⟨j, hj, h1, h2, h3⟩ := (mem_prow _ _ _ _ _ _).1 hx
          exact ⟨i, by simp, j, by simp [hj], hlt j hj, hf, h1, h2, h3⟩
        · simp at hx
      · exact ⟨a, by simp [ha], b, by simp [hb], hr⟩
    · rintro ⟨a, ha, b, hb, hab, fa, fb, hbig, hx⟩
      rcases List.mem_cons.1 ha with rfl | ha
      · rcases List.mem_cons.1 hb with rfl | hb
        · exact absurd hab (lt_irrefl _)
        · exact Or.inl (by rw [if_pos fa]; exact (mem_prow _ _ _ _ _ _).2 ⟨b, hb, fb, hbig, hx⟩)
      · rcases List.mem_cons.1 hb with hb | hb
        · rw [hb] at hab
          exact absurd hab (lt_asymm (hlt a ha))
        · exact Or.inr ⟨a, ha, b, hb, hab, fa, fb, hbig, hx⟩

/-- Pairs in the order of their numbers. -/
def Before (x y : ℕ × ℕ × Ext K) : Prop := x.1 < y.1 ∨ (x.1 = y.1 ∧ x.2.1 < y.2.1)

theorem sorted_prows (s : ParStore K) (dp : List K) (C : ℕ → ℕ → K) :
    ∀ is : List ℕ, (is.map fun i => s.id.getD i 0).Pairwise (· < ·) → (prows s dp C is).Pairwise Before
  | [], _ => by simp [prows]
  | i :: is, h => by
    have h0 := h
    rw [List.map_cons, List.pairwise_cons] at h
    have ih := sorted_prows s dp C is h.2
    rw [prows, List.pairwise_append]
    refine ⟨?_, ih, ?_⟩
    · split_ifs with hf
      · unfold prow
        rw [List.pairwise_filterMap]
        have h2 := h.2
        rw [List.pairwise_map] at h2
        refine h2.imp ?_
        intro a b hab x hx y hy
        split_ifs at hx with h3
        split_ifs at hy with h4
        cases hx
        cases hy
        exact Or.inr ⟨rfl, hab⟩
      · simp
    · intro x hx y hy
      split_ifs at hx with hf
      · obtain ⟨j, hj, -, -, rfl⟩ := (mem_prow _ _ _ _ _ _).1 hx
        obtain ⟨a, ha, b, hb, -, -, -, -, rfl⟩ := (mem_prows s dp C y is h.2).1 hy
        exact Or.inl (h.1 _ (List.mem_map_of_mem ha))
      · simp at hx

/-- The report for arbitrary deviations and covariances of the right size. -/
theorem corrs_ok {s : ParStore K} (w : s.Wf) (dp : List K) (hd : dp.length = s.p.length) (C : ℕ → ℕ → K) :
    ∃ L, corrs s dp (covarMat s.p.length C) = .ok L ∧ L.Pairwise Before ∧
      ∀ x, x ∈ L ↔ ∃ i < s.id.length, ∃ j < s.id.length, s.id.getD i 0 < s.id.getD j 0 ∧ C14.free s i ∧ C14.free s j ∧
        (quo dp C i j).big ∧ x = (s.id.getD i 0, s.id.getD j 0, quo dp C i j) := by
  have hm : ∀ i, i ∈ orderById s.id ↔ i < s.id.length := by
    intro i
    rw [(C46.order_perm s.id).mem_iff]
    simp
  have hs : ((orderById s.id).map fun i => s.id.getD i 0).Pairwise (· < ·) := by
    have := C46.order_strict s.id w.nd
    simpa [List.getD] using this
  unfold corrs
  by_cases hn : npar s ≠ 0
  · rw [if_pos hn]
    refine ⟨_, rows_ok w dp hd C _ fun i hi => (hm i).1 hi, sorted_prows s dp C _ hs, fun x => ?_⟩
    rw [mem_prows s dp C x _ hs]
    simp only [hm]
  · rw [if_neg hn]
    refine ⟨[], rfl, List.Pairwise.nil, fun x => ?_⟩
    simp only [List.not_mem_nil, false_iff]
    rintro ⟨i, hi, j, -, -, fi, -⟩
    apply hn
    unfold npar
    unfold C14.free at fi
    have hi' : i < s.ip.length := by rw [w.li]; exact hi
    rw [getD_lt hi'] at fi
    exact (List.count_pos_iff.2 (fi ▸ List.getElem_mem hi')).ne'

end

/-- (partial) **C65** After a finished refinement: which pairs are listed, in which order, and with which value. `s` are the parameters when the report is
written; values and flags may have changed, but no parameter was added. -/
theorem C65_correlations_partial {W : Type} (th : Theory ℝ W) (hw : ∀ w, ∀ ds ∈ th.pts w, ∀ pt ∈ ds, 0 ≤ pt.w) (toler : ℝ)
    (t : Statics ℝ) (e : Eng ℝ W) (hfresh : ¬ (t.fitRunning = true ∧ e.iter ≠ 0)) (fuel : ℕ)
    (hdone : (refineLoop th toler fuel (t, e)).2.1 = .done) (s : ParStore ℝ) (ws : s.Wf)
    (hs : s.id = (refineLoop th toler fuel (t, e)).1.2.par.id) (hr : (refineLoop th toler fuel (t, e)).1.2.par.Wf) :
    let r := (refineLoop th toler fuel (t, e)).1.2
    ∃ dp L, (covarMat r.par.p.length r.covar).sd Real.sqrt = .ok dp ∧ corrs s dp (covarMat r.par.p.length r.covar) = .ok L ∧
      L.Pairwise Before ∧
      ∀ a b v, (a, b, v) ∈ L ↔ a < b ∧ ∃ i j c, s.id[i]? = some a ∧ s.id[j]? = some b ∧
        (C14.free s i ∧ C14.free s j) ∧ (C14.free r.par i ∧ C14.free r.par j) ∧ v = .fin c ∧
        c = r.covar i j / √(r.covar i i * r.covar j j) ∧ 4 / 5 < |c| ∧ |c| < 1 := by
  obtain ⟨⟨A, hA⟩, hz⟩ := C53.covar_invPSD th hw toler t e hfresh fuel hdone
  dsimp only at hA hz ⊢
  generalize (refineLoop th toler fuel (t, e)).1.2 = r at hA hz hs hr ⊢
  have hlen : r.par.p.length = s.p.length := by rw [hr.lp, ws.lp, hs]
  have hsd := C48.C48_sd Real.sqrt _ _ (C53.covarMat_holds r.par.p.length r.covar)
  rw [hlen] at hsd hA hz ⊢
  set dp := List.ofFn fun i : Fin s.p.length => Real.sqrt (r.covar i i) with hdp
  obtain ⟨L, hL, hsort, hmem⟩ := corrs_ok ws dp (by simp [hdp]) r.covar
  refine ⟨dp, L, hsd, hL, hsort, fun a b v => ?_⟩
  have hdpi : ∀ i, i < s.p.length → dp.getD i 0 = √(r.covar i i) := by
    intro i hi
    rw [hdp, getD_lt (by simpa using hi)]
    simp
  have hfr : ∀ i, i < s.p.length → C14.free r.par i → i ∈ (Finset.range s.p.length).filter (fun j => C14.free r.par j) := by
    intro i h1 h2; simp [h1, h2]
  have hq : ∀ i j, i < s.p.length → j < s.p.length → C14.free r.par i → C14.free r.par j →
      quo dp r.covar i j = .fin (r.covar i j / √(r.covar i i * r.covar j j)) := by
    intro i j hi hj fi fj
    have p1 := Real.sqrt_pos.2 (hA.diag_pos (hfr i hi fi))
    have p2 := Real.sqrt_pos.2 (hA.diag_pos (hfr j hj fj))
    unfold quo
    rw [hdpi i hi, hdpi j hj]
    simp only [Ext.div, p1.ne', p2.ne', if_false]
    rw [Real.sqrt_mul (hA.diag_pos (hfr i hi fi)).le, div_div]
  have hq0 : ∀ i j, i < s.p.length → j < s.p.length → ¬ (C14.free r.par i ∧ C14.free r.par j) → quo dp r.covar i j = .nan ∨ quo dp r.covar i j = .fin 0 := by
    intro i j hi hj hf
    unfold quo
    rw [hz i j hi hj hf]
    exact div_zero_num _ _
  rw [hmem]
  constructor
  · rintro ⟨i, hi, j, hj, hlt, fi, fj, hbig, hx⟩
    have hi' : i < s.p.length := by rw [ws.lp]; exact hi
    have hj' : j < s.p.length := by rw [ws.lp]; exact hj
    have hf : C14.free r.par i ∧ C14.free r.par j := by
      by_contra hf
      rcases hq0 i j hi' hj' hf with h0 | h0 <;> rw [h0] at hbig
      · simp [Ext.big] at hbig
      · have : ¬ ((4 : ℝ) / 5 < 0) := by norm_num
        simp [Ext.big, this] at hbig
    simp only [Prod.mk.injEq] at hx
    obtain ⟨rfl, rfl, rfl⟩ := hx
    refine ⟨hlt, i, j, _, by simp [hi], by simp [hj], ⟨fi, fj⟩, hf, hq i j hi' hj' hf.1 hf.2, rfl, ?_, ?_⟩
    · rw [hq i j hi' hj' hf.1 hf.2] at hbig
      simpa [Ext.big] using hbig
    · have hne : i ≠ j := fun e => by rw [e] at hlt; exact lt_irrefl _ hlt
      have h1 := hA.sq_lt (hfr i hi' hf.1) (hfr j hj' hf.2) hne
      have h2 : 0 < r.covar i i * r.covar j j := mul_pos (hA.diag_pos (hfr i hi' hf.1)) (hA.diag_pos (hfr j hj' hf.2))
      have h3 := Real.sqrt_pos.2 h2
      rw [abs_div, abs_of_pos h3, div_lt_one h3, ← Real.sqrt_sq_eq_abs]
      exact Real.sqrt_lt_sqrt (sq_nonneg _) h1
  · rintro ⟨hlt, i, j, c, hia, hjb, hf, hfr', rfl, rfl, hc, -⟩
    obtain ⟨hi, ea⟩ := List.getElem?_eq_some_iff.1 hia
    obtain ⟨hj, eb⟩ := List.getElem?_eq_some_iff.1 hjb
    have ea' : s.id.getD i 0 = a := by rw [getD_lt hi, ea]
    have eb' : s.id.getD j 0 = b := by rw [getD_lt hj, eb]
    have e := hq i j (by rw [ws.lp]; exact hi) (by rw [ws.lp]; exact hj) hfr'.1 hfr'.2
    refine ⟨i, hi, j, hj, by rw [ea', eb']; exact hlt, hf.1, hf.2, ?_, by rw [ea', eb', e]⟩
    rw [e]
    simpa [Ext.big] using hc

/-- `save_res` before a refinement: nothing is written, the call raises `unassignedError` (pdf.cc 918-944), and it does so only then. -/
theorem C65_before {W : Type} (e : Eng ℝ W) (w : e.par.Wf) (dp : List ℝ) (hdp : dp.length = e.par.p.length) (C : ℕ → ℕ → ℝ) :
    saveRes e dp (covarMat e.par.p.length C) = .err .unassigned ↔ e.iter = 0 := by
  unfold saveRes
  by_cases h : e.iter = 0
  · simp [h]
  · obtain ⟨L, hL, -⟩ := corrs_ok w dp hdp C
    simp [h, hL]

/-- A new fit has made no steps. -/
example : saveRes (C54.demoE 1 false : Eng ℝ _) [0] (covarMat 1 fun _ _ => 5) = .err .unassigned := by
  simp [saveRes, C54.demoE]

/-! ## Violations -/

/-- Deviations that were never computed are zero (`fit.dp.resize`, fit.cc 281): every pair of free parameters with an entry in the matrix is listed,
with an infinite correlation. -/
theorem unfinished {K : Type} [Field K] [LinearOrder K] {s : ParStore K} (w : s.Wf) (C : ℕ → ℕ → K) :
    ∃ L, corrs s (List.replicate s.p.length 0) (covarMat s.p.length C) = .ok L ∧
      ∀ a b v, (a, b, v) ∈ L ↔ a < b ∧ ∃ i j, s.id[i]? = some a ∧ s.id[j]? = some b ∧ C14.free s i ∧ C14.free s j ∧ C i j ≠ 0 ∧
        v = .inf (decide (C i j < 0)) := by
  obtain ⟨L, hL, -, hm⟩ := corrs_ok w (List.replicate s.p.length 0) (by simp) C
  refine ⟨L, hL, fun a b v => ?_⟩
  have hd : ∀ i, (List.replicate s.p.length (0 : K)).getD i 0 = 0 := by
    intro i
    by_cases hi : i < s.p.length
    · rw [getD_lt (by simpa using hi), List.getElem_replicate]
    · simp [List.getD, hi]
  have hq : ∀ i j, quo (List.replicate s.p.length 0) C i j = if C i j = 0 then .nan else .inf (decide (C i j < 0)) := by
    intro i j
    unfold quo
    rw [hd, hd]
    by_cases h : C i j = 0 <;> simp [Ext.div, h]
  rw [hm]
  constructor
  · rintro ⟨i, hi, j, hj, hlt, fi, fj, hb, hx⟩
    rw [hq] at hb hx
    simp only [Prod.mk.injEq] at hx
    obtain ⟨rfl, rfl, rfl⟩ := hx
    by_cases h : C i j = 0
    · simp [h, Ext.big] at hb
    · exact ⟨hlt, i, j, by simp [hi], by simp [hj], fi, fj, h, by rw [if_neg h]⟩
  · rintro ⟨hlt, i, j, hia, hjb, fi, fj, hne, rfl⟩
    obtain ⟨hi, ea⟩ := List.getElem?_eq_some_iff.1 hia
    obtain ⟨hj, eb⟩ := List.getElem?_eq_some_iff.1 hjb
    have ea' : s.id.getD i 0 = a := by rw [getD_lt hi, ea]
    have eb' : s.id.getD j 0 = b := by rw [getD_lt hj, eb]
    refine ⟨i, hi, j, hj, by rw [ea', eb']; exact hlt, fi, fj, ?_, by rw [ea', eb', hq, if_neg hne]⟩
    rw [hq, if_neg hne]
    rfl

/-- Calculated values `x + y`, `x`, `y`, all of weight 6. -/
def th2 : Theory ℚ (List ℚ) where
  setup := fun _ w => (w, none)
  eval := fun par _ => (par.p, none)
  pts := fun w =>
    [[⟨6, 3, w.getD 0 0 + w.getD 1 0, fun l => if l = 0 ∨ l = 1 then 1 else 0⟩, ⟨6, 1, w.getD 0 0, fun l => if l = 0 then 1 else 0⟩,
      ⟨6, 2, w.getD 1 0, fun l => if l = 1 then 1 else 0⟩]]
  dmax := 1000000

def eng2 : Eng ℚ (List ℚ) where
  par := { p := [1, 2], ip := [true, true], id := [1, 2] }
  world := []
  iter := 0
  stagnating := 0
  alambda := 0
  chisq := 0
  ochisq := 0
  alpha := fun _ _ => 0
  covar := fun _ _ => 0
  cum := []
  rw2 := 0

/-- After the first step of a refinement the report says that the correlation is infinite. -/
theorem unfinished_reachable : let r := refineStep th2 (1 / 100000000) {} eng2
    r.2.2 = .more ∧ saveRes r.2.1 [0, 0] (covarMat 2 r.2.1.covar) = .ok [(1, 2, .inf false)] := by
  decide +kernel

/-- The correlation of the finished refinement is -1/2, so nothing is listed. After the first step of the next refinement the report lists a correlation of 54. -/
theorem stale (sqrt : ℚ → ℚ) (h : sqrt (1 / 9) = 1 / 3) :
    let r := refineLoop th2 (1 / 100000000) 101 ({}, eng2)
    let q := refineStep th2 (1 / 100000000) r.1.1 r.1.2
    ∃ dp, (covarMat 2 r.1.2.covar).sd sqrt = .ok dp ∧ r.2.1 = .done ∧ r.1.2.covar 0 1 / (dp.getD 0 0 * dp.getD 1 0) = -1 / 2 ∧
      saveRes r.1.2 dp (covarMat 2 r.1.2.covar) = .ok [] ∧ q.2.2 = .more ∧
      saveRes q.2.1 dp (covarMat 2 q.2.1.covar) = .ok [(1, 2, .fin 54)] := by
  intro r q
  refine ⟨[1 / 3, 1 / 3], ?_, ?_, ?_, ?_, ?_, ?_⟩
  · have e : (covarMat 2 r.1.2.covar).data = [1 / 9, -1 / 18, -1 / 18, 1 / 9] := by decide +kernel
    have e2 : covarMat 2 r.1.2.covar = ⟨2, 2, [1 / 9, -1 / 18, -1 / 18, 1 / 9]⟩ := by rw [← e]; rfl
    rw [e2]
    simpa [Mat.sd, Mat.sdLoop, Res.at?, Res.wr] using h
  · decide +kernel
  · decide +kernel
  · decide +kernel
  · decide +kernel
  · decide +kernel

/-- A free parameter that is defined after the refinement: the arrays of the refinement are too small. -/
theorem new_parameter {K : Type} [Field K] [LinearOrder K] (v1 v2 d c : K) :
    corrs (ParStore.run {} [.setpar 7 v1, .setpar 9 v2]).1 [d] (covarMat 1 fun _ _ => c) = .ub := by
  have e : (ParStore.run {} [.setpar 7 v1, .setpar 9 v2] : ParStore K × _).1 =
      { p := [v1, v2], ip := [true, true], id := [7, 9] } := rfl
  rw [e]
  have o : orderById [7, 9] = [0, 1] := by decide +kernel
  simp only [corrs, npar, o]
  rfl

/-! ## Example -/

/-- Two of three pairs are above 0.8; the fixed parameter 5 is not listed. -/
example : corrs ({ p := [1, 2, 3, 4], ip := [true, true, true, false], id := [9, 2, 4, 5] } : ParStore ℚ) [1, 2, 1, 0]
    (covarMat 4 fun i j => if i = j then 1 else if i = 3 ∨ j = 3 then 0 else if i + j = 1 then 19 / 10 else if i + j = 2 then -9 / 10 else 1) =
    .ok [(2, 9, .fin (19 / 20)), (4, 9, .fin (-9 / 10))] := by decide +kernel

/-- The hypotheses of `C65_correlations_partial` hold for the refinement of C54. -/
example (x toler : ℝ) : let e := C54.demoE x false
    let r := refineLoop (constrTheory (C54.demoS ℝ)) toler 101 ({}, e)
    (∀ c, ∀ ds ∈ (constrTheory (C54.demoS ℝ)).pts c, ∀ pt ∈ ds, 0 ≤ pt.w) ∧ r.2.1 = .done ∧ r.1.2.par.Wf := by
  have hn : C08.NoRepl (C54.demoS ℝ).parse {} [.setpar 1 x, .setpar 2 2, .flag 2 false, .int 7 1 .ident] := by
    refine ⟨by simp, by simp, by simp, by simp, by simp, by simp, by simp, fun a i t h => ?_, trivial⟩
    cases h
    rfl
  have hd := C54.demo_finishes x toler 101 le_rfl
  obtain ⟨hsame, -⟩ := C53.mid_final (C54.demo_parserOK ℝ) C53.demo_uses toler {} (C54.demoE x false)
    (C08.inv_run (C54.demo_parserOK ℝ) C53.demo_uses _ hn) (by simp) 101 hd
  refine ⟨?_, hd, ?_⟩
  · intro c ds hds pt hpt
    simp only [constrTheory, C54.demoS, List.mem_singleton] at hds
    subst hds
    simp only [List.mem_singleton] at hpt
    subst hpt
    norm_num
  · refine ⟨?_, ?_, ?_⟩
    · rw [hsame.len, hsame.id]; rfl
    · rw [hsame.ip, hsame.id]; rfl
    · rw [hsame.id]; show [1, 2].Nodup; decide

/-- Calculated values `x - y`, `x`, `y`: the two parameters are correlated. -/
def th3 : Theory ℚ (List ℚ) where
  setup := fun _ w => (w, none)
  eval := fun par _ => (par.p, none)
  pts := fun w =>
    [[⟨90 / 19, -1, w.getD 0 0 - w.getD 1 0, fun l => if l = 0 then 1 else if l = 1 then -1 else 0⟩,
      ⟨10 / 19, 1, w.getD 0 0, fun l => if l = 0 then 1 else 0⟩, ⟨10 / 19, 2, w.getD 1 0, fun l => if l = 1 then 1 else 0⟩]]
  dmax := 1000000

/-- A finished refinement with a correlation of 0.9. -/
example : let r := refineLoop th3 (1 / 100000000) 101 ({}, eng2)
    r.2.1 = .done ∧ (covarMat 2 r.1.2.covar).data = [1, 9 / 10, 9 / 10, 1] ∧
      saveRes r.1.2 [1, 1] (covarMat 2 r.1.2.covar) = .ok [(1, 2, .fin (9 / 10))] := by
  decide +kernel

end Pdffit.C65
