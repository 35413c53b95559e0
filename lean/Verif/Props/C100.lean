import Verif.Model.Plot
import Verif.Props.C31
import Verif.Props.C06
import Verif.Model.Quality

/-!
# C100: the plots of the interactive session

* `C100_fit_partial`: what `showfit` shows if the stored range has more than one point; the difference curve does not overlap the others, and the
  next integer offset would make it touch or cross them.
* `C100_single_violated`: no plot for a range with one point.
* `C100_rw`, `C100_rw_refined`: what `showRw` shows; `C100_rw_violated`: an exception before the first refinement, though `getcrw` returns a list.
-/

namespace Pdffit.C100
open Plot Lists C31 Det

/-! ### Least and greatest elements -/

theorem foldl_min (t : List ℝ) : ∀ x : ℝ, (∀ y ∈ x :: t, t.foldl min x ≤ y) ∧ t.foldl min x ∈ x :: t := by
  induction t with
  | nil => intro x; simp
  | cons a t ih =>
    intro x
    obtain ⟨h1, h2⟩ := ih (min x a)
    have hm := h1 (min x a) (by simp)
    refine ⟨fun y hy => ?_, ?_⟩
    · rw [List.foldl_cons]
      simp only [List.mem_cons] at hy
      rcases hy with rfl | rfl | hy
      · exact hm.trans (min_le_left _ _)
      · exact hm.trans (min_le_right _ _)
      · exact h1 y (by simp [hy])
    · rw [List.foldl_cons]
      rcases List.mem_cons.1 h2 with h | h
      · rw [h]
        rcases min_choice x a with e | e <;> rw [e] <;> simp
      · simp [h]

theorem foldl_max (t : List ℝ) : ∀ x : ℝ, (∀ y ∈ x :: t, y ≤ t.foldl max x) ∧ t.foldl max x ∈ x :: t := by
  induction t with
  | nil => intro x; simp
  | cons a t ih =>
    intro x
    obtain ⟨h1, h2⟩ := ih (max x a)
    have hm := h1 (max x a) (by simp)
    refine ⟨fun y hy => ?_, ?_⟩
    · rw [List.foldl_cons]
      simp only [List.mem_cons] at hy
      rcases hy with rfl | rfl | hy
      · exact (le_max_left _ _).trans hm
      · exact (le_max_right _ _).trans hm
      · exact h1 y (by simp [hy])
    · rw [List.foldl_cons]
      rcases List.mem_cons.1 h2 with h | h
      · rw [h]
        rcases max_choice x a with e | e <;> rw [e] <;> simp
      · simp [h]

theorem least_ok {l : List ℝ} (h : l ≠ []) : ∃ m ∈ l, least l = .ok m ∧ ∀ y ∈ l, m ≤ y := by
  cases l with
  | nil => exact absurd rfl h
  | cons x t => exact ⟨_, (foldl_min t x).2, rfl, (foldl_min t x).1⟩

theorem greatest_ok {l : List ℝ} (h : l ≠ []) : ∃ m ∈ l, greatest l = .ok m ∧ ∀ y ∈ l, y ≤ m := by
  cases l with
  | nil => exact absurd rfl h
  | cons x t => exact ⟨_, (foldl_max t x).2, rfl, (foldl_max t x).1⟩

/-! ### The claims -/

/-- **C100, the part that holds** for `showfit`: the lines are the lists of the getters; with the default offset the difference curve is below both
other curves and the offset is the largest integer of this kind. -/
theorem C100_fit_partial (s : LSet) (h : Fresh s) (l : List Op) (hne : (run s l).nfmin ≠ (run s l).nfmax) (offset : Option ℝ) :
    ∃ (O F D : List ℝ) (z : ℝ), getObs (run s l) = .ok O ∧ getFit (run s l) = .ok F ∧ getDiff (run s l) = .ok D ∧ O ≠ [] ∧
      showfit (run s l) offset = .ok [⟨getR (run s l), O⟩, ⟨getR (run s l), F⟩, ⟨getR (run s l), D.map fun x => x + z⟩] ∧
      (∀ z', offset = some z' → z = z') ∧
      (offset = none → (∃ k : ℤ, z = k) ∧ (∀ x ∈ D, ∀ y ∈ O ++ F, x + z ≤ y) ∧ ∃ x ∈ D, ∃ y ∈ O ++ F, y < x + (z + 1)) := by
  have hok := run_ok (fresh_ok h) l
  have A := agree_of_ok hok hne
  have hord := hok.ord
  generalize run s l = t at *
  generalize hN : (t.nfmax - t.nfmin + 1).toNat = N at A
  have hN0 : N ≠ 0 := by omega
  have hO := A.obs
  have hF := A.fit
  have hD := A.diff
  have hR : (getR t).length = N := by rw [A.r]; simp
  have hsub : gdiff t = .ok ((List.range N).map fun k => t.d.obs.getD (t.nfmin.toNat + k) 0 - t.filled.pdftot.getD (t.nfmin.toNat + k) 0) := by
    unfold gdiff
    rw [hO, hF]
    show sub _ _ = _
    unfold sub
    rw [if_pos (by simp), List.zipWith_map, List.zipWith_self]
  generalize eO : ((List.range N).map fun k => t.d.obs.getD (t.nfmin.toNat + k) 0) = O at hO
  generalize eF : ((List.range N).map fun k => t.filled.pdftot.getD (t.nfmin.toNat + k) 0) = F at hF
  generalize eD : ((List.range N).map fun k => t.d.obs.getD (t.nfmin.toNat + k) 0 - t.filled.pdftot.getD (t.nfmin.toNat + k) 0) = D at hD hsub
  have lO : O.length = N := by rw [← eO]; simp
  have lF : F.length = N := by rw [← eF]; simp
  have lD : D.length = N := by rw [← eD]; simp
  have nO : O ≠ [] := by rintro rfl; exact hN0 lO.symm
  have nF : F ≠ [] := by rintro rfl; exact hN0 lF.symm
  have nD : D ≠ [] := by rintro rfl; exact hN0 lD.symm
  obtain ⟨a, ha, ea, ha'⟩ := least_ok nO
  obtain ⟨b, hb, eb, hb'⟩ := least_ok nF
  obtain ⟨m, hm, em, hm'⟩ := greatest_ok nD
  have lines : ∀ z : ℝ, line (getR t) O = .ok ⟨getR t, O⟩ ∧ line (getR t) F = .ok ⟨getR t, F⟩ ∧
      line (getR t) (D.map fun x => x + z) = .ok ⟨getR t, D.map fun x => x + z⟩ := by
    intro z
    refine ⟨if_pos (by rw [hR, lO]), if_pos (by rw [hR, lF]), if_pos (by rw [hR, List.length_map, lD])⟩
  cases offset with
  | some z =>
    obtain ⟨l1, l2, l3⟩ := lines z
    refine ⟨O, F, D, z, hO, hF, hD, nO, ?_, fun z' e => Option.some.inj e, fun e => by cases e⟩
    unfold showfit
    simp only [hO, hF, hsub, lift, bind, Except.bind, l1, l2, l3]
  | none =>
    obtain ⟨l1, l2, l3⟩ := lines ((⌊min a b - m⌋ : ℤ) : ℝ)
    refine ⟨O, F, D, ((⌊min a b - m⌋ : ℤ) : ℝ), hO, hF, hD, nO, ?_, fun z' e => (by cases e), fun _ => ⟨⟨_, rfl⟩, ?_, ?_⟩⟩
    · unfold showfit
      simp only [hO, hF, hsub, lift, bind, Except.bind, ea, eb, em, l1, l2, l3]
    · intro x hx y hy
      have h1 := Int.floor_le (min a b - m)
      have h2 := hm' x hx
      have h3 : min a b ≤ y := by
        rcases List.mem_append.1 hy with hy | hy
        · exact (min_le_left _ _).trans (ha' y hy)
        · exact (min_le_right _ _).trans (hb' y hy)
      linarith
    · have h1 := Int.lt_floor_add_one (min a b - m)
      refine ⟨m, hm, min a b, ?_, by linarith⟩
      rcases min_choice a b with e | e <;> rw [e]
      · exact List.mem_append_left _ ha
      · exact List.mem_append_right _ hb

/-- If the stored range has one point, there is a plot only if the data have one point. -/
theorem single_err {t : LSet} (h : Ok t) (e : t.nfmin = t.nfmax) (hr : (getR t).length ≠ 1) (offset : Option ℝ) : showfit t offset = .error .value := by
  have hf := filled_len h
  have h0 := h.lo
  have h1 := h.hi
  have hg : grid t.nfmin t.nfmax = [t.nfmin] := by
    rw [← e]
    unfold grid
    rw [show (t.nfmin + 1 - t.nfmin).toNat = 1 by omega]
    simp
  have hO : getObs t = .ok [t.d.obs.getD t.nfmin.toNat 0] := by
    unfold getObs
    rw [hg, readList_ok _ _ fun i hi => by simp only [List.mem_singleton] at hi; rw [h.inv.obs]; omega]
    rfl
  have hF : getFit t = .ok [t.filled.pdftot.getD t.nfmin.toNat 0] := by
    unfold getFit
    rw [hg, readList_ok _ _ fun i hi => by simp only [List.mem_singleton] at hi; omega]
    rfl
  generalize t.d.obs.getD t.nfmin.toNat 0 = x at hO
  generalize t.filled.pdftot.getD t.nfmin.toNat 0 = y at hF
  have hD : gdiff t = .ok [x - y] := by
    unfold gdiff
    rw [hO, hF]
    rfl
  have hl : line (getR t) [x] = .error .value := if_neg hr
  unfold showfit
  cases offset <;> simp only [hO, hF, hD, lift, bind, Except.bind, hl, least, greatest]

/-- **C100, violated** for a range with one point: `getR` returns the whole range of the data, the other lists have one element; there is no plot. -/
theorem C100_single_violated (vals : ℕ → ℝ) (offset : Option ℝ) :
    showfit (run five [.range (9 / 5) (11 / 5), .determine vals]) offset = .error .value := by
  obtain ⟨h1, O, h2, h3⟩ := single_point vals
  have hok := run_ok (fresh_ok five_fresh) [.range (9 / 5) (11 / 5), .determine vals]
  refine single_err hok ?_ (by rw [h1]; decide) offset
  by_contra hne
  have A := (agree_of_ok hok hne).obs
  rw [h2] at A
  have hl := congrArg List.length (Res.ok.inj A)
  have := hok.ord
  rw [h3, List.length_map, List.length_range] at hl
  omega

/-- An exception of a getter is the exception of the plot. -/
theorem C100_passes (s : LSet) (e : Exc) (offset : Option ℝ) (h : getObs s = .err e ∨ ∃ O, getObs s = .ok O ∧ getFit s = .err e) :
    showfit s offset = .error (.lib e) := by
  unfold showfit
  rcases h with h | ⟨O, h1, h2⟩
  · rw [h]; rfl
  · rw [h1, h2]; rfl

/-- What `showRw` shows: the curve of `getcrw` and its last value; otherwise it raises an exception. -/
theorem C100_rw (s : LSet) (crw : List ℝ) (L : Line) (x : ℝ) :
    showRw s crw = .ok (L, x) ↔ (getR s).length = crw.length ∧ crw ≠ [] ∧ L = ⟨getR s, crw⟩ ∧ x = lastOr0 crw := by
  unfold showRw line lastOr0
  by_cases h : (getR s).length = crw.length
  · rw [if_pos h]
    cases hc : crw.getLast? with
    | none =>
      have : crw = [] := List.getLast?_eq_none_iff.1 hc
      simp [bind, Except.bind, this]
    | some y =>
      have : crw ≠ [] := by rintro rfl; simp at hc
      simp only [bind, Except.bind, Except.ok.injEq, Prod.mk.injEq, h, true_and, this, ne_eq, not_false_eq_true, Option.getD_some]
      exact ⟨fun e => ⟨e.1.symm, e.2.symm⟩, fun e => ⟨e.1.symm, e.2.symm⟩⟩
  · rw [if_neg h]
    simp [bind, Except.bind, h]

/-- After a complete refinement, for a data set whose points are those of `getR`: the curve rises to the number in the title, which is the Rw of the data
set. -/
theorem C100_rw_refined {W : Type} (th : Theory ℝ W) (toler : ℝ) (s : Statics ℝ) (e : Eng ℝ W) (hfresh : ¬(s.fitRunning = true ∧ e.iter ≠ 0)) (fuel : ℕ)
    (hd : (refineLoop th toler fuel (s, e)).2.1 = .done) (is npts : ℕ) (hdata : C06.DataOK th is npts) (t : LSet) (hn : (getR t).length = npts) (hp : npts ≠ 0) :
    let r := (refineLoop th toler fuel (s, e)).1.2
    ∃ x, showRw t (r.getcrw th is) = .ok (⟨getR t, r.getcrw th is⟩, x) ∧ x = r.dsrw th is ∧ ∀ y ∈ r.getcrw th is, 0 ≤ y ∧ y ≤ x := by
  intro r
  obtain ⟨h1, h2, h3⟩ := C06.C06_crw_shape_after_refine th toler s e hfresh fuel hd is npts hdata
  have hne : r.getcrw th is ≠ [] := by
    intro h
    rw [show r.getcrw th is = [] from h] at h3
    exact hp h3.symm
  refine ⟨_, (C100_rw t _ _ _).2 ⟨by rw [hn]; exact h3.symm, hne, rfl, rfl⟩, rfl, fun y hy => ⟨h2 y hy, ?_⟩⟩
  have e : lastOr0 (r.getcrw th is) = (r.getcrw th is).getLast hne := by
    unfold lastOr0
    rw [List.getLast?_eq_some_getLast hne]
    rfl
  rw [e]
  have hp : (r.getcrw th is).Pairwise (· ≤ ·) := h1
  generalize r.getcrw th is = l at *
  rw [← List.dropLast_append_getLast hne] at hy hp
  rcases List.mem_append.1 hy with h | h
  · exact (List.pairwise_append.1 hp).2.2 y h _ (by simp)
  · simp only [List.mem_singleton] at h
    exact h.le

/-- **C100, violated**: before the first refinement `getcrw` returns the empty list, for which `showRw` raises an exception. -/
theorem C100_rw_violated (s : LSet) (l : List Op) : ∃ b, showRw (run s l) [] = .error b := by
  have hr : ∀ p, showRw (run s l) [] ≠ .ok p := fun p hp => ((C100_rw (run s l) [] p.1 p.2).1 hp).2.1 rfl
  rcases hx : showRw (run s l) [] with b | p
  · exact ⟨b, rfl⟩
  · exact absurd hx (hr p)

/-- Five points, calculated values 1, 2, 3, 4, 5, observed values 0: the difference is -1, …, -5 and the offset 1. -/
example : ∃ L : List Line, showfit (run five [.determine fun k => k + 1]) none = .ok L ∧ L.map Line.ys = [[0, 0, 0, 0, 0], [1, 2, 3, 4, 5], [0, -1, -2, -3, -4]] := by
  have h1 : five.d.D.nfmin = 0 := by
    show nint (((1 : ℝ) - 1) / (1 / 2)) = 0
    unfold nint
    rw [if_pos (by norm_num), Int.floor_eq_iff]
    norm_num
  have h2 : five.d.D.nfmax = 4 := by
    show nint (((3 : ℝ) - 1) / (1 / 2)) = 4
    unfold nint
    rw [if_pos (by norm_num), Int.floor_eq_iff]
    norm_num
  have hO : getObs (run five [.determine fun k => (k : ℝ) + 1]) = .ok [0, 0, 0, 0, 0] := by
    show readList five.d.obs (grid five.d.D.nfmin five.d.D.nfmax) = _
    rw [h1, h2]
    rfl
  obtain ⟨N, i, hF, -, hi, hN⟩ := calc_values five five_fresh [] fun k => (k : ℝ) + 1
  have hi : (i : ℤ) = five.d.D.nfmin := hi
  have hN : (N : ℤ) = five.d.D.nfmax - five.d.D.nfmin + 1 := hN
  obtain rfl : i = 0 := by omega
  obtain rfl : N = 5 := by omega
  have hF : getFit (run five [.determine fun k => (k : ℝ) + 1]) = .ok [1, 2, 3, 4, 5] := by
    refine Eq.trans hF ?_
    simp [List.range_succ]
    norm_num
  have hR : (getR (run five [.determine fun k => (k : ℝ) + 1])).length = 5 := by
    unfold getR
    rw [show (run five [.determine fun k => (k : ℝ) + 1]).nfmin = 0 from h1, show (run five [.determine fun k => (k : ℝ) + 1]).nfmax = 4 from h2, if_neg (by decide)]
    rfl
  have hD : gdiff (run five [.determine fun k => (k : ℝ) + 1]) = .ok [-1, -2, -3, -4, -5] := by
    unfold gdiff
    rw [hO, hF]
    simp [lift, sub, bind, Except.bind]
  generalize run five [.determine fun k => (k : ℝ) + 1] = t at *
  have hz : ⌊min (0 : ℝ) 1 - -1⌋ = 1 := by
    rw [min_eq_left zero_le_one]
    norm_num
  have m1 : least [0, 0, 0, 0, 0] = .ok 0 := by simp [least]
  have m2 : least [1, 2, 3, 4, 5] = .ok 1 := by simp [least]
  have m3 : greatest [-1, -2, -3, -4, -5] = .ok (-1) := by simp [greatest]
  unfold showfit
  simp only [hO, hF, hD, lift, bind, Except.bind, m1, m2, m3, hz]
  simp only [line, hR]
  refine ⟨_, rfl, ?_⟩
  simp
  norm_num

end Pdffit.C100
