import Verif.Model.Lists
import Verif.Props.C30

/-!
# C31: getR, getpdf_obs, getpdf_fit and getpdf_diff have equal lengths

Violated when the stored fit range has a single point, which is the case after `alloc` and `read_data_arrays` before any
calculation (`after_alloc`) and for a fit range narrower than a step (`single_point`): then `getR` returns the whole grid and the
others one value. `equal_partial` covers every history in which the stored range has more than one point; `after_calc_partial` says that after a
calculation these are the points of the fit range. Between `pdfrange` and the next calculation the lists still are those of the old
range (`old_range`).
-/

namespace Pdffit.C31
open Lists Det

/-- A data set as the readers leave it, with a positive step: `read_data` and `read_data_string` store the whole range, the others zeros. -/
structure Fresh (s : LSet) : Prop where
  inv : C30.Inv s.d
  bin : 0 < s.d.bin
  lo : s.nfmin = 0
  hi : s.nfmax = 0 ∨ s.nfmax = (s.d.bin : ℤ) - 1
  empty : s.pdftot = []

structure Ok (s : LSet) : Prop where
  inv : C30.Inv s.d
  lo : 0 ≤ s.nfmin
  ord : s.nfmin ≤ s.nfmax
  hi : s.nfmax < s.d.bin
  tot : s.pdftot = [] ∨ s.nfmax < s.pdftot.length

theorem fresh_ok {s : LSet} (h : Fresh s) : Ok s := by
  have := h.bin
  refine ⟨h.inv, h.lo.ge, ?_, ?_, .inl h.empty⟩
  · rw [h.lo]; rcases h.hi with e | e <;> omega
  · rcases h.hi with e | e <;> omega

theorem determine_ok {s : LSet} (h : Ok s) (vals : ℕ → ℝ) : Ok (step s (.determine vals)) := by
  have o : s.d.D.Ok := ⟨h.inv.step, h.inv.lo, h.inv.ord⟩
  have h1 := ncmin_nonneg o
  have h2 := ncmin_le_nfmin o
  have h3 := nfmin_le_nfmax o
  have h4 := nfmax_le_ncmax o
  have h5 := C30.nfmax_lt s.d h.inv
  refine ⟨h.inv, ?_, ?_, ?_, .inr ?_⟩
  · change 0 ≤ s.d.D.nfmin; omega
  · exact h3
  · change s.d.D.nfmax < s.d.bin; omega
  · change s.d.D.nfmax < (((List.range (s.d.D.ncmax + 1).toNat).map vals).length : ℤ)
    simp
    omega

theorem filled_len {s : LSet} (h : Ok s) : s.nfmax < s.filled.pdftot.length := by
  unfold LSet.filled
  rcases h.tot with e | e
  · rw [if_pos e]
    simp only [List.length_replicate, h.inv.obs]
    exact h.hi
  · split_ifs
    · simp only [List.length_replicate, h.inv.obs]
      exact h.hi
    · exact e

theorem filled_ok {s : LSet} (h : Ok s) : Ok s.filled := by
  have hl := filled_len h
  unfold LSet.filled at hl ⊢
  split_ifs at hl ⊢
  · exact ⟨h.inv, h.lo, h.ord, h.hi, .inr hl⟩
  · exact h

theorem step_ok {s : LSet} (h : Ok s) (o : Op) : Ok (step s o) := by
  cases o with
  | range lo hi =>
    change Ok (s.put (s.d.range lo hi))
    cases hr : s.d.range lo hi with
    | ok d =>
      have hb : d.bin = s.d.bin := by
        unfold DSet.range at hr
        split_ifs at hr
        injection hr with hr
        rw [← hr]
      exact ⟨C30.range_inv hr h.inv, h.lo, h.ord, by simp only [LSet.put, hb]; exact h.hi, h.tot⟩
    | err e => exact h
    | ub => exact h
  | determine vals => exact determine_ok h vals
  | getFit => exact filled_ok h

theorem run_ok {s : LSet} (h : Ok s) (l : List Op) : Ok (run s l) := by
  induction l generalizing s with
  | nil => exact h
  | cons o l ih => exact ih (step_ok h o)

theorem readList_ok (v : List ℝ) (l : List ℤ) (h : ∀ i ∈ l, 0 ≤ i ∧ i < v.length) :
    readList v l = .ok (l.map fun i => v.getD i.toNat 0) := by
  induction l with
  | nil => rfl
  | cons i l ih =>
    obtain ⟨h0, h1⟩ := h i (by simp)
    unfold readList
    have e : readAt v i = .ok (v.getD i.toNat 0) := by
      unfold readAt
      have hlt : i.toNat < v.length := by omega
      rw [if_pos h0, Res.at?_of_lt hlt]
      simp [hlt]
    rw [e, Res.bind_ok, ih fun j hj => h j (by simp [hj]), Res.bind_ok]
    rfl

/-- The four lists of a data set with `N` points, element `k` of each belonging to grid point `i k`. -/
structure Agree (s : LSet) (N : ℕ) (i : ℕ → ℕ) : Prop where
  r : getR s = (List.range N).map fun k => s.d.D.rmin + i k * s.d.D.deltar
  obs : getObs s = .ok ((List.range N).map fun k => s.d.obs.getD (i k) 0)
  fit : getFit s = .ok ((List.range N).map fun k => s.filled.pdftot.getD (i k) 0)
  diff : getDiff s = .ok ((List.range N).map fun k => s.d.obs.getD (i k) 0 - s.filled.pdftot.getD (i k) 0)
  inside : ∀ k, k < N → i k < s.d.obs.length ∧ i k < s.filled.pdftot.length

theorem agree_of_ok {s : LSet} (h : Ok s) (hne : s.nfmin ≠ s.nfmax) :
    Agree s (s.nfmax - s.nfmin + 1).toNat (fun k => s.nfmin.toNat + k) := by
  have h0 := h.lo
  have h1 := h.ord
  have hf := filled_len h
  have hgrid : ∀ i ∈ grid s.nfmin s.nfmax, 0 ≤ i ∧ i ≤ s.nfmax := by
    intro i hi
    rw [mem_grid] at hi
    omega
  have hN : (s.nfmax + 1 - s.nfmin).toNat = (s.nfmax - s.nfmin + 1).toNat := by omega
  have eo := readList_ok s.d.obs (grid s.nfmin s.nfmax) fun i hi => by
    have := hgrid i hi; have := h.hi; rw [h.inv.obs]; omega
  have ef := readList_ok s.filled.pdftot (grid s.nfmin s.nfmax) fun i hi => by
    have := hgrid i hi; omega
  have idx : ∀ k : ℕ, (s.nfmin + (k : ℤ)).toNat = s.nfmin.toNat + k := by intro k; omega
  refine ⟨?_, ?_, ?_, ?_, ?_⟩
  · unfold getR
    rw [if_neg (by omega)]
    unfold grid
    rw [hN, List.map_map]
    refine List.map_congr_left fun k _ => ?_
    have : ((s.nfmin.toNat + k : ℕ) : ℝ) = ((s.nfmin + (k : ℤ) : ℤ) : ℝ) := by
      have : ((s.nfmin.toNat + k : ℕ) : ℤ) = s.nfmin + k := by omega
      exact_mod_cast this
    simp only [Function.comp_apply]
    rw [this]
    ring
  · unfold getObs
    rw [eo]
    unfold grid
    rw [hN, List.map_map]
    simp only [Function.comp_def, idx]
  · unfold getFit
    rw [ef]
    unfold grid
    rw [hN, List.map_map]
    simp only [Function.comp_def, idx]
  · unfold getDiff
    rw [eo, Res.bind_ok, ef, Res.bind_ok]
    unfold grid
    rw [hN, List.map_map, List.map_map, List.zipWith_map]
    simp only [Function.comp_def, idx]
    rw [List.zipWith_self]
  · intro k hk
    have := h.hi
    rw [h.inv.obs]
    omega

/-- **C31, the part that holds**: after any history the lists belong to the same grid points and have the same length, if the stored
range has more than one point. -/
theorem equal_partial (s : LSet) (h : Fresh s) (l : List Op) (hne : (run s l).nfmin ≠ (run s l).nfmax) :
    ∃ i, Agree (run s l) ((run s l).nfmax - (run s l).nfmin + 1).toNat i ∧ ∀ k, i (k + 1) = i k + 1 :=
  ⟨_, agree_of_ok (run_ok (fresh_ok h) l) hne, fun _ => rfl⟩

theorem nint_near (x : ℝ) : |(nint x : ℝ) - x| ≤ 1 / 2 := by
  unfold nint
  rw [abs_le]
  split_ifs
  · have h1 := Int.floor_le (x + 1 / 2)
    have h2 := Int.lt_floor_add_one (x + 1 / 2)
    constructor <;> linarith
  · have h1 := Int.le_ceil (x - 1 / 2)
    have h2 := Int.ceil_lt_add_one (x - 1 / 2)
    constructor <;> linarith

theorem near {a x dr : ℝ} (h : 0 < dr) : |a + (nint ((x - a) / dr) : ℝ) * dr - x| ≤ dr / 2 := by
  have := nint_near ((x - a) / dr)
  have e : a + (nint ((x - a) / dr) : ℝ) * dr - x = ((nint ((x - a) / dr) : ℝ) - (x - a) / dr) * dr := by
    field_simp
    ring
  rw [e, abs_mul, abs_of_pos h]
  calc _ ≤ 1 / 2 * dr := mul_le_mul_of_nonneg_right this h.le
    _ = dr / 2 := by ring

/-- After a calculation the first and last point are the grid points next to the ends of the fit range. -/
theorem after_calc_partial (s : LSet) (h : Fresh s) (l : List Op) (vals : ℕ → ℝ)
    (hne : (run s l).d.D.nfmin ≠ (run s l).d.D.nfmax) :
    ∃ N i, Agree (run s (l ++ [.determine vals])) N i ∧ (∀ k, i (k + 1) = i k + 1) ∧ 2 ≤ N ∧
      |(run s l).d.D.rmin + i 0 * (run s l).d.D.deltar - (run s l).d.D.rfmin| ≤ (run s l).d.D.deltar / 2 ∧
      |(run s l).d.D.rmin + i (N - 1) * (run s l).d.D.deltar - (run s l).d.D.rfmax| ≤ (run s l).d.D.deltar / 2 := by
  have hok := run_ok (fresh_ok h) l
  have e : run s (l ++ [.determine vals]) = step (run s l) (.determine vals) := by simp [run]
  rw [e]
  have hok' := determine_ok hok vals
  have h1 : (0 : ℤ) ≤ (run s l).d.D.nfmin := hok'.lo
  have h2 : (run s l).d.D.nfmin ≤ (run s l).d.D.nfmax := hok'.ord
  refine ⟨_, _, agree_of_ok hok' hne, fun _ => rfl, ?_, ?_, ?_⟩
  · change 2 ≤ ((run s l).d.D.nfmax - (run s l).d.D.nfmin + 1).toNat
    omega
  · have := near hok.inv.step (x := (run s l).d.D.rfmin) (a := (run s l).d.D.rmin)
    have e1 : (((run s l).d.D.nfmin.toNat + 0 : ℕ) : ℝ) = (((run s l).d.D.nfmin : ℤ) : ℝ) := by
      have : (((run s l).d.D.nfmin.toNat + 0 : ℕ) : ℤ) = (run s l).d.D.nfmin := by omega
      exact_mod_cast this
    change |_ + (((run s l).d.D.nfmin.toNat + 0 : ℕ) : ℝ) * _ - _| ≤ _
    rw [e1]
    exact this
  · have := near hok.inv.step (x := (run s l).d.D.rfmax) (a := (run s l).d.D.rmin)
    have e1 : (((run s l).d.D.nfmin.toNat + (((run s l).d.D.nfmax - (run s l).d.D.nfmin + 1).toNat - 1) : ℕ) : ℝ) =
        (((run s l).d.D.nfmax : ℤ) : ℝ) := by
      have : (((run s l).d.D.nfmin.toNat + (((run s l).d.D.nfmax - (run s l).d.D.nfmin + 1).toNat - 1) : ℕ) : ℤ) =
          (run s l).d.D.nfmax := by omega
      exact_mod_cast this
    change |_ + (((run s l).d.D.nfmin.toNat + (((run s l).d.D.nfmax - (run s l).d.D.nfmin + 1).toNat - 1) : ℕ) : ℝ) * _ - _| ≤ _
    rw [e1]
    exact this

/-- Without a calculation `pdftot` is empty or zero everywhere. -/
theorem no_calc {s : LSet} (h : s.pdftot = []) (l : List Op) (hl : ∀ o ∈ l, ∀ vals, o ≠ .determine vals) :
    ∀ x ∈ (run s l).filled.pdftot, x = 0 := by
  have key : ∀ (l : List Op) (s : LSet), (∀ x ∈ s.pdftot, x = 0) → (∀ o ∈ l, ∀ vals, o ≠ .determine vals) →
      ∀ x ∈ (run s l).pdftot, x = 0 := by
    intro l
    induction l with
    | nil => intro s hs _; exact hs
    | cons o l ih =>
      intro s hs ho
      refine ih (step s o) ?_ fun p hp => ho p (by simp [hp])
      cases o with
      | range lo hi =>
        intro x hx
        have e : (s.put (s.d.range lo hi)).pdftot = s.pdftot := by unfold LSet.put; split <;> rfl
        exact hs x (e ▸ hx)
      | determine vals => exact absurd rfl (ho _ (by simp) vals)
      | getFit =>
        intro x hx
        change x ∈ s.filled.pdftot at hx
        unfold LSet.filled at hx
        split_ifs at hx
        · exact List.eq_of_mem_replicate hx
        · exact hs x hx
  intro x hx
  unfold LSet.filled at hx
  split_ifs at hx
  · exact List.eq_of_mem_replicate hx
  · exact key l s (by simp [h]) hl x hx

/-- Before the first calculation `getpdf_fit` gives zeros and `getpdf_diff` the observed values. -/
theorem before_calc (s : LSet) (h : Fresh s) (l : List Op) (hl : ∀ o ∈ l, ∀ vals, o ≠ .determine vals) :
    ∃ o : List ℝ, getObs (run s l) = .ok o ∧ getDiff (run s l) = .ok o ∧ getFit (run s l) = .ok (List.replicate o.length 0) := by
  have hok := run_ok (fresh_ok h) l
  have hz := no_calc h.empty l hl
  have hf := filled_len hok
  have h0 := hok.lo
  have hgrid : ∀ i ∈ grid (run s l).nfmin (run s l).nfmax, 0 ≤ i ∧ i ≤ (run s l).nfmax := by
    intro i hi
    rw [mem_grid] at hi
    omega
  have eo := readList_ok (run s l).d.obs (grid (run s l).nfmin (run s l).nfmax) fun i hi => by
    have := hgrid i hi; have := hok.hi; rw [hok.inv.obs]; omega
  have ef := readList_ok (run s l).filled.pdftot (grid (run s l).nfmin (run s l).nfmax) fun i hi => by
    have := hgrid i hi; omega
  have z : ∀ k, (run s l).filled.pdftot.getD k 0 = 0 := by
    intro k
    by_cases hk : k < (run s l).filled.pdftot.length
    · rw [List.getD_eq_getElem?_getD, List.getElem?_eq_getElem hk]
      exact hz _ (List.getElem_mem hk)
    · rw [List.getD_eq_getElem?_getD, List.getElem?_eq_none (by omega)]
      rfl
  refine ⟨_, eo, ?_, ?_⟩
  · unfold getDiff
    rw [eo, Res.bind_ok, ef, Res.bind_ok]
    simp only [z, List.zipWith_map, List.zipWith_self, sub_zero]
  · unfold getFit
    rw [ef]
    simp only [z, List.map_const', List.length_map]

/-- After a calculation `getpdf_fit` gives the calculated values at the points of the fit range and `getpdf_diff` the observed values
minus these. -/
theorem calc_values (s : LSet) (h : Fresh s) (l : List Op) (vals : ℕ → ℝ) :
    ∃ N i, getFit (run s (l ++ [.determine vals])) = .ok ((List.range N).map fun k => vals (i + k)) ∧
      getDiff (run s (l ++ [.determine vals])) =
        .ok ((List.range N).map fun k => (run s l).d.obs.getD (i + k) 0 - vals (i + k)) ∧
      (i : ℤ) = (run s l).d.D.nfmin ∧ (N : ℤ) = (run s l).d.D.nfmax - (run s l).d.D.nfmin + 1 := by
  have e : run s (l ++ [.determine vals]) = step (run s l) (.determine vals) := by simp [run]
  rw [e]
  have hok0 := run_ok (fresh_ok h) l
  generalize run s l = t at hok0
  have hok := determine_ok hok0 vals
  have hf := filled_len hok
  have h0 : 0 ≤ t.d.D.nfmin := hok.lo
  have h1 : t.d.D.nfmin ≤ t.d.D.nfmax := hok.ord
  have h2 : t.d.D.nfmax < t.d.bin := hok.hi
  have h3 : t.d.D.nfmax ≤ t.d.D.ncmax := nfmax_le_ncmax ⟨hok0.inv.step, hok0.inv.lo, hok0.inv.ord⟩
  have efill : (step t (.determine vals)).filled.pdftot = (List.range (t.d.D.ncmax + 1).toNat).map vals := by
    unfold LSet.filled
    rw [if_neg]
    · rfl
    · change (List.range (t.d.D.ncmax + 1).toNat).map vals ≠ []
      simp
      omega
  have hgrid : ∀ i ∈ grid t.d.D.nfmin t.d.D.nfmax, 0 ≤ i ∧ i ≤ t.d.D.nfmax := by
    intro i hi
    rw [mem_grid] at hi
    omega
  have eo := readList_ok t.d.obs (grid t.d.D.nfmin t.d.D.nfmax) fun i hi => by
    have := hgrid i hi; rw [hok0.inv.obs]; omega
  have ef := readList_ok ((List.range (t.d.D.ncmax + 1).toNat).map vals) (grid t.d.D.nfmin t.d.D.nfmax) fun i hi => by
    have := hgrid i hi; simp; omega
  have idx : ∀ k : ℕ, (t.d.D.nfmin + (k : ℤ)).toNat = t.d.D.nfmin.toNat + k := by intro k; omega
  have hN : (t.d.D.nfmax + 1 - t.d.D.nfmin).toNat = (t.d.D.nfmax - t.d.D.nfmin + 1).toNat := by omega
  have hv : ∀ k ∈ List.range (t.d.D.nfmax - t.d.D.nfmin + 1).toNat,
      ((List.range (t.d.D.ncmax + 1).toNat).map vals).getD (t.d.D.nfmin.toNat + k) 0 = vals (t.d.D.nfmin.toNat + k) := by
    intro k hk
    rw [List.mem_range] at hk
    rw [List.getD_eq_getElem?_getD, List.getElem?_eq_getElem (by simp; omega)]
    simp
  refine ⟨(t.d.D.nfmax - t.d.D.nfmin + 1).toNat, t.d.D.nfmin.toNat, ?_, ?_, by omega, by omega⟩
  · unfold getFit
    rw [efill]
    change readList _ (grid t.d.D.nfmin t.d.D.nfmax) = _
    rw [ef]
    unfold grid
    rw [hN, List.map_map]
    congr 1
    refine List.map_congr_left fun k hk => ?_
    rw [← hv k hk, Function.comp_apply, idx]
  · unfold getDiff
    rw [efill]
    change (do
      let o ← readList t.d.obs (grid t.d.D.nfmin t.d.D.nfmax)
      let f ← readList _ (grid t.d.D.nfmin t.d.D.nfmax)
      Res.ok (o.zipWith (fun a b => a - b) f)) = _
    rw [eo, Res.bind_ok, ef, Res.bind_ok]
    unfold grid
    rw [hN, List.map_map, List.map_map, List.zipWith_map, List.zipWith_self]
    congr 1
    refine List.map_congr_left fun k hk => ?_
    rw [← hv k hk, Function.comp_apply, Function.comp_apply, idx]

/-! ### Violations -/

/-- The data set made by `alloc(tp, 0, 0, 1, 3, 5)`. -/
noncomputable def five : LSet :=
  ⟨⟨⟨1, 1 / 2, 1, 3, 0, 0, 0, 1⟩, 3, 5, List.replicate 5 0, List.replicate 5 1⟩, 0, 0, []⟩

theorem five_alloc : alloc 0 0 1 3 5 = .ok five.d := by
  unfold alloc
  rw [if_neg (by norm_num), if_neg (by norm_num), if_neg (by norm_num), if_neg (by norm_num)]
  have : ((3 : ℝ) - 1) / (((5 : ℤ) : ℝ) - 1) = 1 / 2 := by norm_num
  rw [this]
  rfl

theorem five_fresh : Fresh five :=
  ⟨C30.alloc_inv (by norm_num) five_alloc, by decide, rfl, .inl rfl, rfl⟩

theorem five_R {s : LSet} (h1 : s.nfmin = s.nfmax) (h2 : s.d.rmax = 3) (h3 : s.d.D.rmin = 1) (h4 : s.d.D.deltar = 1 / 2) :
    (getR s).length = 5 := by
  unfold getR
  rw [if_pos (by omega), h2, h3, h4]
  have : trunc ((3 - 1) / (1 / 2)) = 4 := by
    unfold trunc
    rw [if_pos (by norm_num)]
    have : ((3 : ℝ) - 1) / (1 / 2) = ((4 : ℤ) : ℝ) := by norm_num
    rw [this, Int.floor_intCast]
  rw [this]
  rfl

/-- **C31, violation**: after `alloc` the list of `r` values has 5 elements, the observed values have 1. -/
theorem after_alloc : (getR five).length = 5 ∧ ∃ O, getObs five = .ok O ∧ O.length = 1 :=
  ⟨five_R rfl rfl rfl rfl, _, rfl, rfl⟩

/-- **C31, violation**: the same after a calculation for a fit range that contains one grid point. -/
theorem single_point (vals : ℕ → ℝ) : (getR (run five [.range (9 / 5) (11 / 5), .determine vals])).length = 5 ∧
    ∃ O, getObs (run five [.range (9 / 5) (11 / 5), .determine vals]) = .ok O ∧ O.length = 1 := by
  have hr : five.d.range (9 / 5) (11 / 5) = .ok { five.d with D := { five.d.D with rfmin := 9 / 5, rfmax := 11 / 5 } } := by
    unfold DSet.range
    rw [if_pos]
    simp only [five]
    norm_num
  have e1 : (step five (.range (9 / 5) (11 / 5))) = { five with d := { five.d with D := { five.d.D with rfmin := 9 / 5, rfmax := 11 / 5 } } } := by
    simp only [step, hr, LSet.put]
  have n1 : nint (((9 : ℝ) / 5 - 1) / (1 / 2)) = 2 := by
    unfold nint
    rw [if_pos (by norm_num), Int.floor_eq_iff]
    norm_num
  have n2 : nint (((11 : ℝ) / 5 - 1) / (1 / 2)) = 2 := by
    unfold nint
    rw [if_pos (by norm_num), Int.floor_eq_iff]
    norm_num
  have hlo : (run five [.range (9 / 5) (11 / 5), .determine vals]).nfmin = 2 := by
    simp only [run, List.foldl_cons, List.foldl_nil, e1]
    exact n1
  have hhi : (run five [.range (9 / 5) (11 / 5), .determine vals]).nfmax = 2 := by
    simp only [run, List.foldl_cons, List.foldl_nil, e1]
    exact n2
  have hobs : (run five [.range (9 / 5) (11 / 5), .determine vals]).d.obs = List.replicate 5 0 := by
    simp only [run, List.foldl_cons, List.foldl_nil, e1]
    rfl
  refine ⟨five_R (by rw [hlo, hhi]) ?_ ?_ ?_, ?_⟩
  · simp only [run, List.foldl_cons, List.foldl_nil, e1]; rfl
  · simp only [run, List.foldl_cons, List.foldl_nil, e1]; rfl
  · simp only [run, List.foldl_cons, List.foldl_nil, e1]; rfl
  · unfold getObs
    rw [hlo, hhi, hobs]
    exact ⟨_, rfl, rfl⟩

/-- `pdfrange` does not change the lists. -/
theorem old_range (s : LSet) (lo hi : ℝ) : (step s (.range lo hi)).nfmin = s.nfmin ∧ (step s (.range lo hi)).nfmax = s.nfmax := by
  simp only [step]
  cases s.d.range lo hi <;> exact ⟨rfl, rfl⟩

/-- After a calculation over the whole range of `five` all lists have 5 elements. -/
example (vals : ℕ → ℝ) : ∃ i, Agree (run five [.determine vals]) 5 i ∧ ∀ k, i (k + 1) = i k + 1 := by
  have n1 : five.d.D.nfmin = 0 := by
    unfold Data.nfmin nint
    simp only [five]
    norm_num
  have n2 : five.d.D.nfmax = 4 := by
    unfold Data.nfmax nint
    simp only [five]
    norm_num
  have e1 : (run five [.determine vals]).nfmin = 0 := n1
  have e2 : (run five [.determine vals]).nfmax = 4 := n2
  have := equal_partial five five_fresh [.determine vals] (by rw [e1, e2]; decide)
  rwa [e1, e2] at this

/-- After `alloc` the calculated PDF is zero. -/
example : getFit five = .ok [0] := by
  obtain ⟨o, h1, _, h2⟩ := before_calc five five_fresh [] (by simp)
  cases h1
  exact h2

end Pdffit.C31
