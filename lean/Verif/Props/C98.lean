import Verif.Lemmas.SaveNum
import Verif.Props.C34

/-!
# C98: a saved curve can be read as data

The text returned by `save_pdf` or `save_dif` after a calculation is given to `read_data_string`. Numbers are written with six digits (`Model/SaveNum.lean`).

* `C98_pdf_partial`, `C98_dif_partial`: if the fit range has at least two points and ends below 100 Å the text is accepted; the data have one point for
  each point of the fit range, the values are those of `getpdf_fit` (`getpdf_diff`) up to half a unit of the sixth digit, the range and the step differ by at
  most 0.0001 Å, and the weights are 1.
* `C98_single`: the text of a single point is refused.
* `C98_violated`: the regular grid 500.1875, 500.3125, 500.4375, 500.5625 is written as 500.188, 500.312, 500.438, 500.562; the text is refused because
  "the grid is not regular".
-/

namespace Pdffit.C98
open Save Lists Det DataRead C31 C52 SaveNum

/-- Points close to a regular grid are accepted. -/
theorem regular_near (x : ℕ → ℝ) (a d h : ℝ) (n : ℕ) (hx : ∀ k ≤ n + 1, |x k - (a + k * d)| ≤ h) (hh : 4 * h ≤ tol) :
    isRegular ((List.range (n + 2)).map x) = true := by
  rw [C34.regular_iff]
  intro k hk
  have h0 := hx 0 (by omega)
  have h1 := hx k (by omega)
  have h2 := hx (k + 1) (by omega)
  have h3 := hx (n + 1) le_rfl
  have hp : (1 : ℝ) ≤ (n : ℝ) + 1 := by have : (0 : ℝ) ≤ n := Nat.cast_nonneg n; linarith
  have hh0 : 0 ≤ h := (abs_nonneg _).trans h0
  have hm : |(x (n + 1) - x 0) / (n + 1) - d| ≤ 2 * h := by
    have e : (x (n + 1) - x 0) / (n + 1) - d = ((x (n + 1) - (a + ((n + 1 : ℕ) : ℝ) * d)) - (x 0 - (a + ((0 : ℕ) : ℝ) * d))) / (n + 1) := by
      push_cast
      field_simp
      ring
    rw [e, abs_div, abs_of_pos (by linarith : (0 : ℝ) < n + 1), div_le_iff₀ (by linarith)]
    have := abs_sub (x (n + 1) - (a + ((n + 1 : ℕ) : ℝ) * d)) (x 0 - (a + ((0 : ℕ) : ℝ) * d))
    nlinarith
  push_cast at h2
  rw [abs_le] at *
  constructor <;> linarith [h1.1, h1.2, h2.1, h2.2, hm.1, hm.2]

theorem reread_grid (g : ℕ → List ℝ) (m c : ℕ) (hlen : ∀ k, (g k).length = c) (hc : 2 ≤ c) (n : ℕ) (hn : 0 < n) :
    readStream SaveNum.scan n (file prt ((List.range (m + 1)).map fun k => (g k).map some)) =
      some (readRows c ((List.range (m + 1)).map fun k => (g k).map rnd)) := by
  have := C52.reread_rows printer (g 0) ((List.range m).map fun k => g (k + 1)) (by
    intro x hx
    rcases List.mem_cons.1 hx with rfl | hx
    · rw [hlen]; exact hc
    · obtain ⟨k, -, rfl⟩ := List.mem_map.1 hx
      rw [hlen]; exact hc) n hn
  rw [hlen] at this
  rw [List.range_succ_eq_map]
  simpa [Function.comp_def] using this

/-- What is read. -/
theorem load (g : ℕ → List ℝ) (m c : ℕ) (hlen : ∀ k, (g k).length = c) (hc : c = 2 ∨ c = 5) (a d : ℝ)
    (h0 : ∀ k, (g k).getD 0 0 = a + k * d) (hr : ∀ k ≤ m + 1, |a + k * d| < 100) (n : ℕ) (hn : 0 < n) :
    ∃ L, readStream SaveNum.scan n (file prt ((List.range (m + 2)).map fun k => (g k).map some)) = some (.ok L) ∧
      L.obs = (List.range (m + 2)).map (fun k => rnd ((g k).getD 1 0)) ∧ |L.rmin - a| ≤ 1 / 20000 ∧
      |L.rmax - (a + (m + 1) * d)| ≤ 1 / 20000 ∧ (∃ δ, L.deltar = some δ ∧ |δ - d| ≤ 1 / 10000) ∧
      L.wic = (List.range (m + 2)).map fun _ => some 1 := by
  have hd : ∀ k j, ((g k).map rnd).getD j 0 = rnd ((g k).getD j 0) := by
    intro k j
    rw [List.getD_eq_getElem?_getD, List.getD_eq_getElem?_getD, List.getElem?_map]
    rcases (g k)[j]? with _ | x
    · exact rnd_zero.symm
    · rfl
  have e1 : ((List.range (m + 2)).map fun k => (g k).map rnd).map (fun x => x.getD 0 0) = (List.range (m + 2)).map fun k : ℕ => rnd (a + k * d) := by
    rw [List.map_map]
    refine List.map_congr_left fun k _ => ?_
    simp only [Function.comp_apply]
    rw [hd, h0]
  have e2 : ((List.range (m + 2)).map fun k => (g k).map rnd).map (fun x => x.getD 1 0) = (List.range (m + 2)).map fun k => rnd ((g k).getD 1 0) := by
    rw [List.map_map]
    refine List.map_congr_left fun k _ => ?_
    simp only [Function.comp_apply]
    rw [hd]
  have hnear : ∀ k ≤ m + 1, |rnd (a + k * d) - (a + k * d)| ≤ 1 / 20000 := by
    intro k hk
    have := rnd_near (x := a + k * d) (k := 2) (by have := hr k hk; norm_num; linarith)
    refine this.trans ?_
    norm_num
  have hreg := regular_near (fun k => rnd (a + k * d)) a d (1 / 20000) m hnear (by norm_num [tol])
  have hhead : ((List.range (m + 2)).map fun k : ℕ => rnd (a + k * d)).head?.getD 0 = rnd (a + ((0 : ℕ) : ℝ) * d) := by
    rw [List.range_succ_eq_map]; rfl
  have hlast : ((List.range (m + 2)).map fun k : ℕ => rnd (a + k * d)).getLast?.getD 0 = rnd (a + ((m + 1 : ℕ) : ℝ) * d) := by
    rw [List.range_succ]; simp
  have n0 := hnear 0 (by omega)
  have n1 := hnear (m + 1) le_rfl
  have hw : ∀ T : List (List ℝ), wics c T = T.map fun _ => 1 := by
    intro T
    unfold wics
    rcases hc with rfl | rfl
    · rw [if_neg (by simp [lwei])]
    · have w5 : ∀ x : List ℝ, weight 5 x = some 1 := fun _ => rfl
      simp [w5]
  have hread := reread_grid g (m + 1) c hlen (by omega) n hn
  unfold readRows at hread
  dsimp only at hread
  rw [e1, e2, if_pos hreg, if_neg (by simp)] at hread
  refine ⟨_, hread, rfl, ?_⟩
  · refine ⟨?_, ?_, ⟨_, rfl, ?_⟩, ?_⟩
    · dsimp only
      rw [hhead]
      simpa using n0
    · dsimp only
      rw [hlast]
      simpa using n1
    · rw [hhead, hlast]
      simp only [List.length_map, List.length_range]
      have hp : (0 : ℝ) < (m : ℝ) + 1 := by positivity
      have hp1 : (1 : ℝ) ≤ (m : ℝ) + 1 := by have : (0 : ℝ) ≤ m := Nat.cast_nonneg m; linarith
      have e : (rnd (a + ((m + 1 : ℕ) : ℝ) * d) - rnd (a + ((0 : ℕ) : ℝ) * d)) / (((m + 2 : ℕ) : ℝ) - 1) - d =
          ((rnd (a + ((m + 1 : ℕ) : ℝ) * d) - (a + ((m + 1 : ℕ) : ℝ) * d)) - (rnd (a + ((0 : ℕ) : ℝ) * d) - (a + ((0 : ℕ) : ℝ) * d))) / (m + 1) := by
        generalize rnd (a + ((m + 1 : ℕ) : ℝ) * d) = u
        generalize rnd (a + ((0 : ℕ) : ℝ) * d) = v
        push_cast
        have : (m : ℝ) + 2 - 1 = m + 1 := by ring
        rw [this]
        field_simp
        ring
      rw [e, abs_div, abs_of_pos hp, div_le_iff₀ hp]
      refine (abs_sub (rnd (a + ((m + 1 : ℕ) : ℝ) * d) - (a + ((m + 1 : ℕ) : ℝ) * d)) (rnd (a + ((0 : ℕ) : ℝ) * d) - (a + ((0 : ℕ) : ℝ) * d))).trans ((add_le_add n1 n0).trans ?_)
      linarith
    · dsimp only
      rw [hw]
      simp [Function.comp_def]

/-! ### Saved curves -/

/-- Line `k` of the curve. -/
noncomputable def pdfLine (s : LSet) (k : ℕ) : List ℝ :=
  [(s.d.D.rmin + s.nfmin * s.d.D.deltar) + k * s.d.D.deltar, s.pdftot.getD (s.nfmin + k).toNat 0, 0, 1 / √(s.d.wic.getD (s.nfmin + k).toNat 0),
    s.d.obs.getD (s.nfmin + k).toNat 0 - s.pdftot.getD (s.nfmin + k).toNat 0]

/-- Line `k` of the difference. -/
noncomputable def difLine (s : LSet) (k : ℕ) : List ℝ :=
  [(s.d.D.rmin + s.nfmin * s.d.D.deltar) + k * s.d.D.deltar, s.d.obs.getD (s.nfmin + k).toNat 0 - s.pdftot.getD (s.nfmin + k).toNat 0]

theorem lines_pdf {s : LSet} (h : Ok s) (hne : s.pdftot ≠ []) (hw : ∀ i, s.nfmin ≤ i → i ≤ s.nfmax → 0 < s.d.wic.getD i.toNat 0) :
    pdfRows s = .ok ((List.range (s.nfmax + 1 - s.nfmin).toNat).map fun k => (pdfLine s k).map some) := by
  rw [(rows_of_ok h hne).1]
  unfold grid
  rw [List.map_map]
  congr 1
  refine List.map_congr_left fun k hk => ?_
  rw [List.mem_range] at hk
  simp only [Function.comp_apply, pdfLine, List.map_cons, List.map_nil]
  rw [if_pos (hw _ (by omega) (by omega))]
  push_cast
  congr 2
  ring

theorem lines_dif {s : LSet} (h : Ok s) (hne : s.pdftot ≠ []) :
    difRows s = .ok ((List.range (s.nfmax + 1 - s.nfmin).toNat).map fun k => (difLine s k).map some) := by
  rw [(rows_of_ok h hne).2]
  unfold grid
  rw [List.map_map]
  congr 1
  refine List.map_congr_left fun k hk => ?_
  simp only [Function.comp_apply, difLine, List.map_cons, List.map_nil]
  push_cast
  congr 2
  ring

/-- The data read from the text of `s` belong to the list of values `F`. -/
structure Matches (s : LSet) (F : List ℝ) (L : Loaded ℝ) : Prop where
  len : L.obs.length = F.length
  /-- The values are equal up to half a unit of the sixth digit. -/
  vals : ∀ (k : ℕ) (f : ℝ), F[k]? = some f → ∃ g, L.obs[k]? = some g ∧ |g - f| ≤ |f| / 200000
  rmin : |L.rmin - (s.d.D.rmin + s.nfmin * s.d.D.deltar)| ≤ 1 / 20000
  rmax : |L.rmax - (s.d.D.rmin + s.nfmax * s.d.D.deltar)| ≤ 1 / 20000
  step : ∃ δ, L.deltar = some δ ∧ |δ - s.d.D.deltar| ≤ 1 / 10000
  wic : L.wic = F.map fun _ => some 1

theorem matches_of {s : LSet} (g : ℕ → List ℝ) (v : ℤ → ℝ) (c : ℕ) (hc : c = 2 ∨ c = 5) (hlen : ∀ k, (g k).length = c)
    (h0 : ∀ k, (g k).getD 0 0 = (s.d.D.rmin + s.nfmin * s.d.D.deltar) + k * s.d.D.deltar)
    (h1 : ∀ k : ℕ, (g k).getD 1 0 = v (s.nfmin + k)) (h2 : s.nfmin < s.nfmax)
    (hr : ∀ i : ℤ, s.nfmin ≤ i → i ≤ s.nfmax → |s.d.D.rmin + i * s.d.D.deltar| < 100) (n : ℕ) (hn : 0 < n) :
    ∃ L, readStream SaveNum.scan n (file prt ((List.range (s.nfmax + 1 - s.nfmin).toNat).map fun k => (g k).map some)) = some (.ok L) ∧
      Matches s ((grid s.nfmin s.nfmax).map v) L := by
  obtain ⟨m, hm⟩ : ∃ m : ℕ, (s.nfmax + 1 - s.nfmin).toNat = m + 2 := ⟨(s.nfmax + 1 - s.nfmin).toNat - 2, by omega⟩
  have hmi : s.nfmax = s.nfmin + (m + 1) := by omega
  obtain ⟨L, e, ho, ha, hb, hs, hw⟩ := load g m c hlen hc _ _ h0 (by
    intro k hk
    have := hr (s.nfmin + k) (by omega) (by omega)
    push_cast at this
    rwa [show s.d.D.rmin + (s.nfmin : ℝ) * s.d.D.deltar + k * s.d.D.deltar = s.d.D.rmin + (s.nfmin + k) * s.d.D.deltar by ring]) n hn
  rw [hm]
  refine ⟨L, e, ?_, ?_, ha, ?_, hs, ?_⟩
  · rw [ho]
    unfold grid
    simp [hm]
  · intro k f hf
    unfold grid at hf
    rw [hm, List.map_map, List.getElem?_map] at hf
    by_cases hk : k < m + 2
    · rw [List.getElem?_range hk] at hf
      simp only [Option.map_some, Function.comp_apply, Option.some.injEq] at hf
      refine ⟨rnd f, ?_, rnd_rel f⟩
      rw [ho, List.getElem?_map, List.getElem?_range hk, Option.map_some, h1, hf]
    · rw [List.getElem?_eq_none (by simp; omega)] at hf
      simp at hf
  · rw [hmi]
    push_cast
    rwa [show s.d.D.rmin + ((s.nfmin : ℝ) + (m + 1)) * s.d.D.deltar = s.d.D.rmin + s.nfmin * s.d.D.deltar + (m + 1) * s.d.D.deltar by ring]
  · rw [hw]
    unfold grid
    simp [hm, Function.comp_def]

/-- **C98, the part that holds**, for `save_pdf`. -/
theorem C98_pdf_partial (s : LSet) (h : Fresh s) (l : List Op) (hl : ∃ o ∈ l, Fills o) (h2 : (run s l).nfmin < (run s l).nfmax)
    (hr : ∀ i : ℤ, (run s l).nfmin ≤ i → i ≤ (run s l).nfmax → |(run s l).d.D.rmin + i * (run s l).d.D.deltar| < 100)
    (hw : ∀ i : ℤ, (run s l).nfmin ≤ i → i ≤ (run s l).nfmax → 0 < (run s l).d.wic.getD i.toNat 0) (n : ℕ) (hn : 0 < n) :
    ∃ rows L F, pdfRows (run s l) = .ok rows ∧ getFit (run s l) = .ok F ∧ readStream SaveNum.scan n (file prt rows) = some (.ok L) ∧
      Matches (run s l) F L := by
  have hok := run_ok (fresh_ok h) l
  have hne := run_filled s l (fresh_ok h) (.inr hl)
  obtain ⟨L, e, hM⟩ := matches_of (s := run s l) (pdfLine (run s l)) (fun i => (run s l).pdftot.getD i.toNat 0) 5 (.inr rfl) (fun _ => rfl) (fun _ => rfl)
    (fun _ => rfl) h2 hr n hn
  exact ⟨_, L, _, lines_pdf hok hne hw, (lists_of_ok hok hne).2.1, e, hM⟩

/-- **C98, the part that holds**, for `save_dif`. -/
theorem C98_dif_partial (s : LSet) (h : Fresh s) (l : List Op) (hl : ∃ o ∈ l, Fills o) (h2 : (run s l).nfmin < (run s l).nfmax)
    (hr : ∀ i : ℤ, (run s l).nfmin ≤ i → i ≤ (run s l).nfmax → |(run s l).d.D.rmin + i * (run s l).d.D.deltar| < 100) (n : ℕ) (hn : 0 < n) :
    ∃ rows L D, difRows (run s l) = .ok rows ∧ getDiff (run s l) = .ok D ∧ readStream SaveNum.scan n (file prt rows) = some (.ok L) ∧
      Matches (run s l) D L := by
  have hok := run_ok (fresh_ok h) l
  have hne := run_filled s l (fresh_ok h) (.inr hl)
  obtain ⟨L, e, hM⟩ := matches_of (s := run s l) (difLine (run s l)) (fun i => (run s l).d.obs.getD i.toNat 0 - (run s l).pdftot.getD i.toNat 0) 2 (.inl rfl)
    (fun _ => rfl) (fun _ => rfl) (fun _ => rfl) h2 hr n hn
  exact ⟨_, L, _, lines_dif hok hne, (lists_of_ok hok hne).2.2, e, hM⟩

/-! ### Violations -/

/-- **C98, violation**: the text of a single point is refused. -/
theorem C98_single (s : LSet) (h : Fresh s) (l : List Op) (hl : ∃ o ∈ l, Fills o) (h1 : (run s l).nfmin = (run s l).nfmax) (n : ℕ) (hn : 0 < n) :
    (∃ rows, difRows (run s l) = .ok rows ∧ readStream SaveNum.scan n (file prt rows) = some (.err .data)) ∧
    ((∀ i : ℤ, (run s l).nfmin ≤ i → i ≤ (run s l).nfmax → 0 < (run s l).d.wic.getD i.toNat 0) →
      ∃ rows, pdfRows (run s l) = .ok rows ∧ readStream SaveNum.scan n (file prt rows) = some (.err .data)) := by
  have hok := run_ok (fresh_ok h) l
  have hne := run_filled s l (fresh_ok h) (.inr hl)
  have e1 : ((run s l).nfmax + 1 - (run s l).nfmin).toNat = 0 + 1 := by omega
  refine ⟨⟨_, lines_dif hok hne, ?_⟩, fun hw => ⟨_, lines_pdf hok hne hw, ?_⟩⟩
  · rw [e1, reread_grid (difLine (run s l)) 0 2 (fun _ => rfl) (by norm_num) n hn]
    simp [readRows, isRegular, List.range_succ]
  · rw [e1, reread_grid (pdfLine (run s l)) 0 5 (fun _ => rfl) (by norm_num) n hn]
    simp [readRows, isRegular, List.range_succ]

/-- The data set made by `alloc(tp, 0, 0, 500.1875, 500.5625, 4)`. -/
noncomputable def eighth : LSet :=
  ⟨⟨⟨8003 / 16, 1 / 8, 8003 / 16, 8009 / 16, 0, 0, 0, 1⟩, 8009 / 16, 4, List.replicate 4 0, List.replicate 4 1⟩, 0, 0, []⟩

theorem eighth_alloc : alloc 0 0 (8003 / 16) (8009 / 16) 4 = .ok eighth.d := by
  unfold alloc
  rw [if_neg (by norm_num), if_neg (by norm_num), if_neg (by norm_num), if_neg (by norm_num)]
  have : ((8009 / 16 : ℝ) - 8003 / 16) / (((4 : ℤ) : ℝ) - 1) = 1 / 8 := by norm_num
  rw [this]
  rfl

theorem eighth_fresh : Fresh eighth :=
  ⟨C30.alloc_inv (by norm_num) eighth_alloc, by decide, rfl, .inl rfl, rfl⟩

theorem near_tie (k : ℕ) (q : ℝ) (h : q = k + 1 / 2) : SaveNum.near q = if k % 2 = 0 then k else k + 1 := by
  have hf : ⌊q⌋ = k := by rw [Int.floor_eq_iff]; rw [h]; constructor <;> push_cast <;> linarith
  unfold SaveNum.near
  rw [hf, h]
  simp

/-- The six digits of the four points. -/
theorem eighth_digits : rnd (8003 / 16) = 500188 / 1000 ∧ rnd (8005 / 16) = 500312 / 1000 ∧ rnd (8007 / 16) = 500438 / 1000 ∧
    rnd (8009 / 16) = 500562 / 1000 := by
  have key : ∀ (x : ℝ) (k n : ℕ), 100 ≤ x → x < 1000 → x * 1000 = k + 1 / 2 → (if k % 2 = 0 then k else k + 1) = n → rnd x = n / 1000 := by
    intro x k n h1 h2 h3 h4
    have e := rnd_of (x := x) (e := 2) (n := n) (by norm_num; exact h1) (by norm_num; exact h2)
      (by rw [← h4]; refine near_tie k _ ?_; norm_num; linarith)
    rw [e]
    norm_num
    ring
  refine ⟨?_, ?_, ?_, ?_⟩
  · have := key (8003 / 16) 500187 500188 (by norm_num) (by norm_num) (by norm_num) (by norm_num)
    rw [this]; norm_num
  · have := key (8005 / 16) 500312 500312 (by norm_num) (by norm_num) (by norm_num) (by norm_num)
    rw [this]; norm_num
  · have := key (8007 / 16) 500437 500438 (by norm_num) (by norm_num) (by norm_num) (by norm_num)
    rw [this]; norm_num
  · have := key (8009 / 16) 500562 500562 (by norm_num) (by norm_num) (by norm_num) (by norm_num)
    rw [this]; norm_num

theorem eighth_run (vals : ℕ → ℝ) : (run eighth [.determine vals]).nfmin = 0 ∧ (run eighth [.determine vals]).nfmax = 3 ∧
    (run eighth [.determine vals]).d = eighth.d := by
  refine ⟨?_, ?_, rfl⟩
  · show nint (((8003 : ℝ) / 16 - 8003 / 16) / (1 / 8)) = 0
    unfold nint
    rw [if_pos (by norm_num), Int.floor_eq_iff]
    norm_num
  · show nint (((8009 : ℝ) / 16 - 8003 / 16) / (1 / 8)) = 3
    unfold nint
    rw [if_pos (by norm_num), Int.floor_eq_iff]
    norm_num

/-- **C98, violation**: the text of a regular grid of four points is refused, whatever the values. -/
theorem C98_violated : ∃ s, Fresh s ∧ ∀ (vals : ℕ → ℝ) (n : ℕ), 0 < n →
    (run s [.determine vals]).nfmin + 3 = (run s [.determine vals]).nfmax ∧
    (∃ rows, pdfRows (run s [.determine vals]) = .ok rows ∧ readStream SaveNum.scan n (file prt rows) = some (.err .data)) ∧
    ∃ rows, difRows (run s [.determine vals]) = .ok rows ∧ readStream SaveNum.scan n (file prt rows) = some (.err .data) := by
  refine ⟨eighth, eighth_fresh, fun vals n hn => ?_⟩
  obtain ⟨h1, h2, h3⟩ := eighth_run vals
  have hok := run_ok (fresh_ok eighth_fresh) [.determine vals]
  have hne := run_filled eighth [.determine vals] (fresh_ok eighth_fresh) (.inr ⟨.determine vals, by simp, trivial⟩)
  set t := run eighth [.determine vals] with ht
  have e1 : (t.nfmax + 1 - t.nfmin).toNat = 3 + 1 := by omega
  obtain ⟨d0, d1, d2, d3⟩ := eighth_digits
  have key : ∀ (g : ℕ → List ℝ) (c : ℕ), (∀ k : ℕ, (g k).getD 0 0 = (t.d.D.rmin + t.nfmin * t.d.D.deltar) + k * t.d.D.deltar) →
      readRows c ((List.range (3 + 1)).map fun k => (g k).map rnd) = .err .data := by
    intro g c hg
    have hd : ∀ k, ((g k).map rnd).getD 0 0 = rnd ((g k).getD 0 0) := by
      intro k
      rw [List.getD_eq_getElem?_getD, List.getD_eq_getElem?_getD, List.getElem?_map]
      rcases (g k)[0]? with _ | x
      · exact rnd_zero.symm
      · rfl
    have hx : ∀ (k : ℕ) (y : ℝ), (8003 / 16 : ℝ) + k * (1 / 8) = y → (g k).getD 0 0 = y := by
      intro k y hy
      rw [hg, h3, h1, ← hy]
      simp only [eighth]
      push_cast
      ring
    have e : ((List.range (3 + 1)).map fun k => (g k).map rnd).map (fun x => x.getD 0 0) =
        [500188 / 1000, 500312 / 1000, 500438 / 1000, 500562 / 1000] := by
      rw [List.map_map]
      simp only [List.range_succ, List.range_zero, List.nil_append, List.cons_append, List.map_cons, List.map_nil, Function.comp_apply, hd]
      rw [hx 0 (8003 / 16) (by norm_num), hx 1 (8005 / 16) (by norm_num), hx 2 (8007 / 16) (by norm_num), hx 3 (8009 / 16) (by norm_num),
        d0, d1, d2, d3]
    unfold readRows
    dsimp only
    rw [e, if_neg]
    unfold isRegular
    rw [if_neg (by simp)]
    have hm : meanStep [(500188 : ℝ) / 1000, 500312 / 1000, 500438 / 1000, 500562 / 1000] = 374 / 3000 := by
      unfold meanStep
      norm_num
    rw [hm]
    intro hc
    rw [List.all_eq_true] at hc
    have := of_decide_eq_true (hc (500438 / 1000 - 500312 / 1000) (by simp [steps]))
    unfold tol at this
    have := (abs_le.1 this).2
    norm_num at this
  refine ⟨by omega, ⟨_, lines_pdf hok hne ?_, ?_⟩, ⟨_, lines_dif hok hne, ?_⟩⟩
  · intro i hi hj
    rw [h3]
    have : i.toNat < 4 := by omega
    show 0 < (List.replicate 4 (1 : ℝ)).getD i.toNat 0
    rw [List.getD_eq_getElem?_getD, List.getElem?_replicate, if_pos this]
    norm_num
  · rw [e1, reread_grid (pdfLine t) 3 5 (fun _ => rfl) (by norm_num) n hn, key (pdfLine t) 5 fun _ => rfl]
  · rw [e1, reread_grid (difLine t) 3 2 (fun _ => rfl) (by norm_num) n hn, key (difLine t) 2 fun _ => rfl]

/-! ### Examples -/

/-- The exponent is printed below 0.0001 and from 1000000 on. -/
theorem C98_form : ptText (123456, -4) = "0.000123456".toList ∧ ptText (123456, -5) = "1.23456e-05".toList ∧ ptText (123456, 5) = "123456.".toList ∧
    ptText (123456, 6) = "1.23456e+06".toList := by
  refine ⟨?_, ?_, ?_, ?_⟩ <;> simp [ptText, Stru.natStr, Stru.fracStr, RText.expText, Stru.digit]

/-- Zero is written with five zeros after the point. -/
example : prt (some 0) = "0.00000".toList := by
  have : dig |(0 : ℝ)| = (0, 0) := by simp [dig]
  have e : Stru.natStr 0 = ['0'] := by rw [Stru.natStr]; decide
  simp only [prt, this, lt_irrefl, decide_false]
  simp [ptText, e, Stru.sign]
  decide

/-- The third of the four points with the other sign, the tie is rounded to even. -/
example : prt (some (-(8007 / 16))) = "-500.438".toList := by
  have hd : dig |(-(8007 / 16) : ℝ)| = (500438, 2) := by
    rw [abs_neg, abs_of_pos (by norm_num)]
    exact dig_of (by norm_num) (by norm_num) (by rw [near_tie 500437 _ (by norm_num)]; norm_num) (by norm_num)
  have e : Stru.natStr 500 = ['5', '0', '0'] := by
    rw [Stru.natStr, if_neg (by norm_num), Stru.natStr, if_neg (by norm_num), Stru.natStr, if_pos (by norm_num)]
    decide
  have hn : decide (-(8007 / 16 : ℝ) < 0) = true := by simp
  simp only [prt, hd]
  rw [show ptText (500438, 2) = ['5', '0', '0'] ++ '.' :: Stru.fracStr 3 438 by rw [← e]; rfl]
  simp [Stru.sign]
  decide

/-- Five points from 1 to 3 Å. -/
example (vals : ℕ → ℝ) (n : ℕ) (hn : 0 < n) : ∃ rows L F, pdfRows (run five [.determine vals]) = .ok rows ∧ getFit (run five [.determine vals]) = .ok F ∧
    F.length = 5 ∧ readStream SaveNum.scan n (file prt rows) = some (.ok L) ∧ L.obs.length = 5 := by
  have h1 : (run five [.determine vals]).nfmin = 0 := by
    show nint (((1 : ℝ) - 1) / (1 / 2)) = 0
    unfold nint
    rw [if_pos (by norm_num), Int.floor_eq_iff]
    norm_num
  have h2 : (run five [.determine vals]).nfmax = 4 := by
    show nint (((3 : ℝ) - 1) / (1 / 2)) = 4
    unfold nint
    rw [if_pos (by norm_num), Int.floor_eq_iff]
    norm_num
  obtain ⟨rows, L, F, e1, e2, e3, M⟩ := C98_pdf_partial five five_fresh [.determine vals] ⟨.determine vals, by simp, trivial⟩ (by omega)
    (by
      intro i hi hj
      rw [h1] at hi
      rw [h2] at hj
      show |(1 : ℝ) + i * (1 / 2)| < 100
      have a1 : (0 : ℝ) ≤ i := by exact_mod_cast hi
      have a2 : (i : ℝ) ≤ 4 := by exact_mod_cast hj
      rw [abs_lt]
      constructor <;> linarith)
    (by
      intro i hi hj
      have : i.toNat < 5 := by omega
      show 0 < (List.replicate 5 (1 : ℝ)).getD i.toNat 0
      rw [List.getD_eq_getElem?_getD, List.getElem?_replicate, if_pos this]
      norm_num) n hn
  have hF : F.length = 5 := by
    obtain ⟨rows', F', D, f1, f2, -, f4, -⟩ := columns_partial five five_fresh [.determine vals] ⟨.determine vals, by simp, trivial⟩
    have hok := run_ok (fresh_ok five_fresh) [.determine vals]
    have hne := run_filled five [.determine vals] (fresh_ok five_fresh) (.inr ⟨.determine vals, by simp, trivial⟩)
    have := (lists_of_ok hok hne).2.1
    rw [e2] at this
    injection this with this
    rw [this]
    simp [grid, h1, h2]
  exact ⟨rows, L, F, e1, e2, hF, e3, by rw [M.len, hF]⟩

end Pdffit.C98
