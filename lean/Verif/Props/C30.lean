import Verif.Lemmas.DetDemo

/-!
# C30: the calculation never indexes outside its arrays

`Model/Determine.lean` checks every access to `ppp`, `calc`, `pdftot`, the buffer of the termination filter, `obs` and `wic`;
an access outside gives `Res.ub`. The theorems say that this outcome does not occur, for any structure, any selection,
any peak position and width (also negative ones), any Qmax, particle diameter and step cut.

The derivatives are in `Props/C30Mat.lean`.
-/

namespace Pdffit.C30
open Det

/-- A data set as the readers and `alloc` leave it, with a positive step, and as `range` keeps it. -/
structure Inv (d : DSet) : Prop where
  step : 0 < d.D.deltar
  lo : d.D.rmin ≤ d.D.rfmin
  ord : d.D.rfmin ≤ d.D.rfmax
  hi : d.D.rfmax ≤ d.rmax
  grid : d.rmax = d.D.rmin + (d.bin - 1) * d.D.deltar
  obs : d.obs.length = d.bin
  wic : d.wic.length = d.bin

theorem alloc_inv {qmax qdamp rmin rmax : ℝ} {bin : ℤ} {d : DSet} (hlt : rmin < rmax)
    (h : alloc qmax qdamp rmin rmax bin = .ok d) : Inv d := by
  unfold alloc at h
  split at h
  · simp at h
  split at h
  · simp at h
  rename_i hb
  split at h
  · simp at h
  split at h
  · simp at h
  simp only [Res.ok.injEq] at h
  subst h
  have hb' : (1 : ℝ) < bin := by exact_mod_cast not_le.1 hb
  have hc : ((bin.toNat : ℕ) : ℝ) = bin := by
    have : ((bin.toNat : ℕ) : ℤ) = bin := by omega
    exact_mod_cast this
  refine ⟨div_pos (by linarith) (by linarith), le_rfl, hlt.le, le_rfl, ?_, List.length_replicate, List.length_replicate⟩
  dsimp only
  rw [hc]
  have : (bin : ℝ) - 1 ≠ 0 := by linarith
  field_simp
  ring

theorem range_inv {d d' : DSet} {lo hi : ℝ} (h : d.range lo hi = .ok d') (i : Inv d) : Inv d' := by
  unfold DSet.range at h
  split at h
  · rename_i hc
    simp only [Res.ok.injEq] at h
    subst h
    exact ⟨i.step, hc.1, hc.2.2.2.le, hc.2.2.1, i.grid, i.obs, i.wic⟩
  · simp at h

/-- `determine` ends without any access outside the arrays. -/
theorem determine_ok (d : DSet) (i : Inv d) (psel : List (Option (PPhase × Sel))) : ∃ t, determine d.D psel = .ok t := by
  classical
  obtain ⟨t, h, -⟩ := determine_spec ⟨i.step, i.lo, i.ord⟩ psel
  exact ⟨_, h⟩

theorem nfmax_lt (d : DSet) (i : Inv d) : d.D.nfmax ≤ (d.bin : ℤ) - 1 := by
  have h := idx_mono (D := d.D) ⟨i.step, i.lo, i.ord⟩ i.hi
  have e : (d.rmax - d.D.rmin) / d.D.deltar = (((d.bin : ℤ) - 1 : ℤ) : ℝ) := by
    have := i.step.ne'
    rw [i.grid]
    push_cast
    field_simp
    ring
  rw [e, nint_int] at h
  exact h

theorem readAt_ok {l : List ℝ} {i : ℤ} (h0 : 0 ≤ i) (h : i < l.length) : ∃ x, readAt l i = .ok x := by
  unfold readAt
  rw [if_pos h0, Res.at?_of_lt (by omega)]
  exact ⟨_, rfl⟩

theorem resid_ok (d : DSet) (p : List ℝ) (l : List ℤ)
    (h : ∀ i ∈ l, 0 ≤ i ∧ i < d.wic.length ∧ i < d.obs.length ∧ i < p.length) :
    ∃ r, resid d p l = .ok r ∧ r.length = l.length := by
  induction l with
  | nil => exact ⟨[], rfl, rfl⟩
  | cons i l ih =>
    obtain ⟨h0, h1, h2, h3⟩ := h i (by simp)
    obtain ⟨w, hw⟩ := readAt_ok h0 h1
    obtain ⟨o, ho⟩ := readAt_ok h0 h2
    obtain ⟨q, hq⟩ := readAt_ok h0 h3
    obtain ⟨r, hr, hl⟩ := ih fun j hj => h j (List.mem_cons_of_mem _ hj)
    refine ⟨(w, o - q) :: r, ?_, by simp [hl]⟩
    rw [resid, hw, Res.bind_ok, ho, Res.bind_ok, hq, Res.bind_ok, hr, Res.bind_ok]

/-- The residuals are read inside the arrays, one for each point of the fit range, which has at least one point. -/
theorem residuals_ok (d : DSet) (i : Inv d) (psel : List (Option (PPhase × Sel))) :
    residuals d psel = .ok none ∨
    ∃ r, residuals d psel = .ok (some r) ∧ (r.length : ℤ) = d.D.nfmax - d.D.nfmin + 1 ∧ 0 < r.length := by
  have o : d.D.Ok := ⟨i.step, i.lo, i.ord⟩
  obtain ⟨t, ht⟩ := determine_ok d i psel
  unfold residuals
  rw [ht, Res.bind_ok]
  cases t with
  | none => exact Or.inl rfl
  | some t =>
    right
    have h1 := ncmin_nonneg o
    have h2 := ncmin_le_nfmin o
    have h3 := nfmin_le_nfmax o
    have h4 := nfmax_le_ncmax o
    have h5 := nfmax_lt d i
    obtain ⟨r, hr, hl⟩ := resid_ok d ((List.range (d.D.ncmax + 1).toNat).map fun n : ℕ => t n) (grid d.D.nfmin d.D.nfmax)
      fun j hj => by
        rw [mem_grid] at hj
        rw [i.obs, i.wic, List.length_map, List.length_range]
        omega
    dsimp only
    rw [hr, Res.bind_ok]
    have : (grid d.D.nfmin d.D.nfmax).length = (d.D.nfmax + 1 - d.D.nfmin).toNat := by simp [grid]
    exact ⟨r, rfl, by omega, by omega⟩

/-- The positive step is a hypothesis because `alloc` accepts `rmin = rmax`, for which the step is zero and the
indices are conversions of NaN to `int`. -/
theorem alloc_zero_step : ∃ d, alloc 0 0 1 1 2 = .ok d ∧ d.D.deltar = 0 := by
  unfold alloc
  rw [if_neg (by norm_num), if_neg (by norm_num), if_neg (by norm_num), if_neg (by norm_num)]
  exact ⟨_, rfl, by norm_num⟩

/-- `alloc('N', 25, 0, 1, 3, 5)` followed by `range(1.5, 2.5)`. -/
example : ∃ d d', alloc 25 0 1 3 5 = .ok d ∧ d.range (3 / 2) (5 / 2) = .ok d' ∧
    ∃ t, determine d'.D [some (demo, ⟨fun _ => false, fun _ => false⟩)] = .ok t := by
  have h1 : ∃ d, alloc 25 0 1 3 5 = .ok d ∧ d.D.rmin = 1 ∧ d.rmax = 3 := by
    unfold alloc
    rw [if_neg (by norm_num), if_neg (by norm_num), if_neg (by norm_num), if_neg (by norm_num)]
    exact ⟨_, rfl, rfl, rfl⟩
  obtain ⟨d, hd, e1, e2⟩ := h1
  have h2 : ∃ d', d.range (3 / 2) (5 / 2) = .ok d' := by
    unfold DSet.range
    rw [e1, e2, if_pos (by norm_num)]
    exact ⟨_, rfl⟩
  obtain ⟨d', hd'⟩ := h2
  exact ⟨d, d', hd, hd', determine_ok d' (range_inv hd' (alloc_inv (by norm_num) hd)) _⟩

end Pdffit.C30
