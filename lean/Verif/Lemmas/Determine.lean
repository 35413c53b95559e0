import Verif.Model.Determine
import Verif.Props.C42

/-! # Helper lemmas about the calculation of the PDF -/

namespace Pdffit.Det
open Geom Parser Bonds

theorem nint_mono {x y : ℝ} (h : x ≤ y) : nint x ≤ nint y := by
  unfold nint
  split <;> split
  · exact Int.floor_le_floor (by linarith)
  · linarith
  · rename_i h1 h2
    have a : ⌈x - 1 / 2⌉ ≤ 0 := Int.ceil_le.2 (by push_cast; linarith)
    have b : 0 ≤ ⌊y + 1 / 2⌋ := Int.floor_nonneg.2 (by linarith)
    omega
  · exact Int.ceil_le_ceil (by linarith)

theorem nint_int (n : ℤ) : nint (n : ℝ) = n := by
  unfold nint
  split
  · rw [Int.floor_eq_iff]; constructor <;> linarith
  · rw [Int.ceil_eq_iff]; constructor <;> linarith

theorem nint_nonneg {x : ℝ} (h : 0 ≤ x) : 0 ≤ nint x := by
  have := nint_mono h
  have h0 := nint_int 0
  push_cast at h0
  omega

/-- What `range`, `alloc` and the readers leave behind for a usable data set: a positive step and an ordered fit range not
starting before the grid. -/
structure Data.Ok (D : Data) : Prop where
  step : 0 < D.deltar
  lo : D.rmin ≤ D.rfmin
  hi : D.rfmin ≤ D.rfmax

section
variable {D : Data} (h : D.Ok)
include h

theorem rcmin_ge : D.rmin ≤ D.rcmin := by
  unfold Data.rcmin
  split
  · exact le_max_left _ _
  · exact h.lo

theorem rcmin_le : D.rcmin ≤ D.rfmin := by
  unfold Data.rcmin
  split
  · rename_i hq
    have : 0 ≤ 6 * 2 * Real.pi / D.qmax := by have := Real.pi_pos; positivity
    exact max_le h.lo (by linarith)
  · exact le_rfl

omit h in
theorem rcmax_ge : D.rfmax ≤ D.rcmax := by
  unfold Data.rcmax
  split
  · rename_i hq
    have : 0 ≤ 6 * 2 * Real.pi / D.qmax := by have := Real.pi_pos; positivity
    linarith
  · exact le_rfl

theorem idx_mono {x y : ℝ} (hxy : x ≤ y) : nint ((x - D.rmin) / D.deltar) ≤ nint ((y - D.rmin) / D.deltar) :=
  nint_mono ((div_le_div_iff_of_pos_right h.step).2 (by linarith))

theorem ncmin_nonneg : 0 ≤ D.ncmin :=
  nint_nonneg (div_nonneg (by linarith [rcmin_ge h]) h.step.le)

theorem ncmin_le_nfmin : D.ncmin ≤ D.nfmin := idx_mono h (rcmin_le h)
theorem nfmin_le_nfmax : D.nfmin ≤ D.nfmax := idx_mono h h.hi
theorem nfmax_le_ncmax : D.nfmax ≤ D.ncmax := idx_mono h rcmax_ge

theorem ncmin_le_ncmax : D.ncmin ≤ D.ncmax :=
  (ncmin_le_nfmin h).trans ((nfmin_le_nfmax h).trans (nfmax_le_ncmax h))

theorem nclen_pos : 0 < nclen D := by
  have := ncmin_le_ncmax h
  unfold nclen
  omega

theorem ib_ge (dist sig : ℝ) : D.ncmin ≤ ib D dist sig := idx_mono h (le_max_left _ _)

theorem ie_le (ph : PPhase) (dist sig : ℝ) : ie D ph dist sig ≤ D.ncmax := by
  unfold ie
  apply idx_mono h
  split
  · exact (min_le_left _ _).trans (min_le_left _ _)
  · exact min_le_left _ _

end

theorem mem_grid {lo hi i : ℤ} : i ∈ grid lo hi ↔ lo ≤ i ∧ i ≤ hi := by
  simp only [grid, List.mem_map, List.mem_range]
  constructor
  · rintro ⟨j, h, rfl⟩; omega
  · intro h; exact ⟨(i - lo).toNat, by omega, by omega⟩

theorem nodup_grid (lo hi : ℤ) : (grid lo hi).Nodup := by
  apply List.Nodup.map _ List.nodup_range
  intro a b h
  dsimp only at h
  omega

/-- Sum of the additions to one element. -/
def sumAt (xs : List (ℤ × ℝ)) (i : ℤ) : ℝ := ((xs.filter fun x => decide (x.1 = i)).map Prod.snd).sum

@[simp] theorem sumAt_nil (i : ℤ) : sumAt [] i = 0 := rfl

theorem sumAt_cons (x : ℤ × ℝ) (xs : List (ℤ × ℝ)) (i : ℤ) :
    sumAt (x :: xs) i = (if x.1 = i then x.2 else 0) + sumAt xs i := by
  unfold sumAt
  by_cases h : x.1 = i <;> simp [h]

theorem sumAt_append (xs ys : List (ℤ × ℝ)) (i : ℤ) : sumAt (xs ++ ys) i = sumAt xs i + sumAt ys i := by
  simp [sumAt]

theorem sumAt_flatMap {α : Type} (l : List α) (f : α → List (ℤ × ℝ)) (i : ℤ) :
    sumAt (l.flatMap f) i = (l.map fun x => sumAt (f x) i).sum := by
  induction l with
  | nil => rfl
  | cons a l ih => rw [List.flatMap_cons, sumAt_append, ih]; rfl

theorem getD_lt {l : List ℝ} {i : ℕ} (d : ℝ) (h : i < l.length) : l.getD i d = l[i] := by
  simp [List.getD, h]

theorem addAll_spec (xs : List (ℤ × ℝ)) (l : List ℝ) (h : ∀ x ∈ xs, 0 ≤ x.1 ∧ x.1 < l.length) :
    ∃ l', addAll xs l = .ok l' ∧ l'.length = l.length ∧
      ∀ i : ℤ, 0 ≤ i → i < l.length → l'.getD i.toNat 0 = l.getD i.toNat 0 + sumAt xs i := by
  induction xs generalizing l with
  | nil => exact ⟨l, rfl, rfl, fun i _ _ => by simp⟩
  | cons x xs ih =>
    have hx := h x (by simp)
    obtain ⟨l', h1, h2, h3⟩ := ih (l.modify x.1.toNat (· + x.2)) fun y hy => by
      rw [List.length_modify]; exact h y (by simp [hy])
    rw [List.length_modify] at h2 h3
    refine ⟨l', ?_, h2, fun i h0 hi => ?_⟩
    · rw [addAll, addAt, if_pos hx]; exact h1
    · rw [h3 i h0 hi, sumAt_cons]
      have hl : i.toNat < l.length := by omega
      rw [getD_lt _ (by rw [List.length_modify]; exact hl), getD_lt _ hl, List.getElem_modify]
      by_cases e : x.1 = i
      · rw [if_pos (by rw [e]), if_pos e]; ring
      · rw [if_neg (by omega), if_neg e]; ring

/-- Height at a grid point of what one pair and one lattice point add to `ppp`. -/
noncomputable def height (D : Data) (ph : PPhase) (i j : ℕ) (e : Ev) (ig : ℤ) : ℝ :=
  match e with
  | .peak dist sig => if ib D dist sig ≤ ig ∧ ig ≤ ie D ph dist sig then half i j * ampl ph i j * gaus D dist sig ig else 0
  | _ => 0

theorem sumAt_map_grid (l : List ℤ) (hl : l.Nodup) (f : ℤ → ℝ) (i : ℤ) :
    sumAt (l.map fun g => (g, f g)) i = if i ∈ l then f i else 0 := by
  induction l with
  | nil => simp
  | cons a l ih =>
    rw [List.nodup_cons] at hl
    rw [List.map_cons, sumAt_cons, ih hl.2]
    by_cases e : a = i
    · subst e; simp [hl.1]
    · simp [e, Ne.symm e]

theorem sumAt_incs (D : Data) (ph : PPhase) (i j : ℕ) (e : Ev) (ig : ℤ) :
    sumAt (incs D ph i j e) ig = height D ph i j e ig := by
  cases e with
  | skip => rfl
  | nan => rfl
  | peak dist sig =>
    unfold incs height
    dsimp only
    rw [sumAt_map_grid _ (nodup_grid _ _) fun g =>
      (if i ≠ j then ampl ph i j + ampl ph i j else ampl ph i j) * gaus D dist sig g]
    simp only [mem_grid]
    by_cases hc : ib D dist sig ≤ ig ∧ ig ≤ ie D ph dist sig
    · rw [if_pos hc, if_pos hc]
      unfold half
      by_cases e : i = j
      · rw [if_neg (by simpa using e), if_pos e]; ring
      · rw [if_pos e, if_neg e]; ring
    · rw [if_neg hc, if_neg hc]

/-- The sum over pairs and lattice points at a grid point. -/
noncomputable def pairSum (D : Data) (ph : PPhase) (s : Sel) (i : ℤ) : ℝ :=
  ((visited D ph s).map fun x => height D ph x.1.1 x.1.2 (eventOf D ph x) i).sum

theorem incs_range {D : Data} (h : D.Ok) (ph : PPhase) (i j : ℕ) (e : Ev) :
    ∀ x ∈ incs D ph i j e, D.ncmin ≤ x.1 ∧ x.1 ≤ D.ncmax := by
  cases e with
  | skip => intro x hx; simp [incs] at hx
  | nan => intro x hx; simp [incs] at hx
  | peak dist sig =>
    intro x hx
    unfold incs at hx
    rw [List.mem_map] at hx
    obtain ⟨g, hg, rfl⟩ := hx
    rw [mem_grid] at hg
    exact ⟨(ib_ge h _ _).trans hg.1, hg.2.trans (ie_le h _ _ _)⟩

theorem ppp_spec {D : Data} (h : D.Ok) (ph : PPhase) (s : Sel) :
    ∃ p, ppp D ph s = .ok p ∧ p.length = (D.ncmax + 1).toNat ∧
      ∀ i : ℤ, 0 ≤ i → i ≤ D.ncmax → p.getD i.toNat 0 = pairSum D ph s i := by
  have h0 := ncmin_nonneg h
  have h1 := ncmin_le_ncmax h
  obtain ⟨p, e1, e2, e3⟩ := addAll_spec
    ((visited D ph s).flatMap fun x => incs D ph x.1.1 x.1.2 (eventOf D ph x))
    (List.replicate (D.ncmax + 1).toNat 0) fun x hx => by
      rw [List.mem_flatMap] at hx
      obtain ⟨y, -, hy⟩ := hx
      have := incs_range h ph _ _ _ x hy
      rw [List.length_replicate]
      omega
  rw [List.length_replicate] at e2 e3
  refine ⟨p, e1, e2, fun i hi0 hi => ?_⟩
  rw [e3 i hi0 (by omega), sumAt_flatMap]
  simp only [sumAt_incs]
  rw [getD_lt _ (by rw [List.length_replicate]; omega), List.getElem_replicate, zero_add]
  rfl

/-- The column of `calc` as a formula. -/
noncomputable def curve (D : Data) (ph : PPhase) (s : Sel) (i : ℤ) : ℝ :=
  (pairSum D ph s i / ph.np / D.r i - 4 * Real.pi * D.r i * ph.rho0 * (ract ph s / rtot ph)) * envelope D ph (D.r i)

open Classical in
theorem phaseCalc_spec {D : Data} (h : D.Ok) (ph : PPhase) (s : Sel) :
    ∃ f, phaseCalc D ph s = .ok (if Bad D ph s then none else some f) ∧
      ∀ i, D.ncmin ≤ i → i ≤ D.ncmax → f i = curve D ph s i := by
  have h0 := ncmin_nonneg h
  obtain ⟨p, e1, -, e3⟩ := ppp_spec h ph s
  refine ⟨calcAt D ph s p, ?_, fun i hi hi' => ?_⟩
  · unfold phaseCalc
    rw [e1, Res.bind_ok, if_neg (by omega)]
  · unfold calcAt curve
    rw [e3 i (h0.trans hi) hi']

/-- The termination filter on a curve; without Qmax nothing happens. -/
noncomputable def filt (D : Data) (c : ℤ → ℝ) (i : ℤ) : ℝ :=
  if 0 < D.qmax then
    ((Qmax.applyQmaxCutoff D.deltar D.qmax (nclen D) (fun n => c (D.ncmin + n))).getD 0) (i - D.ncmin).toNat
  else c i

section
variable {D : Data} (h : D.Ok)
include h

theorem filt_lin (a b : ℝ) (c d : ℤ → ℝ) (i : ℤ) :
    filt D (fun i => a * c i + b * d i) i = a * filt D c i + b * filt D d i := by
  unfold filt
  split
  · rename_i hq
    obtain ⟨z1, h1, -⟩ := C42.total h.step hq (nclen_pos h) (fun n : ℕ => c (D.ncmin + n))
    obtain ⟨z2, h2, -⟩ := C42.total h.step hq (nclen_pos h) (fun n : ℕ => d (D.ncmin + n))
    rw [C42.linear h.step hq (nclen_pos h) a b _ _ z1 z2 h1 h2, h1, h2]
    rfl
  · rfl

theorem filt_smul (a : ℝ) (c : ℤ → ℝ) (i : ℤ) : filt D (fun i => a * c i) i = a * filt D c i := by
  have := filt_lin h a 0 c c i
  simpa using this

theorem filt_add (c d : ℤ → ℝ) (i : ℤ) : filt D (fun i => c i + d i) i = filt D c i + filt D d i := by
  have := filt_lin h 1 1 c d i
  simpa using this

theorem filt_zero (i : ℤ) : filt D (fun _ => 0) i = 0 := by
  have := filt_smul h 0 (fun _ => 0) i
  simpa using this

theorem filt_sum {α : Type} (l : List α) (f : α → ℤ → ℝ) (i : ℤ) :
    filt D (fun i => (l.map fun x => f x i).sum) i = (l.map fun x => filt D (f x) i).sum := by
  induction l with
  | nil => simpa using filt_zero h i
  | cons a l ih =>
    simp only [List.map_cons, List.sum_cons]
    rw [filt_add h, ih]

theorem filt_congr {c d : ℤ → ℝ} (e : ∀ i, D.ncmin ≤ i → i ≤ D.ncmax → c i = d i) (i : ℤ) (h1 : D.ncmin ≤ i)
    (h2 : i ≤ D.ncmax) : filt D c i = filt D d i := by
  unfold filt
  split
  · rename_i hq
    have hp : Qmax.pad (nclen D) (fun n : ℕ => c (D.ncmin + n)) = Qmax.pad (nclen D) (fun n : ℕ => d (D.ncmin + n)) := by
      funext n
      unfold Qmax.pad
      split
      · rename_i hn
        dsimp only
        rw [e _ (by omega) (by unfold nclen at hn; omega)]
      · rfl
    unfold Qmax.applyQmaxCutoff
    rw [C42.filtered_eq h.step hq (nclen_pos h), C42.filtered_eq h.step hq (nclen_pos h), hp]
    simp only [Option.map_some, Option.getD_some]
    have hl : (i - D.ncmin).toNat < nclen D := by unfold nclen; omega
    rw [if_pos hl, if_pos hl]
  · exact e i h1 h2

open Classical in
theorem total_spec (psel : List (Option (PPhase × Sel))) :
    ∃ t, total D psel = .ok (if ∀ x, some x ∈ psel → ¬Bad D x.1 x.2 then some t else none) ∧
      ∀ i, D.ncmin ≤ i → i ≤ D.ncmax →
        t i = ((psel.filterMap id).map fun x => D.dscale * x.1.pscale * curve D x.1 x.2 i).sum := by
  induction psel with
  | nil => exact ⟨fun _ => 0, by simp [total], fun i _ _ => rfl⟩
  | cons a l ih =>
    obtain ⟨t, h1, h2⟩ := ih
    cases a with
    | none => exact ⟨t, by simpa [total] using h1, fun i hi hi' => by simpa using h2 i hi hi'⟩
    | some x =>
      obtain ⟨f, e1, e2⟩ := phaseCalc_spec h x.1 x.2
      refine ⟨fun i => D.dscale * x.1.pscale * f i + t i, ?_, fun i hi hi' => ?_⟩
      · rw [total, e1, Res.bind_ok, h1, Res.bind_ok]
        by_cases hb : Bad D x.1 x.2
        · have hn : ¬∀ y, some y ∈ some x :: l → ¬Bad D y.1 y.2 := fun hh => hh x (by simp) hb
          simp only [if_pos hb, if_neg hn]
          rfl
        · by_cases hl : ∀ y, some y ∈ l → ¬Bad D y.1 y.2
          · have hp : ∀ y, some y ∈ some x :: l → ¬Bad D y.1 y.2 := by
              intro y hy
              rw [List.mem_cons, Option.some.injEq] at hy
              rcases hy with rfl | hy
              · exact hb
              · exact hl y hy
            simp only [if_neg hb, if_pos hl, if_pos hp]
            rfl
          · have hn : ¬∀ y, some y ∈ some x :: l → ¬Bad D y.1 y.2 := fun hh =>
              hl fun y hy => hh y (List.mem_cons_of_mem _ hy)
            simp only [if_neg hb, if_neg hl, if_neg hn]
            rfl
      · dsimp only
        rw [e2 i hi hi', h2 i hi hi']
        simp

open Classical in
theorem determine_spec (psel : List (Option (PPhase × Sel))) :
    ∃ t, determine D psel = .ok (if ∀ x, some x ∈ psel → ¬Bad D x.1 x.2 then some t else none) ∧
      ∀ i, D.ncmin ≤ i → i ≤ D.ncmax → t i =
        ((psel.filterMap id).map fun x => D.dscale * x.1.pscale * filt D (curve D x.1 x.2) i).sum := by
  obtain ⟨t, h1, h2⟩ := total_spec h psel
  refine ⟨fun i => filt D t i, ?_, fun i hi hi' => ?_⟩
  · unfold determine
    rw [h1, Res.bind_ok]
    by_cases hl : ∀ y, some y ∈ psel → ¬Bad D y.1 y.2
    · simp only [if_pos hl]
      by_cases hq : 0 < D.qmax
      · obtain ⟨z, hz, -⟩ := C42.total h.step hq (nclen_pos h) (fun n : ℕ => t (D.ncmin + n))
        have hf : (fun i => filt D t i) = fun i => z (i - D.ncmin).toNat := by
          funext i
          unfold filt
          rw [if_pos hq, hz]
          rfl
        rw [if_pos hq, hf, hz]
      · have hf : (fun i => filt D t i) = t := by
          funext i
          unfold filt
          rw [if_neg hq]
        rw [if_neg hq, hf]
    · simp only [if_neg hl]
      split <;> rfl
  · dsimp only
    rw [filt_congr h h2 i hi hi', filt_sum h]
    congr 1
    apply List.map_congr_left
    intro x _
    exact filt_smul h _ _ i

/-- A curve that is a number, as a formula. -/
theorem determine_some {psel : List (Option (PPhase × Sel))} {f : ℤ → ℝ} (hf : determine D psel = .ok (some f)) :
    (∀ x, some x ∈ psel → ¬Bad D x.1 x.2) ∧ ∀ i, D.ncmin ≤ i → i ≤ D.ncmax → f i =
      ((psel.filterMap id).map fun x => D.dscale * x.1.pscale * filt D (curve D x.1 x.2) i).sum := by
  obtain ⟨t, h1, h2⟩ := determine_spec h psel
  rw [h1] at hf
  split at hf
  · rename_i hl
    simp only [Res.ok.injEq, Option.some.injEq] at hf
    subst hf
    exact ⟨hl, h2⟩
  · simp at hf

theorem determine_of {psel : List (Option (PPhase × Sel))} (hl : ∀ x, some x ∈ psel → ¬Bad D x.1 x.2) :
    ∃ f, determine D psel = .ok (some f) ∧ ∀ i, D.ncmin ≤ i → i ≤ D.ncmax → f i =
      ((psel.filterMap id).map fun x => D.dscale * x.1.pscale * filt D (curve D x.1 x.2) i).sum := by
  obtain ⟨t, h1, h2⟩ := determine_spec h psel
  rw [if_pos hl] at h1
  exact ⟨t, h1, h2⟩

end

end Pdffit.Det
