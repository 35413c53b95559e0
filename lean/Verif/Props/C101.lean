import Verif.Props.C96
import Verif.Lemmas.Determine

/-!
# C101: data outside the fit range have no influence

* `C101_values`: values and weights of points outside the fit range, also points after its end, have no influence on a refinement.
* `C101_start_partial`: the points before its start can be cut away without influence on the calculated curve, when at least one point remains
  before the range of the calculation; with a Qmax this begins 12π/Qmax before the fit range.
* `C101_cut_partial`: likewise for a refinement.
-/

namespace Pdffit.C101
open Geom Det Deriv Layout Conf DMat Full _root_.Pdffit.Parser

/-! ### Values outside the range -/

/-- Two data sets with the same settings, and the same values and weights in the fit range. -/
structure SameIn (s s' : SetIn) : Prop where
  settings : s'.d.D = s.d.D
  sel : s'.sel = s.sel
  sf : s'.sf = s.sf
  obs : ∀ n : ℕ, s.d.D.nfmin ≤ n → (n : ℤ) ≤ s.d.D.nfmax → s'.d.obs[n]? = s.d.obs[n]?
  wic : ∀ n : ℕ, s.d.D.nfmin ≤ n → (n : ℤ) ≤ s.d.D.nfmax → s'.d.wic[n]? = s.d.wic[n]?

/-- Two fits with the same phases and variables whose data sets agree in their fit ranges. -/
structure Same (I I' : Input) : Prop where
  addr : I'.addr = I.addr
  phases : I'.phases = I.phases
  sets : List.Forall₂ SameIn I.sets I'.sets

theorem collect_congr {α β : Type} {f g : α → Res (List β)} {l : List α} (h : ∀ a ∈ l, f a = g a) : DMat.collect f l = DMat.collect g l := by
  induction l with
  | nil => rfl
  | cons a l ih =>
    unfold DMat.collect
    rw [h a (by simp), ih fun b hb => h b (by simp [hb])]

theorem readAt_congr {l l' : List ℝ} {i : ℤ} (h : 0 ≤ i → l'[i.toNat]? = l[i.toNat]?) : readAt l' i = readAt l i := by
  unfold readAt Res.at?
  split_ifs with h0
  · rw [h h0]
  · rfl

theorem calcSet_same (I : Input) {s s' : SetIn} (h : SameIn s s') (v : ℕ → ℝ) (rv : List (Option ℕ)) (vref : List Bool) (dvdp : Mat ℝ) (is : ℕ) (old : Mat ℝ) :
    I.calcSet v rv vref dvdp is s' old = I.calcSet v rv vref dvdp is s old := by
  have hd : I.dat v is s' = I.dat v is s := by unfold Input.dat; rw [h.settings]
  have hs : I.sel v s' = I.sel v s := by unfold Input.sel Input.template; rw [h.sel, h.sf]
  have hz : I.Zero rv v is s' = I.Zero rv v is s := by unfold Input.Zero; rw [hd, hs]
  unfold Input.calcSet
  rw [hd, hs, hz]
  have hp : ∀ (t : List ℝ) (B : Mat ℝ), DMat.collect (Input.point s' t B) (grid (I.dat v is s).nfmin (I.dat v is s).nfmax) =
      DMat.collect (Input.point s t B) (grid (I.dat v is s).nfmin (I.dat v is s).nfmax) := by
    intro t B
    refine collect_congr fun i hi => ?_
    obtain ⟨h1, h2⟩ := mem_grid.1 hi
    have h1 : s.d.D.nfmin ≤ i := h1
    have h2 : i ≤ s.d.D.nfmax := h2
    unfold Input.point
    rw [readAt_congr fun h0 => h.wic i.toNat (by omega) (by omega), readAt_congr fun h0 => h.obs i.toNat (by omega) (by omega)]
  simp only [hp]

theorem calcSets_same (I : Input) (v : ℕ → ℝ) (rv : List (Option ℕ)) (vref : List Bool) (dvdp : Mat ℝ) {l l' : List SetIn} (h : List.Forall₂ SameIn l l') :
    ∀ (is : ℕ) (c : List Out), I.calcSets v rv vref dvdp is l' c = I.calcSets v rv vref dvdp is l c := by
  induction h with
  | nil => intro is c; rfl
  | cons h _ ih =>
    intro is c
    unfold Input.calcSets
    rw [calcSet_same I h]
    simp only [ih]

theorem static_same {I I' : Input} (h : Same I I') (dmax : ℝ) : I'.static dmax = I.static dmax := by
  obtain ⟨addr, phases, sets⟩ := I
  obtain ⟨addr', phases', sets'⟩ := I'
  obtain ⟨rfl, rfl, hs⟩ := h
  have hs : List.Forall₂ SameIn sets sets' := hs
  have hn : Input.nset ⟨addr', phases', sets'⟩ = Input.nset ⟨addr', phases', sets⟩ := hs.length_eq.symm
  have hna : Input.natoms ⟨addr', phases', sets'⟩ = Input.natoms ⟨addr', phases', sets⟩ := rfl
  have hlay : Input.lay ⟨addr', phases', sets'⟩ = Input.lay ⟨addr', phases', sets⟩ := by
    funext rv
    unfold Input.lay
    rw [hn, hna]
  have hzero : Input.Zero ⟨addr', phases', sets'⟩ = Input.Zero ⟨addr', phases', sets⟩ := by
    funext rv v is s
    unfold Input.Zero
    rw [hn, hna]
    rfl
  have hcalc : Input.calcSet ⟨addr', phases', sets'⟩ = Input.calcSet ⟨addr', phases', sets⟩ := by
    funext v rv vref dvdp is s old
    unfold Input.calcSet
    rw [hlay, hzero]
    rfl
  have hsets : ∀ (v : ℕ → ℝ) (rv : List (Option ℕ)) (vref : List Bool) (dvdp : Mat ℝ) (l : List SetIn) (is : ℕ) (c : List Out),
      Input.calcSets ⟨addr', phases', sets'⟩ v rv vref dvdp is l c = Input.calcSets ⟨addr', phases', sets⟩ v rv vref dvdp is l c := by
    intro v rv vref dvdp l
    induction l with
    | nil => intro is c; rfl
    | cons s l ih =>
      intro is c
      unfold Input.calcSets
      rw [hcalc]
      simp only [ih]
  have hdet : Input.det ⟨addr', phases', sets'⟩ = Input.det ⟨addr', phases', sets⟩ := by
    funext v rv vref dvdp c
    unfold Input.det
    rw [hsets, calcSets_same _ v rv vref dvdp hs]
    rfl
  have hicc : Input.icc ⟨addr', phases', sets'⟩ = Input.icc ⟨addr', phases', sets⟩ := by
    funext a
    unfold Input.icc
    rw [hn, hna]
  unfold Input.static
  rw [hdet, hicc, hn, hna]

/-- **C101**: data sets that agree in their fit ranges give the same refinement, with the same result in every respect. -/
theorem C101_values {I I' : Input} (h : Same I I') (dmax toler : ℝ) (fuel : ℕ) (x : Statics ℝ × Eng ℝ (CWorld (List Char) ℝ (List Out))) :
    refineLoop (constrTheory (I'.static dmax)) toler fuel x = refineLoop (constrTheory (I.static dmax)) toler fuel x := by
  rw [static_same h]

/-! ### Points before the range -/

/-- The settings of a data set without its first `k` points. -/
def later (D : Data) (k : ℕ) : Data := { D with rmin := D.rmin + k * D.deltar }

theorem nint_sub {x : ℝ} {k : ℕ} (h : (k : ℝ) ≤ x) : nint (x - k) = nint x - k := by
  unfold nint
  have hk : (0 : ℝ) ≤ k := Nat.cast_nonneg k
  rw [if_pos (by linarith), if_pos (by linarith), show x - k + 1 / 2 = x + 1 / 2 - (k : ℕ) by ring, Int.floor_sub_natCast]

section
variable {D : Data} {k : ℕ} (h : D.Ok) (hk : D.rmin + k * D.deltar ≤ D.rcmin)
include h hk

theorem later_rcmin : (later D k).rcmin = D.rcmin := by
  unfold Data.rcmin later
  unfold Data.rcmin at hk
  dsimp only at hk ⊢
  split_ifs at hk ⊢
  · have h1 : D.rmin ≤ D.rmin + k * D.deltar := by have := h.step; have : (0 : ℝ) ≤ k * D.deltar := by positivity
                                                   linarith
    rcases le_total (D.rmin + k * D.deltar) (D.rfmin - 6 * 2 * Real.pi / D.qmax) with h2 | h2
    · rw [max_eq_right h2, max_eq_right (h1.trans h2)]
    · rw [max_eq_left h2]
      exact le_antisymm hk (max_le_max_right _ h1 |>.trans (by rw [max_eq_left h2]))
  · rfl

omit h hk in
theorem later_rcmax : (later D k).rcmax = D.rcmax := rfl

theorem later_ok : (later D k).Ok := ⟨h.step, hk.trans (rcmin_le h), h.hi⟩

omit hk in
/-- The index of a distance. -/
theorem later_idx {x : ℝ} (hx : D.rmin + k * D.deltar ≤ x) : nint ((x - (later D k).rmin) / (later D k).deltar) = nint ((x - D.rmin) / D.deltar) - k := by
  have hs := h.step
  have e : (x - (later D k).rmin) / (later D k).deltar = (x - D.rmin) / D.deltar - k := by
    unfold later
    dsimp only
    field_simp
    ring
  rw [e, nint_sub]
  rw [le_div_iff₀ hs]
  linarith

theorem later_ncmin : (later D k).ncmin = D.ncmin - k := by
  unfold Data.ncmin
  rw [later_rcmin h hk]
  exact later_idx h hk

theorem later_nfmin : (later D k).nfmin = D.nfmin - k := later_idx h (hk.trans (rcmin_le h))
theorem later_nfmax : (later D k).nfmax = D.nfmax - k := later_idx h (hk.trans ((rcmin_le h).trans h.hi))
theorem later_ncmax : (later D k).ncmax = D.ncmax - k := later_idx h (hk.trans ((rcmin_le h).trans (h.hi.trans rcmax_ge)))

omit h hk in
theorem later_r (i : ℤ) : (later D k).r i = D.r (i + k) := by
  unfold Data.r later
  dsimp only
  push_cast
  ring

theorem later_rmin2 : (later D k).rmin2 = D.rmin2 := by unfold Data.rmin2; rw [later_rcmin h hk]

theorem later_event : eventOf (later D k) = eventOf D := by
  funext ph x
  unfold eventOf event
  rw [later_rmin2 h hk]
  rfl

theorem later_visited : visited (later D k) = visited D := by
  funext ph s
  unfold visited sphere
  rw [later_rmin2 h hk]
  rfl

theorem later_bad (ph : PPhase) (s : Sel) : Bad (later D k) ph s ↔ Bad D ph s := by
  unfold Bad
  rw [later_event h hk, later_visited h hk, later_ncmin h hk, later_ncmax h hk]
  simp only [later_r]
  refine or_congr Iff.rfl (or_congr Iff.rfl (or_congr Iff.rfl (or_congr Iff.rfl (or_congr Iff.rfl ?_))))
  constructor
  · rintro ⟨i, h1, h2, h3⟩
    exact ⟨i + k, by omega, by omega, h3⟩
  · rintro ⟨i, h1, h2, h3⟩
    exact ⟨i - k, by omega, by omega, by rw [sub_add_cancel]; exact h3⟩
end

section
variable {D : Data} {k : ℕ} (h : D.Ok) (hk : D.rmin + (k + 1) * D.deltar ≤ D.rcmin)
include h hk

theorem weaker : D.rmin + k * D.deltar ≤ D.rcmin := by have := h.step; linarith

theorem later_one : 1 ≤ (later D k).ncmin := by
  have hs := h.step
  unfold Data.ncmin
  rw [later_rcmin h (weaker h hk)]
  have h1 : (1 : ℝ) ≤ (D.rcmin - (later D k).rmin) / (later D k).deltar := by
    unfold later
    dsimp only
    rw [le_div_iff₀ hs]
    linarith
  have := nint_mono h1
  have h2 := nint_int 1
  push_cast at h2
  omega

/-- The points that a peak reaches. -/
theorem later_window (ph : PPhase) (d g : ℝ) (ig : ℤ) :
    (ib (later D k) d g ≤ ig ∧ ig ≤ ie (later D k) ph d g) ↔ (ib D d g ≤ ig + k ∧ ig + k ≤ ie D ph d g) := by
  have hk' := weaker h hk
  have hs := h.step
  have hb : ib (later D k) d g = ib D d g - k := by
    unfold ib
    rw [later_rcmin h hk']
    exact later_idx h (hk'.trans (le_max_left _ _))
  have h1 := later_one h hk
  have h2 := ib_ge (later_ok h hk') d g
  unfold ie
  rw [later_rcmax]
  generalize (if 0 < ph.stepcut then min (min D.rcmax (d + 5 * g)) ph.stepcut else min D.rcmax (d + 5 * g)) = x
  rcases le_or_gt (D.rmin + k * D.deltar) x with hx | hx
  · rw [later_idx h hx]
    omega
  · have h3 : nint ((x - (later D k).rmin) / (later D k).deltar) ≤ 0 := by
      have : (x - (later D k).rmin) / (later D k).deltar ≤ 0 := by
        unfold later
        dsimp only
        exact div_nonpos_of_nonpos_of_nonneg (by linarith) hs.le
      have := nint_mono this
      have h0 := nint_int 0
      push_cast at h0
      omega
    have h4 : nint ((x - D.rmin) / D.deltar) ≤ k := by
      have : (x - D.rmin) / D.deltar ≤ (k : ℝ) := by
        rw [div_le_iff₀ hs]
        linarith
      have := nint_mono this
      have h0 := nint_int k
      push_cast at h0
      omega
    omega

omit h hk in
theorem later_gaus (d g : ℝ) (ig : ℤ) : gaus (later D k) d g ig = gaus D d g (ig + k) := by
  unfold gaus later
  dsimp only
  push_cast
  rw [show D.rmin + (k : ℝ) * D.deltar + (ig : ℝ) * D.deltar - d = D.rmin + ((ig : ℝ) + k) * D.deltar - d by ring]

theorem later_height (ph : PPhase) (i j : ℕ) (e : Ev) (ig : ℤ) : height (later D k) ph i j e ig = height D ph i j e (ig + k) := by
  cases e with
  | skip => rfl
  | nan => rfl
  | peak d g =>
    unfold height
    dsimp only
    rw [later_gaus]
    exact if_congr (later_window h hk ph d g ig) rfl rfl

theorem later_curve (ph : PPhase) (s : Sel) (i : ℤ) : curve (later D k) ph s i = curve D ph s (i + k) := by
  have hk' := weaker h hk
  unfold curve pairSum
  rw [later_visited h hk', later_event h hk', later_r]
  simp only [later_height h hk]
  rfl

theorem later_filt (c c' : ℤ → ℝ) (hc : ∀ i, c' i = c (i + k)) (i : ℤ) : filt (later D k) c' i = filt D c (i + k) := by
  have hk' := weaker h hk
  have hl : nclen (later D k) = nclen D := by
    unfold nclen
    rw [later_ncmin h hk', later_ncmax h hk']
    congr 1
    omega
  unfold filt
  rw [hl, later_ncmin h hk']
  simp only [hc]
  have e1 : ∀ n : ℕ, D.ncmin - k + n + k = D.ncmin + n := fun n => by ring
  have e2 : i - (D.ncmin - k) = i + k - D.ncmin := by ring
  simp only [e1, e2]
  rfl

theorem later_dincs (ph : PPhase) (is ip : ℕ) (v : RVar) (x : (ℕ × ℕ) × (ℤ × ℤ × ℤ)) (i : ℤ) :
    sumAt (dincs (later D k) ph is ip v x) i = sumAt (dincs D ph is ip v x) (i + k) := by
  unfold dincs
  rw [later_event h (weaker h hk)]
  cases eventOf D ph x with
  | skip => rfl
  | nan => rfl
  | peak d g =>
    dsimp only
    rw [sumAt_map_grid _ (nodup_grid _ _), sumAt_map_grid _ (nodup_grid _ _)]
    simp only [mem_grid]
    refine if_congr (later_window h hk ph d g i) ?_ rfl
    congr 2
    unfold pk
    rw [later_gaus]
    simp only [later, Pk.mk.injEq, true_and, and_true]
    push_cast
    ring

theorem later_rawIncs (is : ℕ) (v : RVar) (psel : List (Option (PPhase × Sel))) (i : ℤ) : ∀ ip,
    sumAt (rawIncs (later D k) is v psel ip) i = sumAt (rawIncs D is v psel ip) (i + k) := by
  induction psel with
  | nil => intro ip; rfl
  | cons x l ih =>
    intro ip
    cases x with
    | none => exact ih _
    | some x =>
      unfold rawIncs
      rw [sumAt_append, sumAt_append, sumAt_flatMap, sumAt_flatMap, ih, later_visited h (weaker h hk)]
      simp only [later_dincs h hk]

omit h hk in
theorem later_phaseStmts (ph : PPhase) (s : Sel) (ip : ℕ) (r c : ℝ) : phaseStmts (later D k) ph s ip r c = phaseStmts D ph s ip r c := by
  have e1 : fac (later D k) ph r = fac D ph r := rfl
  have e2 : facp (later D k) ph r = facp D ph r := rfl
  have e3 : bk (later D k) r = bk D r := rfl
  have e4 : (later D k).dscale = D.dscale := rfl
  unfold phaseStmts atomStmts
  rw [e1, e2, e3, e4]

theorem later_phasesStmts (psel : List (Option (PPhase × Sel))) (i : ℤ) : ∀ ip,
    phasesStmts (later D k) i (cal (later D k) psel) ip = phasesStmts D (i + k) (cal D psel) ip := by
  induction psel with
  | nil =>
    intro ip
    unfold cal
    rw [List.map_nil, List.map_nil, phasesStmts, phasesStmts]
  | cons x l ih =>
    intro ip
    have hc : ∀ D : Data, cal D (x :: l) = x.map (fun x => (x.1, x.2, curve D x.1 x.2)) :: cal D l := fun D => by unfold cal; rw [List.map_cons]
    rw [hc, hc]
    cases x with
    | none =>
      rw [Option.map_none, Option.map_none, phasesStmts, phasesStmts]
      exact ih _
    | some x =>
      rw [Option.map_some, Option.map_some, phasesStmts, phasesStmts, ih, later_r]
      dsimp only
      rw [ later_curve h hk, later_phaseStmts]

theorem later_totAt (psel : List (Option (PPhase × Sel))) (i : ℤ) : totAt (later D k) i (cal (later D k) psel) = totAt D (i + k) (cal D psel) := by
  have e4 : (later D k).dscale = D.dscale := rfl
  unfold totAt cal
  rw [List.foldl_map, List.foldl_map, e4]
  refine List.foldl_ext _ _ _ fun t x _ => ?_
  cases x with
  | none => rfl
  | some x =>
    dsimp only [Option.map_some]
    rw [later_curve h hk]

omit h hk in
theorem later_lastFac (psel : List (Option (PPhase × Sel))) (i : ℤ) :
    lastFac (later D k) i (cal (later D k) psel) = lastFac D (i + k) (cal D psel) := by
  have e1 : ∀ ph r, fac (later D k) ph r = fac D ph r := fun _ _ => rfl
  unfold lastFac cal
  rw [List.foldl_map, List.foldl_map, later_r]
  refine List.foldl_ext _ _ _ fun t x _ => ?_
  cases x with
  | none => rfl
  | some x =>
    dsimp only [Option.map_some]
    rw [e1]

theorem later_stmts (is : ℕ) (psel : List (Option (PPhase × Sel))) (i : ℤ) :
    stmts (later D k) is i (cal (later D k) psel) = stmts D is (i + k) (cal D psel) := by
  have e4 : (later D k).dscale = D.dscale := rfl
  have e5 : (later D k).qdamp = D.qdamp := rfl
  unfold stmts
  rw [later_phasesStmts h hk, later_totAt h hk, later_lastFac, later_r, e4, e5]

theorem later_column (is : ℕ) (v : RVar) (psel : List (Option (PPhase × Sel))) (i : ℤ) :
    column (later D k) is v psel i = column D is v psel (i + k) := by
  unfold column
  rw [later_stmts h hk, later_rawIncs h hk]
end

/-- **C101, the part that holds**: the first `k` points of the data are cut away, and at least one point remains before the range of the calculation. The
fit range then has the same points, the curve is a number for the one exactly when it is for the other, and it has the same values.
What is missing: data that begin at the first point of the range of the calculation or later. -/
theorem C101_start_partial {D : Data} {k : ℕ} (h : D.Ok) (hk : D.rmin + (k + 1) * D.deltar ≤ D.rcmin) (psel : List (Option (PPhase × Sel))) :
    (later D k).nfmin = D.nfmin - k ∧ (later D k).nfmax = D.nfmax - k ∧
    ((determine (later D k) psel = .ok none ∧ determine D psel = .ok none) ∨
      ∃ f f', determine (later D k) psel = .ok (some f') ∧ determine D psel = .ok (some f) ∧
        ∀ i, D.nfmin ≤ i → i ≤ D.nfmax → f' (i - k) = f i ∧ (later D k).r (i - k) = D.r i) := by
  have hk' := weaker h hk
  refine ⟨later_nfmin h hk', later_nfmax h hk', ?_⟩
  obtain ⟨t, h1, h2⟩ := determine_spec h psel
  obtain ⟨t', h1', h2'⟩ := determine_spec (later_ok h hk') psel
  have hbad : (∀ x, some x ∈ psel → ¬Bad (later D k) x.1 x.2) ↔ ∀ x, some x ∈ psel → ¬Bad D x.1 x.2 :=
    forall_congr' fun x => imp_congr_right fun _ => not_congr (later_bad h hk' x.1 x.2)
  by_cases hb : ∀ x, some x ∈ psel → ¬Bad D x.1 x.2
  · right
    rw [if_pos hb] at h1
    rw [if_pos (hbad.2 hb)] at h1'
    refine ⟨t, t', h1', h1, fun i hi hi' => ⟨?_, by rw [later_r, sub_add_cancel]⟩⟩
    have a := ncmin_le_nfmin h
    have b := nfmax_le_ncmax h
    rw [h2 i (by omega) (by omega), h2' (i - k) (by rw [later_ncmin h hk']; omega) (by rw [later_ncmax h hk']; omega)]
    have e : ∀ x : PPhase × Sel, filt (later D k) (curve (later D k) x.1 x.2) (i - k) = filt D (curve D x.1 x.2) i := fun x => by
      rw [later_filt h hk _ _ (later_curve h hk x.1 x.2), sub_add_cancel]
    simp only [e]
    rfl
  · left
    rw [if_neg hb] at h1
    rw [if_neg (mt hbad.1 hb)] at h1'
    exact ⟨h1', h1⟩

/-! ### Refinements -/

/-- The first points of the data set are cut away, before the range of the calculation and all but the last; after the cut, points outside the fit
range may differ. -/
structure CutSet (s s' : SetIn) (k : ℕ) : Prop where
  settings : s'.d.D = later s.d.D k
  remains : s.d.D.rmin + (k + 1) * s.d.D.deltar ≤ s.d.D.rcmin
  sel : s'.sel = s.sel
  sf : s'.sf = s.sf
  obs : ∀ n : ℕ, s.d.D.nfmin ≤ n + k → (n : ℤ) + k ≤ s.d.D.nfmax → s'.d.obs[n]? = s.d.obs[n + k]?
  wic : ∀ n : ℕ, s.d.D.nfmin ≤ n + k → (n : ℤ) + k ≤ s.d.D.nfmax → s'.d.wic[n]? = s.d.wic[n + k]?

/-- Two fits with the same phases and variables; every data set of the second is one of the first without some of its first points. -/
structure Cut (I I' : Input) : Prop where
  addr : I'.addr = I.addr
  phases : I'.phases = I.phases
  sets : List.Forall₂ (fun s s' => ∃ k, CutSet s s' k) I.sets I'.sets

theorem grid_shift (a b : ℤ) (k : ℕ) : grid (a - k) (b - k) = (grid a b).map fun i : ℤ => i - k := by
  unfold grid
  rw [List.map_map, show b - k + 1 - (a - k) = b + 1 - a by ring]
  refine List.map_congr_left fun n _ => ?_
  simp only [Function.comp]
  ring

theorem later_div0 (D : Data) (k is : ℕ) (v : RVar) (psel : List (Option (PPhase × Sel))) : Div0 (later D k) is v psel ↔ Div0 D is v psel := Iff.rfl

namespace Cut
variable {I I' : Input} (C : Cut I I')
include C

theorem natoms : I'.natoms = I.natoms := by unfold Input.natoms; rw [C.phases]
theorem nset : I'.nset = I.nset := C.sets.length_eq.symm

theorem val (v : ℕ → ℝ) : I'.val v = I.val v := by unfold Input.val; rw [C.addr]

theorem icc : I'.icc = I.icc := by
  funext a
  unfold Input.icc
  rw [C.natoms, C.nset, C.addr, C.phases]

theorem vars (cs : List (Constr (List Char))) (v0 : ℕ → ℝ) (par : ParStore ℝ) : I'.vars cs v0 par = I.vars cs v0 par := by
  unfold Input.vars
  rw [C.icc]

theorem fair {cons : List (Constr (List Char))} (h : C75.Fair I cons) : C75.Fair I' cons where
  one := h.one
  assigns := h.assigns
  target c hc := by
    obtain ⟨x, h1, h2⟩ := h.target c hc
    exact ⟨x, by rw [C.natoms, C.nset]; exact h1, by rw [C.addr]; exact h2⟩

theorem get (is : ℕ) : (I.sets[is]? = none ∧ I'.sets[is]? = none) ∨ ∃ s s' k, I.sets[is]? = some s ∧ I'.sets[is]? = some s' ∧ CutSet s s' k := by
  have hl := C.sets.length_eq
  by_cases h : is < I.sets.length
  · right
    have h' : is < I'.sets.length := by omega
    obtain ⟨k, hk⟩ := (List.forall₂_iff_get.1 C.sets).2 is h h'
    exact ⟨_, _, k, List.getElem?_eq_getElem h, List.getElem?_eq_getElem h', hk⟩
  · left
    exact ⟨List.getElem?_eq_none (by omega), List.getElem?_eq_none (by omega)⟩

variable {s s' : SetIn} {k : ℕ} (S : CutSet s s' k)
include S

theorem dat (v : ℕ → ℝ) (is : ℕ) : I'.dat v is s' = later (I.dat v is s) k := by
  unfold Input.dat
  rw [C.val, S.settings]
  rfl

theorem sel (v : ℕ → ℝ) : I'.sel v s' = I.sel v s := by
  unfold Input.sel Input.template
  rw [C.val, C.phases, S.sel, S.sf]

theorem curve (v : ℕ → ℝ) (is : ℕ) (h : (I.dat v is s).Ok) {i : ℤ} (h1 : s.d.D.nfmin ≤ i) (h2 : i ≤ s.d.D.nfmax) :
    I'.curveOf v is s' (i - k) = I.curveOf v is s i := by
  unfold Input.curveOf
  rw [C.dat S, C.sel S]
  obtain ⟨-, -, h3⟩ := C101_start_partial h (k := k) S.remains (I.sel v s)
  rcases h3 with ⟨e1, e2⟩ | ⟨f, f', e1, e2, e3⟩
  · rw [e1, e2]
  · rw [e1, e2]
    exact (e3 i h1 h2).1

theorem slope (v : ℕ → ℝ) (is : ℕ) (h : (I.dat v is s).Ok) (n : ℕ) (tv : ℕ → RVar) (d : ℕ → ℕ → ℝ) (i : ℤ) (j : ℕ) :
    I'.slope v is s' n tv d (i - k) j = I.slope v is s n tv d i j := by
  unfold Input.slope
  rw [C.dat S, C.sel S]
  refine Finset.sum_congr rfl fun c _ => ?_
  rw [later_filt h S.remains _ _ (later_column h S.remains is (tv c) (I.sel v s)), sub_add_cancel]

theorem det (v : ℕ → ℝ) (is : ℕ) (h : (I.dat v is s).Ok) :
    (∃ f, determine (I'.dat v is s') (I'.sel v s') = .ok (some f)) ↔ ∃ f, determine (I.dat v is s) (I.sel v s) = .ok (some f) := by
  rw [C.dat S, C.sel S]
  obtain ⟨-, -, h3⟩ := C101_start_partial h (k := k) S.remains (I.sel v s)
  rcases h3 with ⟨e1, e2⟩ | ⟨f, f', e1, e2, e3⟩
  · rw [e1, e2]
  · rw [e1, e2]
    exact ⟨fun _ => ⟨_, rfl⟩, fun _ => ⟨_, rfl⟩⟩

omit S s s' k
theorem works (H : I.Ok) {p0 : ParStore ℝ} {cs : List (Constr (List Char))} {v0 : ℕ → ℝ} {tv : ℕ → RVar} {par : ParStore ℝ} :
    I'.Works p0 cs v0 tv par ↔ I.Works p0 cs v0 tv par := by
  constructor
  · intro h
    refine ⟨h.con, ⟨fun ip hip => ?_, fun is s hs => ?_⟩, fun is s hs c x hx hf => ?_⟩
    · have := h.num.lat ip (by rw [C.phases]; exact hip)
      rwa [C.vars, C.val] at this
    · rcases C.get is with ⟨e, -⟩ | ⟨t, t', k, e1, e2, S⟩
      · rw [e] at hs; cases hs
      · obtain rfl := Option.some.inj (e1.symm.trans hs)
        have := h.num.det is t' e2
        rw [C.vars] at this
        exact (C.det S _ is (Input.dat_ok H (List.mem_of_getElem? hs) _ _)).1 this
    · rcases C.get is with ⟨e, -⟩ | ⟨t, t', k, e1, e2, S⟩
      · rw [e] at hs; cases hs
      · obtain rfl := Option.some.inj (e1.symm.trans hs)
        have := h.div is t' e2 c x hx hf
        rwa [C.vars, C.dat S, C.sel S, later_div0] at this
  · intro h
    refine ⟨h.con, ⟨fun ip hip => ?_, fun is s hs => ?_⟩, fun is s hs c x hx hf => ?_⟩
    · rw [C.vars, C.val]
      exact h.num.lat ip (by rw [← C.phases]; exact hip)
    · rcases C.get is with ⟨-, e⟩ | ⟨t, t', k, e1, e2, S⟩
      · rw [e] at hs; cases hs
      · obtain rfl := Option.some.inj (e2.symm.trans hs)
        rw [C.vars]
        exact (C.det S _ is (Input.dat_ok H (List.mem_of_getElem? e1) _ _)).2 (h.num.det is t e1)
    · rcases C.get is with ⟨-, e⟩ | ⟨t, t', k, e1, e2, S⟩
      · rw [e] at hs; cases hs
      · obtain rfl := Option.some.inj (e2.symm.trans hs)
        rw [C.vars, C.dat S, C.sel S, later_div0]
        exact h.div is t e1 c x hx hf

/-- Sets of points are compared set by set. -/
theorem each {β : Type} (f f' : ℕ → SetIn → β) (h : ∀ is s s' k, I.sets[is]? = some s → I'.sets[is]? = some s' → CutSet s s' k → f' is s' = f is s) :
    I'.sets.mapIdx f' = I.sets.mapIdx f := by
  refine List.ext_getElem? fun is => ?_
  rw [List.getElem?_mapIdx, List.getElem?_mapIdx]
  rcases C.get is with ⟨e, e'⟩ | ⟨s, s', k, e1, e2, S⟩
  · rw [e, e']; rfl
  · rw [e1, e2]
    exact congrArg some (h is s s' k e1 e2 S)

end Cut

section
variable {I I' : Input} {p0 : ParStore ℝ} {cs : List (Constr (List Char))} {v0 : ℕ → ℝ}
open C96

theorem cut_after (C : Cut I I') (H : I.Ok) (H' : I'.Ok) (dmax : ℝ) (hF : C75.Fair I cs) {tv : ℕ → RVar}
    (htv : ∀ (c : ℕ) x, cs[c]? = some x → C47.Exists I.natoms I.nset (tv c) ∧ x.addr = I.addr (tv c))
    {par : ParStore ℝ} (hs : C53.Same p0 par) (hW : I.Works p0 cs v0 tv par) {w w' : CWorld (List Char) ℝ (List Out)}
    (hw : I.Ready dmax p0 cs v0 w) (hw' : I'.Ready dmax p0 cs v0 w') :
    ∃ u u', (constrTheory (I.static dmax)).eval par w = (u, none) ∧ (constrTheory (I'.static dmax)).eval par w' = (u', none) ∧
      After I I' 1 dmax p0 cs v0 u u' := by
  have htv' : ∀ (c : ℕ) x, cs[c]? = some x → C47.Exists I'.natoms I'.nset (tv c) ∧ x.addr = I'.addr (tv c) := by
    rw [C.natoms, C.nset, C.addr]; exact htv
  have hW' := (C.works H).2 hW
  obtain ⟨u, G, e1, e2, e3, e4, e5⟩ := Input.eval_ok H dmax hF.one hF.assigns tv htv hw hs hW.con hW.num hW.div
  obtain ⟨u', G', f1, f2, f3, f4, f5⟩ := Input.eval_ok H' dmax hF.one hF.assigns tv htv' hw' hs hW'.con hW'.num hW'.div
  rw [C.vars] at f3 f4 f5
  have hok : ∀ (is : ℕ) s, I.sets[is]? = some s → (I.dat (I.vars cs v0 par) is s).Ok := fun is s h => Input.dat_ok H (List.mem_of_getElem? h) _ _
  have hok' : ∀ (is : ℕ) s, I.sets[is]? = some s → s.d.D.Ok := fun is s h =>
    have d := H.data s (List.mem_of_getElem? h)
    ⟨d.step, d.lo, d.ord⟩
  have hgrid : ∀ s s' k, (∃ is : ℕ, I.sets[is]? = some s) → CutSet s s' k → grid s'.d.D.nfmin s'.d.D.nfmax = (grid s.d.D.nfmin s.d.D.nfmax).map fun i : ℤ => i - k := by
    rintro s s' k ⟨is, h⟩ S
    have h1 : s.d.D.Ok := hok' is s h
    rw [S.settings, later_nfmin h1 (weaker h1 S.remains), later_nfmax h1 (weaker h1 S.remains), grid_shift]
  have hpt : ∀ (is : ℕ) s s' k, I.sets[is]? = some s → CutSet s s' k → ∀ i ∈ grid s.d.D.nfmin s.d.D.nfmax, ∀ g g',
      Input.pt s' (I'.curveOf (I.vars cs v0 par) is s') g' (i - k) =
        { Input.pt s (I.curveOf (I.vars cs v0 par) is s) g i with d := g' (i - k) } := by
    intro is s s' k h S i hi g g'
    obtain ⟨i1, i2⟩ := mem_grid.1 hi
    have h1 : s.d.D.Ok := hok' is s h
    have h3 := later_one h1 S.remains
    have h4 := ncmin_le_nfmin h1
    rw [later_ncmin h1 (weaker h1 S.remains)] at h3
    have h5 : i.toNat = (i - k).toNat + k := by omega
    unfold Input.pt
    rw [C.curve S _ is (hok is s h) i1 i2]
    have ew := S.wic (i - k).toNat (by omega) (by omega)
    have eo := S.obs (i - k).toNat (by omega) (by omega)
    rw [h5, List.getD_eq_getElem?_getD, List.getD_eq_getElem?_getD, List.getD_eq_getElem?_getD, List.getD_eq_getElem?_getD, ew, eo]
  have hG : ∀ (is : ℕ) s s' k, I.sets[is]? = some s → I'.sets[is]? = some s' → CutSet s s' k → ∀ i ∈ grid s.d.D.nfmin s.d.D.nfmax, ∀ j, j < p0.p.length →
      p0.ip.getD j false = true → G' is (i - k) j = G is i j := by
    intro is s s' k h h' S i hi j hj hf
    rw [e5 is s h i hi j hj hf, f5 is s' h' (i - k) (by rw [hgrid s s' k ⟨is, h⟩ S]; exact List.mem_map_of_mem hi) j hj hf, C.slope S _ is (hok is s h)]
  have sums : ∀ f : Pt ℝ → ℝ, (∀ (p : Pt ℝ) (d d' : ℕ → ℝ), (∀ j, j < p0.p.length → p0.ip.getD j false = true → d' j = d j) →
      f { p with d := d' } = f { p with d := d }) →
      ((I'.static dmax).pts u'.curve).map (fun l => l.map f) = ((I.static dmax).pts u.curve).map (fun l => l.map f) := by
    intro f hf
    rw [e4, f4, C74.map_mapIdx, C74.map_mapIdx]
    refine C.each _ _ fun is s s' k h h' S => ?_
    simp only [List.map_map]
    rw [hgrid s s' k ⟨is, h⟩ S, List.map_map]
    refine List.map_congr_left fun i hi => ?_
    simp only [Function.comp]
    rw [hpt is s s' k h S i hi (G is) (G' is)]
    exact hf _ _ _ fun j hj hj' => hG is s s' k h h' S i hi j hj hj'
  have flat : ∀ f : Pt ℝ → ℝ, (∀ (p : Pt ℝ) (d d' : ℕ → ℝ), (∀ j, j < p0.p.length → p0.ip.getD j false = true → d' j = d j) →
      f { p with d := d' } = f { p with d := d }) →
      (((I'.static dmax).pts u'.curve).flatten.map f).sum = (((I.static dmax).pts u.curve).flatten.map f).sum := by
    intro f hf
    rw [List.map_flatten, List.map_flatten, sums f hf]
  refine ⟨u, u', e1, f1, e2, f2, by rw [e3, f3], fun k => ?_, ?_, ?_, ?_, ?_⟩
  · show (Modelled I' dmax u')[k]? = _
    unfold Modelled
    rw [sums Pt.mod fun _ _ _ _ => rfl]
  · show _ = 1 * _
    rw [one_mul]
    exact flat _ fun _ _ _ _ => rfl
  · show _ = 1 * _
    rw [one_mul]
    exact flat _ fun _ _ _ _ => rfl
  · intro l m hl hm h1 h2
    show _ * (1 * 1) = 1 * _
    rw [one_mul, mul_one, one_mul]
    refine flat _ fun p d d' hd => ?_
    show _ * d' l * d' m = _ * d l * d m
    rw [hd l hl h1, hd m hm h2]
  · intro l hl h1
    show _ * 1 = 1 * _
    rw [mul_one, one_mul]
    refine flat _ fun p d d' hd => ?_
    show _ * d' l = _ * d l
    rw [hd l hl h1]

theorem cut_twin (C : Cut I I') (H : I.Ok) (H' : I'.Ok) (dmax : ℝ) (hF : C75.Fair I cs) : Twin I I' 1 dmax p0 cs v0 := by
  intro par w w' hs hw hw'
  obtain ⟨tv, htv⟩ := C75.targets hF
  by_cases hW : I.Works p0 cs v0 tv par
  · exact .inl (cut_after C H H' dmax hF htv hs hW hw hw')
  · refine .inr ⟨fun u hu => hW (Input.eval_none H dmax hF.one tv htv hw hs hu), fun u hu => hW ?_⟩
    exact (C.works H).1 (Input.eval_none H' dmax hF.one tv (by rw [C.natoms, C.nset, C.addr]; exact htv) hw' hs hu)

theorem after_symm {dmax : ℝ} {w w' : CWorld (List Char) ℝ (List Out)} (h : After I I' 1 dmax p0 cs v0 w w') : After I' I 1 dmax p0 cs v0 w' w where
  ready := h.ready'
  ready' := h.ready
  vars := h.vars.symm
  mod k := (h.mod k).symm
  pts := by
    obtain ⟨a, b, c, d⟩ := h.pts
    simp only [same, one_mul, mul_one, Equiv.refl_apply] at a b c d
    refine ⟨?_, ?_, ?_, ?_⟩ <;> simp only [same, one_mul, mul_one, Equiv.refl_apply]
    · exact a.symm
    · exact b.symm
    · exact fun l m hl hm h1 h2 => (c l m hl hm h1 h2).symm
    · exact fun l hl h1 => (d l hl h1).symm

theorem twin_symm {dmax : ℝ} (T : Twin I I' 1 dmax p0 cs v0) : Twin I' I 1 dmax p0 cs v0 := by
  intro par w w' hs hw hw'
  rcases T par w' w hs hw' hw with ⟨u, u', h1, h2, h3⟩ | ⟨h1, h2⟩
  · exact .inl ⟨u', u, h2, h1, after_symm h3⟩
  · exact .inr ⟨h2, h1⟩
end

/-- **C101, the part that holds, for refinements**: two sessions with the same structures, calls of `constrain`, `setpar` etc. and values of all variables; the data
sets of the second lack some of the first points of the data sets of the first, and one point remains before the range of the calculation. `refine()` returns
in the one exactly when it returns in the other; then after the same number of steps, with the same parameters, structures, chi-square,
Rw and covariances, and the same calculated values in the fit ranges. What is missing: data that begin with the range of the calculation. -/
theorem C101_cut_partial (I I' : Input) (C : Cut I I') (H : I.Ok) (H' : I'.Ok) (dmax toler : ℝ) (ops : List (COp (List Char) ℝ))
    (hn : C08.NoRepl (fparse builtinTab) {} ops) (s s' : Statics ℝ) (e e' : Eng ℝ (CWorld (List Char) ℝ (List Out)))
    (hst : CState.run (fparse builtinTab) {} ops = ⟨e.par, e.world.cons, e.world.dvdp⟩)
    (hst' : CState.run (fparse builtinTab) {} ops = ⟨e'.par, e'.world.cons, e'.world.dvdp⟩) (hv : e'.world.vars = e.world.vars)
    (hcur : ∀ x ∈ e.world.curve, x.1.WF) (hcur' : ∀ x ∈ e'.world.curve, x.1.WF)
    (hfresh : ¬ (s.fitRunning = true ∧ e.iter ≠ 0)) (hfresh' : ¬ (s'.fitRunning = true ∧ e'.iter ≠ 0)) (hF : C75.Fair I e.world.cons) (fuel : ℕ)
    (r r' : (Statics ℝ × Eng ℝ (CWorld (List Char) ℝ (List Out))) × Outcome × ℕ)
    (hr : r = refineLoop (constrTheory (I.static dmax)) toler fuel (s, e))
    (hr' : r' = refineLoop (constrTheory (I'.static dmax)) toler fuel (s', e')) :
    (r'.2.1 = .done ↔ r.2.1 = .done) ∧ (r.2.1 = .done → r'.2 = r.2 ∧ C96.SameResults I I' 1 dmax r.1.2 r'.1.2) := by
  subst hr hr'
  have hcc := hst.symm.trans hst'
  obtain ⟨h1, h2⟩ : e'.par = e.par ∧ e'.world.cons = e.world.cons := by
    simp only [CState.mk.injEq] at hcc
    exact ⟨hcc.1.symm, hcc.2.1.symm⟩
  have T : C96.Twin I I' 1 dmax e.par e.world.cons e.world.vars := cut_twin C H H' dmax hF
  refine ⟨⟨fun h => ?_, fun h => ?_⟩, fun h => ?_⟩
  · obtain ⟨k, -⟩ := C96.one_way I' I 1 H' dmax toler ops hn s' s e' e hst' hst hv.symm hcur' hcur hfresh' hfresh
      (by rw [h2]; exact C.fair hF) (by rw [h1, h2, hv]; exact twin_symm T) fuel h
    rw [k]; exact h
  · obtain ⟨k, -⟩ := C96.one_way I I' 1 H dmax toler ops hn s s' e e' hst hst' hv hcur hcur' hfresh hfresh' hF T fuel h
    rw [k]; exact h
  · exact C96.one_way I I' 1 H dmax toler ops hn s s' e e' hst hst' hv hcur hcur' hfresh hfresh' hF T fuel h

/-! ### Examples -/

/-- Data at 0, 1, 2, …, fitted from 3 to 4. -/
noncomputable def exD : Data := ⟨0, 1, 3, 4, 0, 0, 0, 1⟩

theorem exD_ok : exD.Ok := ⟨by norm_num [exD], by norm_num [exD], by norm_num [exD]⟩
theorem exD_min : exD.nfmin = 3 := by
  unfold Data.nfmin
  have := nint_int 3
  norm_num [exD] at this ⊢
  exact this
theorem exD_max : exD.nfmax = 4 := by
  unfold Data.nfmax
  have := nint_int 4
  norm_num [exD] at this ⊢
  exact this

/-- Other values and weights at 0, 1 and 2, and a further point with a wild value. -/
example (ph : PPhase) (sf : ℕ → ℕ → ℝ) (σ : Sel) (addr : RVar → ℕ) :
    Same ⟨addr, [ph], [⟨⟨exD, 4, 5, [0, 0, 0, 5, 6], [1, 1, 1, 2, 2]⟩, [some σ], sf⟩]⟩
      ⟨addr, [ph], [⟨⟨exD, 5, 6, [7, 8, 9, 5, 6, 1000], [3, 3, 3, 2, 2, 0]⟩, [some σ], sf⟩]⟩ := by
  refine ⟨rfl, rfl, .cons ⟨rfl, rfl, rfl, ?_, ?_⟩ .nil⟩ <;>
  · intro n h1 h2
    have h1 : exD.nfmin ≤ n := h1
    have h2 : (n : ℤ) ≤ exD.nfmax := h2
    rw [exD_min] at h1
    rw [exD_max] at h2
    have : n = 3 ∨ n = 4 := by omega
    rcases this with rfl | rfl <;> rfl

/-- Two points are cut away, one remains before the range. The fit range then begins at number 1. -/
example : exD.rmin + ((2 : ℕ) + 1) * exD.deltar ≤ exD.rcmin ∧ (later exD 2).nfmin = 1 ∧ (later exD 2).nfmax = 2 := by
  have h : exD.rmin + ((2 : ℕ) + 1) * exD.deltar ≤ exD.rcmin := by
    unfold Data.rcmin
    norm_num [exD]
  obtain ⟨h1, h2, -⟩ := C101_start_partial exD_ok h []
  rw [exD_min] at h1
  rw [exD_max] at h2
  exact ⟨h, h1, h2⟩

/-- Two of five points are cut away; before and after this is a data set as it is read. -/
example (ph : PPhase) (sf : ℕ → ℕ → ℝ) (σ : Sel) (addr : RVar → ℕ) :
    Cut ⟨addr, [ph], [⟨⟨exD, 4, 5, [7, 8, 9, 5, 6], [1, 1, 1, 2, 2]⟩, [some σ], sf⟩]⟩
      ⟨addr, [ph], [⟨⟨later exD 2, 4, 3, [9, 5, 6], [1, 2, 2]⟩, [some σ], sf⟩]⟩ ∧
    C30.Inv ⟨exD, 4, 5, [7, 8, 9, 5, 6], [1, 1, 1, 2, 2]⟩ ∧ C30.Inv ⟨later exD 2, 4, 3, [9, 5, 6], [1, 2, 2]⟩ := by
  have h : exD.rmin + ((2 : ℕ) + 1) * exD.deltar ≤ exD.rcmin := by
    unfold Data.rcmin
    norm_num [exD]
  refine ⟨⟨rfl, rfl, .cons ⟨2, rfl, h, rfl, rfl, ?_, ?_⟩ .nil⟩, ?_, ?_⟩
  · intro n h1 h2
    have h1 : exD.nfmin ≤ n + (2 : ℕ) := h1
    have h2 : (n : ℤ) + (2 : ℕ) ≤ exD.nfmax := h2
    rw [exD_min] at h1
    rw [exD_max] at h2
    have : n = 1 ∨ n = 2 := by omega
    rcases this with rfl | rfl <;> rfl
  · intro n h1 h2
    have h1 : exD.nfmin ≤ n + (2 : ℕ) := h1
    have h2 : (n : ℤ) + (2 : ℕ) ≤ exD.nfmax := h2
    rw [exD_min] at h1
    rw [exD_max] at h2
    have : n = 1 ∨ n = 2 := by omega
    rcases this with rfl | rfl <;> rfl
  · constructor <;> norm_num [exD]
  · constructor <;> norm_num [exD, later]

end Pdffit.C101
