import Verif.Props.C71

/-!
# C72: how the occupancy of a site is divided among atoms

Observable content: two structures with the same cell and the same sites (position, displacement parameters, element), for each of which the
occupancies of the atoms add up to the same, give the same total PDF when both calculations give numbers (`C72_same`). It covers a site split into
partially occupied copies, atoms of occupancy zero, and any order of the atoms. A structure whose sites are only split gives numbers if the other
one does (`C72_split_partial`), unless the scattering factors of its atoms, counted without occupancies, add up to zero; they do not when they are
all positive (`C72_positive`).

Violations: with scattering factors of both signs one description may give NaN where another one gives numbers (`C72_nan`), and partial PDFs depend
on how a site is split (`C72_partial_pdf`). Both come from pdf.cc 211-227, where occupancies are left out.
-/

namespace Pdffit.C72
open Det C24 C68 Bonds

/-! ## Sites -/

/-- What distinguishes atoms apart from their occupancy: position, displacements, scattering factor and selection. -/
abbrev Key := (Fin 3 → ℝ) × (Fin 6 → ℝ) × ℝ × Bool × Bool

def key (ph : PPhase) (s : Sel) (i : ℕ) : Key := ((ph.atm i).pos, (ph.atm i).u, (ph.atm i).sf, s.igI i, s.igJ i)

open Classical in
/-- Occupancy of a site: the sum over the atoms there. -/
noncomputable def siteOcc (ph : PPhase) (s : Sel) (k : Key) : ℝ :=
  ∑ i ∈ (Finset.range ph.atom.length).filter fun i => key ph s i = k, (ph.atm i).occ

/-- The two phases have the same sites with the same occupancies. -/
structure Alike (ph ph' : PPhase) (s s' : Sel) : Prop where
  rest : ph' = { ph with atom := ph'.atom }
  occ : ∀ k, siteOcc ph' s' k = siteOcc ph s k

/-! ## Sums over atoms are sums over sites -/

open Classical in
theorem sum_sites (ph : PPhase) (s : Sel) (f : Key → ℝ) (t : Finset Key) (ht : ∀ i, i < ph.atom.length → key ph s i ∈ t) :
    ∑ i ∈ Finset.range ph.atom.length, (ph.atm i).occ * f (key ph s i) = ∑ k ∈ t, siteOcc ph s k * f k := by
  rw [← Finset.sum_fiberwise_of_maps_to (s := Finset.range ph.atom.length) (t := t) (g := key ph s) fun i hi => ht i (Finset.mem_range.1 hi)]
  refine Finset.sum_congr rfl fun k _ => ?_
  unfold siteOcc
  rw [Finset.sum_mul]
  refine Finset.sum_congr rfl fun i hi => ?_
  rw [(Finset.mem_filter.1 hi).2]

section
variable {ph ph' : PPhase} {s s' : Sel} (A : Alike ph ph' s s')
include A

theorem sum_alike (f : Key → ℝ) : ∑ i ∈ Finset.range ph'.atom.length, (ph'.atm i).occ * f (key ph' s' i) =
    ∑ i ∈ Finset.range ph.atom.length, (ph.atm i).occ * f (key ph s i) := by
  classical
  rw [sum_sites ph s f ((Finset.range ph.atom.length).image (key ph s) ∪ (Finset.range ph'.atom.length).image (key ph' s')),
    sum_sites ph' s' f ((Finset.range ph.atom.length).image (key ph s) ∪ (Finset.range ph'.atom.length).image (key ph' s'))]
  · exact Finset.sum_congr rfl fun k _ => by rw [A.occ]
  · exact fun i hi => Finset.mem_union_right _ (Finset.mem_image_of_mem _ (Finset.mem_range.2 hi))
  · exact fun i hi => Finset.mem_union_left _ (Finset.mem_image_of_mem _ (Finset.mem_range.2 hi))

theorem double_alike (f : Key → Key → ℝ) :
    ∑ i ∈ Finset.range ph'.atom.length, ∑ j ∈ Finset.range ph'.atom.length, (ph'.atm i).occ * (ph'.atm j).occ * f (key ph' s' i) (key ph' s' j) =
    ∑ i ∈ Finset.range ph.atom.length, ∑ j ∈ Finset.range ph.atom.length, (ph.atm i).occ * (ph.atm j).occ * f (key ph s i) (key ph s j) := by
  have h1 : ∀ x, ∑ j ∈ Finset.range ph'.atom.length, (ph'.atm j).occ * f x (key ph' s' j) = ∑ j ∈ Finset.range ph.atom.length, (ph.atm j).occ * f x (key ph s j) :=
    fun x => sum_alike A (f x)
  have h2 := sum_alike A fun x => ∑ j ∈ Finset.range ph.atom.length, (ph.atm j).occ * f x (key ph s j)
  simp only [mul_assoc, ← Finset.mul_sum]
  rw [← h2]
  exact Finset.sum_congr rfl fun i _ => by rw [h1]

theorem np_alike : ph'.np = ph.np := by
  have := sum_alike A fun _ => 1
  unfold PPhase.np
  rw [sum_atoms, sum_atoms]
  simpa using this

theorem bavg_alike : ph'.bavg = ph.bavg := by
  have := sum_alike A fun k => k.2.2.1
  unfold PPhase.bavg
  rw [np_alike A, sum_atoms ph' fun a => a.occ * a.sf, sum_atoms ph fun a => a.occ * a.sf]
  exact congrArg (· / ph.np) this

theorem ncv_alike : ph'.ncv = ph.ncv := by rw [A.rest]; rfl

theorem skal_alike (x y : Fin 3 → ℝ) : ph'.toPhs.skal x y = ph.toPhs.skal x y := by
  rw [A.rest]
  rfl

omit A in
theorem ne_of_np {ph : PPhase} (h : ph.np ≠ 0) : ph.toPhs.atom ≠ [] := by
  intro e
  apply h
  have : ph.atom = [] := by simpa [PPhase.toPhs] using e
  simp [PPhase.np, this]

theorem ball_alike (hn : ph.np ≠ 0) (D : Data) : ball D ph' = ball D ph := by
  have c : circumDiameter ph'.toPhs = circumDiameter ph.toPhs := by
    unfold circumDiameter
    rw [if_neg (ne_of_np hn), if_neg (ne_of_np (by rw [np_alike A]; exact hn))]
    simp only [skal_alike A]
  have e : sphere D ph' = sphere D ph := by
    unfold sphere
    rw [c, A.rest]
  ext T
  show tlen ph' T < _ ↔ tlen ph T < _
  rw [e]
  unfold tlen
  rw [skal_alike A]
  rw [A.rest]
  rfl

end

/-! ## Peaks -/

theorem term_smul (D : Data) (ph : PPhase) (a b : PAtom) (c amp : ℝ) (T : ℤ × ℤ × ℤ) (ig : ℤ) :
    term D ph a b (c * amp) T ig = c * term D ph a b amp T ig := by
  unfold term
  cases event D ph a b T with
  | skip => simp
  | nan => simp
  | peak d g =>
    dsimp only
    split
    · ring
    · rw [mul_zero]

/-- An atom at a site. -/
def site (k : Key) : PAtom := ⟨k.1, 0, k.2.1, 0⟩

def sel (k l : Key) : Prop := (k.2.2.2.1 = false ∧ l.2.2.2.2 = false) ∨ (l.2.2.2.1 = false ∧ k.2.2.2.2 = false)

open Classical in
/-- Peaks of a pair of sites, both with the occupancy one. -/
noncomputable def G (D : Data) (ph : PPhase) (bavg : ℝ) (ig : ℤ) (k l : Key) : ℝ :=
  if sel k l then ∑ᶠ T ∈ ball D ph, term D ph (site k) (site l) (k.2.2.1 / bavg * (l.2.2.1 / bavg)) T ig else 0

theorem pair_site (D : Data) (ph : PPhase) (s : Sel) (i j : ℕ) (ig : ℤ) : (if skip s i j = false then S D ph i j ig else 0) =
    (ph.atm i).occ * (ph.atm j).occ * G D ph ph.bavg ig (key ph s i) (key ph s j) := by
  classical
  have e : skip s i j = false ↔ sel (key ph s i) (key ph s j) := selected_iff s i j
  unfold G
  by_cases h : sel (key ph s i) (key ph s j)
  · rw [if_pos (e.2 h), if_pos h]
    unfold S
    refine Eq.trans ?_ (smul_finsum ((ph.atm i).occ * (ph.atm j).occ) _).symm
    refine finsum_congr fun T => ?_
    rw [smul_finsum]
    refine finsum_congr fun _ => ?_
    rw [smul_eq_mul, ← term_smul]
    show term D ph (ph.atm i) (ph.atm j) _ T ig = term D ph (ph.atm i) (ph.atm j) _ T ig
    congr 1
    show (ph.atm i).occ * ((ph.atm i).sf / ph.bavg) * ((ph.atm j).occ * ((ph.atm j).sf / ph.bavg)) =
      (ph.atm i).occ * (ph.atm j).occ * ((ph.atm i).sf / ph.bavg * ((ph.atm j).sf / ph.bavg))
    ring
  · rw [if_neg fun h' => h (e.1 h'), if_neg h, mul_zero]

section
variable {ph ph' : PPhase} {s s' : Sel} (A : Alike ph ph' s s') (F : C19.Fine ph.toPhs) (N : Near ph) (N' : Near ph')
include A F

theorem fine_alike : C19.Fine ph'.toPhs := by
  rw [A.rest]
  exact ⟨F.acc, F.edge, F.angle, F.small, F.icc⟩

include N N'

theorem pairSum_alike (hn : ph.np ≠ 0) (D : Data) (ig : ℤ) : pairSum D ph' s' ig = pairSum D ph s ig := by
  rw [pairSum_full (fine_alike A F) N', pairSum_full F N]
  simp only [pair_site]
  have e : G D ph' ph'.bavg ig = G D ph ph.bavg ig := by
    funext k l
    unfold G
    rw [ball_alike A hn, bavg_alike A]
    have : ∀ a b amp T ig, term D ph' a b amp T ig = term D ph a b amp T ig := by
      intro a b amp T ig
      rw [A.rest]
      rfl
    simp only [this]
  rw [e]
  exact double_alike A _

/-- The curve of a phase, as long as the share of the selected pairs is the same. -/
theorem curve_alike (hn : ph.np ≠ 0) (hs : ract ph' s' / rtot ph' = ract ph s / rtot ph) (D : Data) : curve D ph' s' = curve D ph s := by
  funext ig
  have e4 : ph'.rho0 = ph.rho0 := by
    unfold PPhase.rho0
    rw [np_alike A, ncv_alike A]
  have e5 : envelope D ph' (D.r ig) = envelope D ph (D.r ig) := by
    rw [A.rest]
    rfl
  unfold curve
  rw [pairSum_alike A F N N' hn, hs, e4, e5, np_alike A]

end

/-! ## The property -/

/-- All atoms are selected. -/
def All (ph : PPhase) (s : Sel) : Prop := ∀ i, i < ph.atom.length → s.igI i = false ∧ s.igJ i = false

theorem share_all {ph : PPhase} {s : Sel} (h : All ph s) (hr : rtot ph ≠ 0) : ract ph s / rtot ph = 1 := by
  rw [C71.ract_all ph (s := s) fun a b ha hb => (selected_iff s a b).2 (.inl ⟨(h a ha).1, (h b hb).2⟩), div_self hr]

/-- If both calculations give numbers, the total curves are the same, for all settings, including termination ripples. -/
theorem C72_same (D : Data) (h : D.Ok) {ph ph' : PPhase} {s s' : Sel} (A : Alike ph ph' s s') (F : C19.Fine ph.toPhs) (N : Near ph)
    (N' : Near ph') (a : All ph s) (a' : All ph' s') (l₁ l₂ : List (Option (PPhase × Sel))) (f f' : ℤ → ℝ)
    (hf : determine D (l₁ ++ some (ph, s) :: l₂) = .ok (some f)) (hf' : determine D (l₁ ++ some (ph', s') :: l₂) = .ok (some f')) :
    ∀ i, D.ncmin ≤ i → i ≤ D.ncmax → f' i = f i := by
  intro i hi hi'
  obtain ⟨b1, h1⟩ := determine_some h hf
  obtain ⟨b2, h2⟩ := determine_some h hf'
  have b1 := b1 (ph, s) (by simp)
  have b2 := b2 (ph', s') (by simp)
  unfold Bad at b1 b2
  push Not at b1 b2
  rw [h1 i hi hi', h2 i hi hi']
  simp only [List.filterMap_append, List.filterMap_cons, id, List.map_append, List.map_cons, List.sum_append, List.sum_cons]
  rw [curve_alike A F N N' b1.2.1 (by rw [share_all a b1.2.2.2.2.1, share_all a' b2.2.2.2.2.1]), show ph'.pscale = ph.pscale by rw [A.rest]]

/-- If atoms are only divided, both give numbers or none, unless the sum of the scattering factors is zero. -/
theorem C72_split_partial (D : Data) (h : D.Ok) {ph ph' : PPhase} {s s' : Sel} (A : Alike ph ph' s s') (F : C19.Fine ph.toPhs) (N : Near ph)
    (a : All ph s) (a' : All ph' s') (hk : ∀ i, i < ph'.atom.length → ∃ j, j < ph.atom.length ∧ key ph' s' i = key ph s j) (hr : rtot ph' ≠ 0)
    (l₁ l₂ : List (Option (PPhase × Sel))) (f : ℤ → ℝ) (hf : determine D (l₁ ++ some (ph, s) :: l₂) = .ok (some f)) :
    ∃ f', determine D (l₁ ++ some (ph', s') :: l₂) = .ok (some f') ∧ ∀ i, D.ncmin ≤ i → i ≤ D.ncmax → f' i = f i := by
  obtain ⟨b, -⟩ := determine_some h hf
  have b1 := b (ph, s) (by simp)
  have hn : ph.np ≠ 0 := fun e => b1 (.inr (.inl e))
  have c : circumDiameter ph'.toPhs = circumDiameter ph.toPhs := by
    unfold circumDiameter
    rw [if_neg (ne_of_np hn), if_neg (ne_of_np (by rw [np_alike A]; exact hn))]
    simp only [skal_alike A]
  have N' : Near ph' := by
    intro i j hi hj
    obtain ⟨i', hi', ei⟩ := hk i hi
    obtain ⟨j', hj', ej⟩ := hk j hj
    rw [c, skal_alike A, show (ph'.atm i).pos = (ph.atm i').pos from congrArg Prod.fst ei,
      show (ph'.atm j).pos = (ph.atm j').pos from congrArg Prod.fst ej]
    exact N _ _ hi' hj'
  have b2 : ¬Bad D ph' s' := by
    rintro (e | e | e | e | e | e)
    · rw [nan_iff (fine_alike A F) N'] at e
      obtain ⟨i, j, T, hi, hj, hs, hT, he⟩ := e
      obtain ⟨i', hi', ei⟩ := hk i hi
      obtain ⟨j', hj', ej⟩ := hk j hj
      refine b1 (.inl ((nan_iff F N s).2 ⟨i', j', T, hi', hj', .inl ⟨(a i' hi').1, (a j' hj').2⟩, ?_, ?_⟩))
      · rw [← ball_alike A hn]; exact hT
      · have e1 : (ph'.atm i).pos = (ph.atm i').pos := congrArg Prod.fst ei
        have e2 : (ph'.atm i).u = (ph.atm i').u := congrArg (fun k : Key => k.2.1) ei
        have e3 : (ph'.atm j).pos = (ph.atm j').pos := congrArg Prod.fst ej
        have e4 : (ph'.atm j).u = (ph.atm j').u := congrArg (fun k : Key => k.2.1) ej
        have e5 : event D ph' (ph'.atm i) (ph'.atm j) T = event D ph' (ph.atm i') (ph.atm j') T := by
          unfold event dd PPhase.msd
          rw [e1, e2, e3, e4]
        have e6 : event D ph' (ph.atm i') (ph.atm j') T = event D ph (ph.atm i') (ph.atm j') T := by
          rw [A.rest]
          rfl
        rw [← e6, ← e5]
        exact he
    · rw [np_alike A] at e; exact hn e
    · rw [ncv_alike A] at e; exact b1 (.inr (.inr (.inl e)))
    · rw [bavg_alike A] at e; exact b1 (.inr (.inr (.inr (.inl e))))
    · exact hr e
    · exact b1 (.inr (.inr (.inr (.inr (.inr e)))))
  obtain ⟨g, e1, -⟩ := determine_of h (psel := l₁ ++ some (ph', s') :: l₂) (by
    intro x hx
    rw [List.mem_append, List.mem_cons] at hx
    rcases hx with hx | hx | hx
    · exact b x (by simp [hx])
    · simp only [Option.some.injEq] at hx
      subst hx
      exact b2
    · exact b x (by simp [hx]))
  exact ⟨g, e1, C72_same D h A F N N' a a' l₁ l₂ f g hf e1⟩

/-- With scattering factors that are positive the sum is not zero. -/
theorem C72_positive {ph : PPhase} (hp : ∀ a ∈ ph.atom, 0 < a.sf) (hb : ph.bavg ≠ 0) : rtot ph ≠ 0 := by
  have hne : ph.atom ≠ [] := by
    intro e
    apply hb
    simp [PPhase.bavg, e]
  have e : rtot ph = (∑ i ∈ Finset.range ph.atom.length, ph.weight i) ^ 2 := by
    rw [rtot_double, sq, Finset.sum_mul_sum]
  have e2 : ∑ i ∈ Finset.range ph.atom.length, ph.weight i = (∑ i ∈ Finset.range ph.atom.length, (ph.atm i).sf) / ph.bavg := by
    simp only [PPhase.weight, div_eq_mul_inv, Finset.sum_mul]
  have e3 : 0 < ∑ i ∈ Finset.range ph.atom.length, (ph.atm i).sf := by
    refine Finset.sum_pos (fun i hi => hp _ ?_) ⟨0, Finset.mem_range.2 (List.length_pos_iff.2 hne)⟩
    rw [Finset.mem_range] at hi
    unfold PPhase.atm
    rw [List.getD_eq_getElem?_getD, List.getElem?_eq_getElem hi]
    exact List.getElem_mem hi
  rw [e, e2]
  exact pow_ne_zero _ (div_ne_zero e3.ne' hb)

/-! ## Violations -/

/-- The cell of the examples with other atoms. -/
noncomputable def withAtoms (l : List PAtom) : PPhase := { demo with atom := l }

/-- An atom at the origin and one in the middle of the cell. -/
noncomputable def atO (occ : ℝ) : PAtom := ⟨![0, 0, 0], occ, ![1 / 100, 1 / 100, 1 / 100, 0, 0, 0], 1⟩
noncomputable def atM (occ sf : ℝ) : PAtom := ⟨![1 / 2, 1 / 2, 1 / 2], occ, ![1 / 50, 1 / 50, 1 / 50, 0, 0, 0], sf⟩

theorem good_of {l : List PAtom} (hl : ∀ a ∈ l, (∀ k, 0 ≤ a.u k) ∧ a.u 3 = 0 ∧ a.u 4 = 0 ∧ a.u 5 = 0) (h1 : (withAtoms l).np ≠ 0)
    (h2 : (withAtoms l).bavg ≠ 0) (h3 : rtot (withAtoms l) ≠ 0) {D : Data} (h : D.Ok) (hr : 0 < D.rmin) (s : Sel) : ¬Bad D (withAtoms l) s := by
  have ha : ∀ i, (∀ k, 0 ≤ ((withAtoms l).atm i).u k) ∧ ((withAtoms l).atm i).u 3 = 0 ∧ ((withAtoms l).atm i).u 4 = 0 ∧
      ((withAtoms l).atm i).u 5 = 0 := by
    intro i
    unfold PPhase.atm
    rw [List.getD_eq_getElem?_getD]
    by_cases hi : i < (withAtoms l).atom.length
    · rw [List.getElem?_eq_getElem hi]
      exact hl _ (List.getElem_mem hi)
    · rw [List.getElem?_eq_none (not_lt.1 hi)]
      exact ⟨fun k => le_refl (0 : ℝ), rfl, rfl, rfl⟩
  rintro (⟨x, -, h⟩ | e | e | e | e | ⟨i, h2, -, h3⟩)
  · exact event_ne_nan _ _ _ _ _ (ha _) (ha _) le_rfl h
  · exact h1 e
  · have : (withAtoms l).ncv = 27 := (show (withAtoms l).ncv = (iso 0).ncv from rfl).trans (iso_ncv 0)
    rw [this] at e; norm_num at e
  · exact h2 e
  · exact h3 e
  · have h0 := (ncmin_nonneg h).trans h2
    have h0 : (0 : ℝ) ≤ i := by exact_mod_cast h0
    have := h.step
    unfold Data.r at h3
    have : 0 ≤ (i : ℝ) * D.deltar := by positivity
    linarith

theorem atO_u (occ : ℝ) : (∀ k, 0 ≤ (atO occ).u k) ∧ (atO occ).u 3 = 0 ∧ (atO occ).u 4 = 0 ∧ (atO occ).u 5 = 0 :=
  ⟨fun k => by fin_cases k <;> norm_num [atO], rfl, rfl, rfl⟩
theorem atM_u (occ sf : ℝ) : (∀ k, 0 ≤ (atM occ sf).u k) ∧ (atM occ sf).u 3 = 0 ∧ (atM occ sf).u 4 = 0 ∧ (atM occ sf).u 5 = 0 :=
  ⟨fun k => by fin_cases k <;> norm_num [atM], rfl, rfl, rfl⟩

/-- The atom at the origin whole and in halves. -/
noncomputable def whole (occ sf : ℝ) : PPhase := withAtoms [atO 1, atM occ sf]
noncomputable def halves (occ sf : ℝ) : PPhase := withAtoms [atO (1 / 2), atO (1 / 2), atM occ sf]

/-- Both have the same sites, whether all atoms are selected or those at the origin. -/
theorem halves_alike (occ sf : ℝ) {s s' : Sel} (h1 : s'.igI 0 = s.igI 0) (h2 : s'.igI 1 = s.igI 0) (h3 : s'.igI 2 = s.igI 1)
    (h4 : s'.igJ 0 = s.igJ 0) (h5 : s'.igJ 1 = s.igJ 0) (h6 : s'.igJ 2 = s.igJ 1) : Alike (whole occ sf) (halves occ sf) s s' where
  rest := rfl
  occ := fun k => by
    have e0 : key (halves occ sf) s' 0 = key (whole occ sf) s 0 := by unfold key; rw [h1, h4]; rfl
    have e1 : key (halves occ sf) s' 1 = key (whole occ sf) s 0 := by unfold key; rw [h2, h5]; rfl
    have e2 : key (halves occ sf) s' 2 = key (whole occ sf) s 1 := by unfold key; rw [h3, h6]; rfl
    unfold siteOcc
    rw [show (halves occ sf).atom.length = 3 from rfl, show (whole occ sf).atom.length = 2 from rfl, Finset.sum_filter, Finset.sum_filter,
      Finset.sum_range_succ, Finset.sum_range_succ, Finset.sum_range_one, Finset.sum_range_succ, Finset.sum_range_one, e0, e1, e2]
    show (if _ then (1 / 2 : ℝ) else 0) + (if _ then (1 / 2 : ℝ) else 0) + (if _ then occ else 0) =
      (if _ then (1 : ℝ) else 0) + (if _ then occ else 0)
    split_ifs <;> norm_num

theorem whole_np (occ sf : ℝ) : (whole occ sf).np = 1 + occ := by norm_num [PPhase.np, whole, withAtoms, atO, atM]
theorem whole_bavg (occ sf : ℝ) : (whole occ sf).bavg = (1 + occ * sf) / (1 + occ) := by
  have : (whole occ sf).bavg = (1 * 1 + (occ * sf + 0)) / (whole occ sf).np := rfl
  rw [this, whole_np]; norm_num
theorem halves_np (occ sf : ℝ) : (halves occ sf).np = 1 + occ := by
  rw [← whole_np occ sf]
  exact np_alike (halves_alike occ sf (s := C60.noSel) (s' := C60.noSel) rfl rfl rfl rfl rfl rfl)
theorem halves_bavg (occ sf : ℝ) : (halves occ sf).bavg = (1 + occ * sf) / (1 + occ) := by
  rw [← whole_bavg occ sf]
  exact bavg_alike (halves_alike occ sf (s := C60.noSel) (s' := C60.noSel) rfl rfl rfl rfl rfl rfl)

theorem rtot_sq (ph : PPhase) : rtot ph = ((∑ i ∈ Finset.range ph.atom.length, (ph.atm i).sf) / ph.bavg) ^ 2 := by
  rw [rtot_double, ← Finset.sum_mul_sum, ← sq]
  simp only [PPhase.weight, div_eq_mul_inv, Finset.sum_mul]

theorem whole_rtot (occ sf : ℝ) : rtot (whole occ sf) = ((1 + sf) / (whole occ sf).bavg) ^ 2 := by
  rw [rtot_sq, show (whole occ sf).atom.length = 2 from rfl, Finset.sum_range_succ, Finset.sum_range_one]
  rfl
theorem halves_rtot (occ sf : ℝ) : rtot (halves occ sf) = ((1 + 1 + sf) / (halves occ sf).bavg) ^ 2 := by
  rw [rtot_sq, show (halves occ sf).atom.length = 3 from rfl, Finset.sum_range_succ, Finset.sum_range_succ, Finset.sum_range_one]
  rfl

theorem whole_u (occ sf : ℝ) : ∀ a ∈ [atO 1, atM occ sf], (∀ k, 0 ≤ a.u k) ∧ a.u 3 = 0 ∧ a.u 4 = 0 ∧ a.u 5 = 0 := by
  intro a ha
  simp only [List.mem_cons, List.not_mem_nil, or_false] at ha
  rcases ha with rfl | rfl
  · exact atO_u _
  · exact atM_u _ _
theorem halves_u (occ sf : ℝ) : ∀ a ∈ [atO (1 / 2), atO (1 / 2), atM occ sf], (∀ k, 0 ≤ a.u k) ∧ a.u 3 = 0 ∧ a.u 4 = 0 ∧ a.u 5 = 0 := by
  intro a ha
  simp only [List.mem_cons, List.not_mem_nil, or_false] at ha
  rcases ha with rfl | rfl | rfl
  · exact atO_u _
  · exact atO_u _
  · exact atM_u _ _

/-- Violation: with scattering factors 1 and -1 (as of neutrons) and a half occupied site the curve is not a number. With the atom at the origin
in two halves it is. -/
theorem C72_nan : determine (span isoD 1 3) [some (whole (1 / 2) (-1), C60.noSel)] = .ok none ∧
    ∃ f, determine (span isoD 1 3) [some (halves (1 / 2) (-1), C60.noSel)] = .ok (some f) := by
  have o := isoD_ok (lo := 1) (hi := 3) le_rfl (by norm_num)
  constructor
  · obtain ⟨t, h1, -⟩ := determine_spec o [some (whole (1 / 2) (-1), C60.noSel)]
    rw [h1, if_neg]
    intro h
    refine h _ List.mem_cons_self (.inr (.inr (.inr (.inr (.inl ?_)))))
    rw [whole_rtot]
    norm_num
  · obtain ⟨f, h1, -⟩ := determine_of o (psel := [some (halves (1 / 2) (-1), C60.noSel)]) (by
      intro x hx
      simp only [List.mem_singleton, Option.some.injEq] at hx
      subst hx
      refine good_of (halves_u _ _) ?_ ?_ ?_ o one_pos _
      · show (halves (1 / 2) (-1)).np ≠ 0
        rw [halves_np]; norm_num
      · show (halves (1 / 2) (-1)).bavg ≠ 0
        rw [halves_bavg]; norm_num
      · show rtot (halves (1 / 2) (-1)) ≠ 0
        rw [halves_rtot, halves_bavg]; norm_num)
    exact ⟨f, h1⟩

/-- The atoms at the origin are selected. -/
def origin : Sel := ⟨fun i => decide (i = 1), fun i => decide (i = 1)⟩
def origin' : Sel := ⟨fun i => decide (i = 2), fun i => decide (i = 2)⟩

theorem far_origin {l : List PAtom} {s : Sel} (hl : ∀ a, a < l.length → s.igI a = false ∨ s.igJ a = false → ∃ occ, (withAtoms l).atm a = atO occ) :
    C71.Far (span isoD 1 3) (withAtoms l) s 0 := by
  intro a b ha hb hs T hd
  have hs := (selected_iff s a b).1 hs
  obtain ⟨oa, ea⟩ := hl a ha (hs.elim (fun h => .inl h.1) fun h => .inr h.2)
  obtain ⟨ob, eb⟩ := hl b hb (hs.elim (fun h => .inr h.2) fun h => .inl h.1)
  rw [ea, eb] at hd ⊢
  have e1 : d2 (withAtoms l) (atO oa) (atO ob) T = 9 * ((T.1 : ℝ) ^ 2 + (T.2.1 : ℝ) ^ 2 + (T.2.2 : ℝ) ^ 2) := iso_d2 (1 / 100) T
  have e2 : width (span isoD 1 3) (withAtoms l) (atO oa) (atO ob) T = if T = 0 then 0 else √(2 * (1 / 100)) :=
    (iso_width (1 / 100) (span isoD 1 3) rfl T).2
  have hT : T ≠ 0 := by
    rintro rfl
    rw [e1] at hd
    norm_num at hd
  rw [e1, e2, if_neg hT]
  have h3 : (1 : ℝ) ≤ (T.1 : ℝ) ^ 2 + (T.2.1 : ℝ) ^ 2 + (T.2.2 : ℝ) ^ 2 := by
    have : (0 : ℝ) < ((T.1 ^ 2 + T.2.1 ^ 2 + T.2.2 ^ 2 : ℤ) : ℝ) := by push_cast; linarith [norm_pos hT]
    have : (1 : ℤ) ≤ T.1 ^ 2 + T.2.1 ^ 2 + T.2.2 ^ 2 := by exact_mod_cast this
    have : ((1 : ℤ) : ℝ) ≤ ((T.1 ^ 2 + T.2.1 ^ 2 + T.2.2 ^ 2 : ℤ) : ℝ) := by exact_mod_cast this
    push_cast at this
    exact this
  have h4 : (3 : ℝ) ≤ √(9 * ((T.1 : ℝ) ^ 2 + (T.2.1 : ℝ) ^ 2 + (T.2.2 : ℝ) ^ 2)) := Real.le_sqrt_of_sq_le (by linarith)
  have h5 : √(2 * (1 / 100) : ℝ) ≤ 3 / 20 := by rw [Real.sqrt_le_left (by norm_num)]; norm_num
  have h6 : (span isoD 1 3).r 0 = 1 := by
    show ((0 : ℤ) : ℝ) * (1 / 2) + 1 = 1
    norm_num
  have h7 : (span isoD 1 3).deltar = 1 / 2 := rfl
  rw [h6, h7, abs_sub_comm]
  refine lt_of_lt_of_le ?_ (le_abs_self _)
  linarith

theorem sel_origin (a b : ℕ) (ha : a < 2) (hb : b < 2) : Selected origin a b ↔ a = 0 ∧ b = 0 := by
  unfold Selected origin
  interval_cases a <;> interval_cases b <;> simp
theorem sel_origin' (a b : ℕ) (ha : a < 3) (hb : b < 3) : Selected origin' a b ↔ a ≠ 2 ∧ b ≠ 2 := by
  unfold Selected origin'
  interval_cases a <;> interval_cases b <;> simp

theorem whole_weight {i : ℕ} (h : i < 2) : (whole 1 1).weight i = 1 := by
  unfold PPhase.weight
  rw [whole_bavg]
  interval_cases i
  · show (1 : ℝ) / _ = 1
    norm_num
  · show (1 : ℝ) / _ = 1
    norm_num
theorem halves_weight {i : ℕ} (h : i < 3) : (halves 1 1).weight i = 1 := by
  unfold PPhase.weight
  rw [halves_bavg]
  interval_cases i
  · show (1 : ℝ) / _ = 1
    norm_num
  · show (1 : ℝ) / _ = 1
    norm_num
  · show (1 : ℝ) / _ = 1
    norm_num

theorem whole_ract : ract (whole 1 1) origin = 1 := by
  classical
  rw [ract_double, show (whole 1 1).atom.length = 2 from rfl]
  have : ∀ a ∈ Finset.range 2, ∀ b ∈ Finset.range 2, (if Selected origin a b then (whole 1 1).weight a * (whole 1 1).weight b else 0) =
      if a = 0 ∧ b = 0 then (1 : ℝ) else 0 := by
    intro a ha b hb
    rw [Finset.mem_range] at ha hb
    rw [whole_weight ha, whole_weight hb]
    simp only [sel_origin a b ha hb, mul_one]
  rw [Finset.sum_congr rfl fun a ha => Finset.sum_congr rfl (this a ha)]
  simp [Finset.sum_range_succ]
theorem halves_ract : ract (halves 1 1) origin' = 4 := by
  classical
  rw [ract_double, show (halves 1 1).atom.length = 3 from rfl]
  have : ∀ a ∈ Finset.range 3, ∀ b ∈ Finset.range 3, (if Selected origin' a b then (halves 1 1).weight a * (halves 1 1).weight b else 0) =
      if a ≠ 2 ∧ b ≠ 2 then (1 : ℝ) else 0 := by
    intro a ha b hb
    rw [Finset.mem_range] at ha hb
    rw [halves_weight ha, halves_weight hb]
    simp only [sel_origin' a b ha hb, mul_one]
  rw [Finset.sum_congr rfl fun a ha => Finset.sum_congr rfl (this a ha)]
  have e : ∀ a, ∑ b ∈ Finset.range 3, (if a ≠ 2 ∧ b ≠ 2 then (1 : ℝ) else 0) = if a ≠ 2 then 2 else 0 := fun a => by
    rw [Finset.sum_range_succ, Finset.sum_range_succ, Finset.sum_range_one]
    by_cases h : a = 2
    · simp [h]
    · simp [h]; norm_num
  simp only [e]
  rw [Finset.sum_range_succ, Finset.sum_range_succ, Finset.sum_range_one]
  norm_num

theorem whole_good (D : Data) (h : D.Ok) (h1 : 0 < D.rmin) (s : Sel) : ¬Bad D (whole 1 1) s := by
  refine good_of (whole_u _ _) ?_ ?_ ?_ h h1 _
  · show (whole 1 1).np ≠ 0
    rw [whole_np]; norm_num
  · show (whole 1 1).bavg ≠ 0
    rw [whole_bavg]; norm_num
  · show rtot (whole 1 1) ≠ 0
    rw [whole_rtot, whole_bavg]; norm_num
theorem halves_good (D : Data) (h : D.Ok) (h1 : 0 < D.rmin) (s : Sel) : ¬Bad D (halves 1 1) s := by
  refine good_of (halves_u _ _) ?_ ?_ ?_ h h1 _
  · show (halves 1 1).np ≠ 0
    rw [halves_np]; norm_num
  · show (halves 1 1).bavg ≠ 0
    rw [halves_bavg]; norm_num
  · show rtot (halves 1 1) ≠ 0
    rw [halves_rtot, halves_bavg]; norm_num

/-- Violation: the partial PDF of the site at the origin depends on how the site is described. -/
theorem C72_partial_pdf : Alike (whole 1 1) (halves 1 1) origin origin' ∧
    ∃ f f', determine (span isoD 1 3) [some (whole 1 1, origin)] = .ok (some f) ∧ determine (span isoD 1 3) [some (halves 1 1, origin')] = .ok (some f') ∧
      (span isoD 1 3).nfmin ≤ 0 ∧ 0 ≤ (span isoD 1 3).nfmax ∧ f 0 ≠ f' 0 := by
  refine ⟨halves_alike 1 1 rfl rfl rfl rfl rfl rfl, ?_⟩
  have o := isoD_ok (lo := 1) (hi := 3) le_rfl (by norm_num)
  obtain ⟨f, e1, -⟩ := determine_of o (psel := [some (whole 1 1, origin)]) (by
    intro x hx
    simp only [List.mem_singleton, Option.some.injEq] at hx
    subst hx
    exact whole_good _ o one_pos _)
  obtain ⟨f', e2, -⟩ := determine_of o (psel := [some (halves 1 1, origin')]) (by
    intro x hx
    simp only [List.mem_singleton, Option.some.injEq] at hx
    subst hx
    exact halves_good _ o one_pos _)
  have n : ∀ (x : ℝ) (n : ℤ), x = n → nint x = n := fun x n e => by rw [e, nint_int]
  have a1 : (span isoD 1 3).nfmin ≤ 0 := by rw [isoD_nf.1, n _ 0 (by norm_num)]
  have a2 : 0 ≤ (span isoD 1 3).nfmax := by rw [isoD_nf.2, n _ 4 (by norm_num)]; norm_num
  have k1 := C71.C71_base o (by exact le_refl (0 : ℝ)) e1 ((ncmin_le_nfmin o).trans a1) (a2.trans (nfmax_le_ncmax o)) (fun x hx => by
    simp only [List.mem_singleton, Option.some.injEq] at hx
    subst hx
    refine far_origin fun a ha hs => ?_
    have ha : a < 2 := ha
    interval_cases a
    · exact ⟨1, rfl⟩
    · simp [origin] at hs)
  have k2 := C71.C71_base o (by exact le_refl (0 : ℝ)) e2 ((ncmin_le_nfmin o).trans a1) (a2.trans (nfmax_le_ncmax o)) (fun x hx => by
    simp only [List.mem_singleton, Option.some.injEq] at hx
    subst hx
    refine far_origin fun a ha hs => ?_
    have ha : a < 3 := ha
    interval_cases a
    · exact ⟨1 / 2, rfl⟩
    · exact ⟨1 / 2, rfl⟩
    · simp [origin'] at hs)
  have henv : ∀ l, envelope (span isoD 1 3) (withAtoms l) ((span isoD 1 3).r 0) = 1 := fun l => by
    unfold envelope
    rw [if_neg (show ¬0 < (span isoD 1 3).qdamp from lt_irrefl (0 : ℝ)), if_neg (show ¬0 < (withAtoms l).spdiameter from lt_irrefl (0 : ℝ)),
      if_neg (show ¬0 < (withAtoms l).stepcut from lt_irrefl (0 : ℝ))]
    norm_num
  have w : rtot (whole 1 1) = 4 := by rw [whole_rtot, whole_bavg]; norm_num
  have w' : rtot (halves 1 1) = 9 := by rw [halves_rtot, halves_bavg]; norm_num
  have v : (whole 1 1).rho0 = 2 / 27 := by
    unfold PPhase.rho0
    rw [whole_np, show (whole 1 1).ncv = 27 from (show (whole 1 1).ncv = (iso 0).ncv from rfl).trans (iso_ncv 0)]
    norm_num
  have v' : (halves 1 1).rho0 = 2 / 27 := by
    unfold PPhase.rho0
    rw [halves_np, show (halves 1 1).ncv = 27 from (show (halves 1 1).ncv = (iso 0).ncv from rfl).trans (iso_ncv 0)]
    norm_num
  simp only [List.filterMap_cons, List.filterMap_nil, id, List.map_cons, List.map_nil, List.sum_cons, List.sum_nil,
    show envelope (span isoD 1 3) (whole 1 1) ((span isoD 1 3).r 0) = 1 from henv _, whole_ract, w, mul_one, add_zero, C71.base, v] at k1
  simp only [List.filterMap_cons, List.filterMap_nil, id, List.map_cons, List.map_nil, List.sum_cons, List.sum_nil,
    show envelope (span isoD 1 3) (halves 1 1) ((span isoD 1 3).r 0) = 1 from henv _, halves_ract, w', mul_one, add_zero, C71.base, v'] at k2
  refine ⟨f, f', e1, e2, a1, a2, ?_⟩
  have h6 : (span isoD 1 3).r 0 = 1 := by
    show ((0 : ℤ) : ℝ) * (1 / 2) + 1 = 1
    norm_num
  rw [k1, k2, h6, show (span isoD 1 3).dscale = 1 from rfl, show (whole 1 1).pscale = 2 from rfl, show (halves 1 1).pscale = 2 from rfl]
  have := Real.pi_pos
  intro he
  linarith

/-! ## Examples -/

theorem whole_fine : C19.Fine (whole 1 1).toPhs := ⟨(iso_fine 0).acc, (iso_fine 0).edge, (iso_fine 0).angle, (iso_fine 0).small, (iso_fine 0).icc⟩

theorem whole_near : Near (whole 1 1) := near_of _ whole_fine fun i j hi hj k => by
  have hi : i < 2 := hi
  have hj : j < 2 := hj
  interval_cases i <;> interval_cases j <;> fin_cases k <;> norm_num [whole, withAtoms, atO, atM, PPhase.atm, abs_of_pos]

/-- The total PDF of both descriptions is the same, here on the range of C68 with termination ripples. -/
example : ∃ f f', determine { span isoD 1 3 with qmax := 20 } [some (whole 1 1, C60.noSel)] = .ok (some f) ∧
    determine { span isoD 1 3 with qmax := 20 } [some (halves 1 1, C60.noSel)] = .ok (some f') ∧
    ∀ i, Data.ncmin { span isoD 1 3 with qmax := 20 } ≤ i → i ≤ Data.ncmax { span isoD 1 3 with qmax := 20 } → f' i = f i := by
  have o : Data.Ok { span isoD 1 3 with qmax := 20 } := ⟨(isoD_ok (lo := 1) (hi := 3) le_rfl (by norm_num)).1,
    (isoD_ok (lo := 1) (hi := 3) le_rfl (by norm_num)).2, (isoD_ok (lo := 1) (hi := 3) le_rfl (by norm_num)).3⟩
  obtain ⟨f, e1, -⟩ := determine_of o (psel := [some (whole 1 1, C60.noSel)]) (by
    intro x hx
    simp only [List.mem_singleton, Option.some.injEq] at hx
    subst hx
    exact whole_good _ o one_pos _)
  obtain ⟨f', e2, h⟩ := C72_split_partial _ o (halves_alike 1 1 (s := C60.noSel) (s' := C60.noSel) rfl rfl rfl rfl rfl rfl) whole_fine whole_near
    (fun _ _ => ⟨rfl, rfl⟩) (fun _ _ => ⟨rfl, rfl⟩) (by
      intro i hi
      have hi : i < 3 := hi
      interval_cases i
      · exact ⟨0, by decide, rfl⟩
      · exact ⟨0, by decide, rfl⟩
      · exact ⟨1, by decide, rfl⟩) (by rw [halves_rtot, halves_bavg]; norm_num) [] [] f e1
  exact ⟨f, f', e1, e2, h⟩

/-- An atom of occupancy zero added to a structure. -/
example : Alike (withAtoms [atO 1]) (withAtoms [atO 1, atM 0 5]) C60.noSel C60.noSel where
  rest := rfl
  occ := fun k => by
    unfold siteOcc
    rw [show (withAtoms [atO 1, atM 0 5]).atom.length = 2 from rfl, show (withAtoms [atO 1]).atom.length = 1 from rfl, Finset.sum_filter,
      Finset.sum_filter, Finset.sum_range_succ, Finset.sum_range_one, Finset.sum_range_one]
    show _ + (if _ then (0 : ℝ) else 0) = _
    rw [ite_self, add_zero]
    rfl

end Pdffit.C72
