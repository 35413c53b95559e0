import Verif.Props.C71

/-!
# C102: the peaks of the calculated PDF are at the lengths listed by `bond_length_types`

Observable content: `bond_length_types(A, B, lb, ub)` (stru.cc 752-807) and the calculation of the PDF (pdf.cc 180-400) are separate loops over the
atoms and the translations of the supercell. They agree. If the pairs used for the PDF are pairs of an atom `A` and an atom `B`, a point of the curve
that is further than five widths and half a step from all lengths of the list is on the base line (`C102_between_partial`); the list needs to cover
only the surroundings of the point. With scattering lengths, occupancies and scales that are not negative, a point within five widths of a length of
the list is above the base line (`C102_peak_partial`).

Both theorems are about structures whose atoms are not further apart than the diagonal of the supercell; other structures are those for which
`bond_length_types` misses pairs (`C19.missed`). The second one is about peaks that are not wider than the margin of 1 Å (`C68`).
-/

namespace Pdffit.C102
open Det C24 C68 C71 Bonds

/-- The phase of the bond list and the phase of the PDF have the same lattice, supercell and positions. Elements, displacement parameters,
occupancies and standard deviations are not compared. -/
structure Same (P : Phs) (ph : PPhase) : Prop where
  cell : P.cell = ph.cell
  icc : P.icc = ph.icc
  pos : P.atom.map Atm.pos = ph.atom.map PAtom.pos

section
variable {P : Phs} {ph : PPhase} (H : Same P ph)
include H

theorem Same.length : P.atom.length = ph.atom.length := by
  have := congrArg List.length H.pos
  simpa using this

theorem Same.skal (x y : Fin 3 → ℝ) : P.skal x y = ph.toPhs.skal x y := by
  unfold Phs.skal Phs.gten
  rw [H.cell]
  rfl

theorem Same.fine (F : C19.Fine ph.toPhs) : C19.Fine P where
  acc := by rw [H.cell]; exact F.acc
  edge := by rw [H.cell]; exact F.edge
  angle := by rw [H.cell]; exact F.angle
  small := by rw [H.cell]; exact F.small
  icc := by rw [H.icc]; exact F.icc

theorem Same.circum : circumDiameter P = circumDiameter ph.toPhs := by
  have e : P.atom = [] ↔ ph.toPhs.atom = [] := by
    rw [← List.length_eq_zero_iff, H.length, ← List.length_eq_zero_iff]
    show _ ↔ (ph.atom.map _).length = 0
    rw [List.length_map]
  unfold circumDiameter
  simp only [H.skal, e]

theorem Same.at {i : ℕ} {a : Atm} (h : P.atom[i]? = some a) : i < ph.atom.length ∧ a.pos = (ph.atm i).pos := by
  have hi : i < P.atom.length := (List.getElem?_eq_some_iff.1 h).1
  have hi' : i < ph.atom.length := H.length ▸ hi
  refine ⟨hi', ?_⟩
  have := congrArg (fun l => l[i]?) H.pos
  simp only [List.getElem?_map, h, Option.map_some, List.getElem?_eq_getElem hi', Option.some.injEq] at this
  unfold PPhase.atm
  rw [List.getD_eq_getElem?_getD, List.getElem?_eq_getElem hi']
  exact this

theorem Same.dist {i j : ℕ} (hi : i < ph.atom.length) (hj : j < ph.atom.length) (T : ℤ × ℤ × ℤ) :
    C19.dist P i j T = √(d2 ph (ph.atm i) (ph.atm j) T) := by
  rw [← H.length] at hi hj
  have ei := List.getElem?_eq_getElem hi
  have ej := List.getElem?_eq_getElem hj
  unfold C19.dist d2
  rw [ei, ej]
  dsimp only
  rw [H.skal]
  have e : diff P P.atom[i] P.atom[j] T = dd ph (ph.atm i) (ph.atm j) T := by
    unfold diff dd
    rw [(H.at ei).2, (H.at ej).2, H.icc]
  rw [e]

theorem Same.near (N : Near ph) : ∀ ai ∈ P.atom, ∀ aj ∈ P.atom,
    √(P.skal (fun k => ai.pos k - aj.pos k) fun k => ai.pos k - aj.pos k) < circumDiameter P := by
  intro ai hi aj hj
  obtain ⟨i, ei⟩ := List.mem_iff_getElem?.1 hi
  obtain ⟨j, ej⟩ := List.mem_iff_getElem?.1 hj
  rw [H.skal, H.circum, (H.at ei).2, (H.at ej).2]
  exact N i j (H.at ei).1 (H.at ej).1

end

theorem d2_neg (ph : PPhase) (a b : PAtom) (T : ℤ × ℤ × ℤ) : d2 ph b a (-T) = d2 ph a b T := by
  unfold d2
  rw [dd_neg]
  exact skalpro_neg _ _

theorem width_neg (D : Data) (ph : PPhase) (a b : PAtom) (T : ℤ × ℤ × ℤ) : width D ph b a (-T) = width D ph a b T := by
  unfold width
  rw [d2_neg, dd_neg, msd_neg]

/-! ## Between the lengths of the list -/

/-- The list of the lengths from `lb` to `ub` shows no length within `w` of the point `r`, and reaches that far. -/
def Clear (rv : List PairDist) (lb ub w r : ℝ) : Prop := lb ≤ r - w ∧ r + w ≤ ub ∧ ∀ b ∈ rv, w < |r - b.dij|

theorem far_of {lookup : String → Option ℕ} {D : Data} {P : Phs} {ph : PPhase} (H : Same P ph) (F : C19.Fine ph.toPhs) (N : Near ph) {s : Sel}
    {A B : String}
    (hs : ∀ a b, a < ph.atom.length → b < ph.atom.length → Selected s a b →
      C19.IsOf lookup P A a ∧ C19.IsOf lookup P B b ∨ C19.IsOf lookup P A b ∧ C19.IsOf lookup P B a)
    {lb ub w : ℝ} {rv : List PairDist} (hr : bondLengthTypes lookup P A B lb ub = .ok rv)
    (hw : ∀ a b, a < ph.atom.length → b < ph.atom.length → ∀ T, 5 * width D ph (ph.atm a) (ph.atm b) T + D.deltar / 2 ≤ w) {i : ℤ}
    (hc : Clear rv lb ub w (D.r i)) : Far D ph s i := by
  obtain ⟨-, L, -, hL, hp⟩ := C19.exact_of_close lookup P (H.fine F) A B lb ub (H.near N) rv hr
  obtain ⟨c1, c2, c3⟩ := hc
  have key : ∀ a b, a < ph.atom.length → b < ph.atom.length → C19.IsOf lookup P A a → C19.IsOf lookup P B b → ∀ T,
      w < |D.r i - √(d2 ph (ph.atm a) (ph.atm b) T)| := by
    intro a b ha hb ia ib T
    rw [← H.dist ha hb T]
    by_cases hl : lb ≤ C19.dist P a b T
    · by_cases hu : C19.dist P a b T ≤ ub
      · have hm : (C19.dist P a b T, a + 1, b + 1) ∈ rv.map fun d => (d.dij, d.i, d.j) :=
          hp.mem_iff.2 (List.mem_map.2 ⟨(a, b, T), (hL a b T).2 ⟨ia, ib, hl, hu⟩, rfl⟩)
        obtain ⟨d, hd, e⟩ := List.mem_map.1 hm
        have e1 : d.dij = C19.dist P a b T := congrArg Prod.fst e
        rw [← e1]
        exact c3 d hd
      · rw [abs_sub_comm]
        exact lt_of_lt_of_le (by linarith [not_le.1 hu]) (le_abs_self _)
    · exact lt_of_lt_of_le (by linarith [not_le.1 hl]) (le_abs_self _)
  intro a b ha hb hab T _
  refine lt_of_le_of_lt (hw a b ha hb T) ?_
  rcases hs a b ha hb ((selected_iff s a b).1 hab) with ⟨h1, h2⟩ | ⟨h1, h2⟩
  · exact key a b ha hb h1 h2 T
  · rw [← d2_neg]
    exact key b a hb ha h1 h2 (-T)

/-- (partial: structures with atoms not further apart than the diagonal of the supercell, no termination ripples) Where the bond lists of the
selected pairs of all phases show no length within five widths and half a step, the calculated curve is the base line. -/
theorem C102_between_partial (lookup : String → Option ℕ) {D : Data} (h : D.Ok) (hq : D.qmax ≤ 0) {psel : List (Option (PPhase × Sel))} {f : ℤ → ℝ}
    (hf : determine D psel = .ok (some f)) {i : ℤ} (h1 : D.ncmin ≤ i) (h2 : i ≤ D.ncmax)
    (hx : ∀ x, some x ∈ psel → C19.Fine x.1.toPhs ∧ Near x.1 ∧ ∃ P A B lb ub w rv, Same P x.1 ∧
      (∀ a b, a < x.1.atom.length → b < x.1.atom.length → Selected x.2 a b →
        C19.IsOf lookup P A a ∧ C19.IsOf lookup P B b ∨ C19.IsOf lookup P A b ∧ C19.IsOf lookup P B a) ∧
      bondLengthTypes lookup P A B lb ub = .ok rv ∧
      (∀ a b, a < x.1.atom.length → b < x.1.atom.length → ∀ T, 5 * width D x.1 (x.1.atm a) (x.1.atm b) T + D.deltar / 2 ≤ w) ∧
      Clear rv lb ub w (D.r i)) : f i =
      ((psel.filterMap id).map fun x => D.dscale * x.1.pscale * (base x.1 (ract x.1 x.2 / rtot x.1) (D.r i) * envelope D x.1 (D.r i))).sum := by
  refine C71_base h hq hf h1 h2 fun x m => ?_
  obtain ⟨F, N, P, A, B, lb, ub, w, rv, H, hs, hr, hw, hc⟩ := hx x m
  exact far_of H F N hs hr hw hc

/-! ## At the lengths of the list -/

theorem term_nonneg {D : Data} {ph : PPhase} (hw : ph.rcut ≤ 0 ∨ 0 ≤ ph.sratio) {a b : PAtom} {amp : ℝ} (ha : 0 ≤ amp) (T : ℤ × ℤ × ℤ) (i : ℤ) :
    0 ≤ term D ph a b amp T i := by
  classical
  rw [term_char]
  split
  · refine mul_nonneg ha ?_
    unfold gaus
    have := Real.pi_pos
    have := width_nonneg D hw a b T
    positivity
  · exact le_rfl

theorem amp_nonneg {ph : PPhase} (hs : ∀ a ∈ ph.atom, 0 ≤ a.occ ∧ 0 ≤ a.sf) {a b : ℕ} (ha : a < ph.atom.length) (hb : b < ph.atom.length) :
    0 ≤ (ph.atm a).occ * ph.weight a * ((ph.atm b).occ * ph.weight b) :=
  mul_nonneg (weight_nonneg hs a ha) (weight_nonneg hs b hb)

/-- A sum that is not negative in any term is at least as large as one of them. -/
theorem pairSum_ge {D : Data} {ph : PPhase} (F : C19.Fine ph.toPhs) (N : Near ph) {s : Sel} (hs : ∀ a ∈ ph.atom, 0 ≤ a.occ ∧ 0 ≤ a.sf)
    (hw : ph.rcut ≤ 0 ∨ 0 ≤ ph.sratio) {a b : ℕ} (ha : a < ph.atom.length) (hb : b < ph.atom.length) (hab : Selected s a b) {T : ℤ × ℤ × ℤ}
    (hT : T ∈ Sphere.points (sphere D ph)) (i : ℤ) :
    term D ph (ph.atm a) (ph.atm b) ((ph.atm a).occ * ph.weight a * ((ph.atm b).occ * ph.weight b)) T i ≤ pairSum D ph s i := by
  rw [pairSum_full F N]
  have hS : ∀ a b, a < ph.atom.length → b < ph.atom.length → S D ph a b i = ((Sphere.points (sphere D ph)).map fun T =>
      term D ph (ph.atm a) (ph.atm b) ((ph.atm a).occ * ph.weight a * ((ph.atm b).occ * ph.weight b)) T i).sum :=
    fun a b ha hb => (pair_sum F N ha hb _ i).symm
  have h0 : ∀ a b, a < ph.atom.length → b < ph.atom.length → 0 ≤ if skip s a b = false then S D ph a b i else 0 := by
    intro a b ha hb
    split
    · rw [hS a b ha hb]
      refine List.sum_nonneg fun y hy => ?_
      obtain ⟨T, -, rfl⟩ := List.mem_map.1 hy
      exact term_nonneg hw (amp_nonneg hs ha hb) T i
    · exact le_rfl
  have e1 : (if skip s a b = false then S D ph a b i else 0) ≤
      ∑ j ∈ Finset.range ph.atom.length, if skip s a j = false then S D ph a j i else 0 :=
    Finset.single_le_sum (f := fun j => if skip s a j = false then S D ph a j i else 0)
      (fun j hj => h0 a j ha (Finset.mem_range.1 hj)) (Finset.mem_range.2 hb)
  have e2 : (∑ j ∈ Finset.range ph.atom.length, if skip s a j = false then S D ph a j i else 0) ≤
      ∑ k ∈ Finset.range ph.atom.length, ∑ j ∈ Finset.range ph.atom.length, if skip s k j = false then S D ph k j i else 0 :=
    Finset.single_le_sum (f := fun k => ∑ j ∈ Finset.range ph.atom.length, if skip s k j = false then S D ph k j i else 0)
      (fun k hk => Finset.sum_nonneg fun j hj => h0 k j (Finset.mem_range.1 hk) (Finset.mem_range.1 hj)) (Finset.mem_range.2 ha)
  refine le_trans ?_ (e1.trans e2)
  rw [if_pos ((selected_iff s a b).2 hab), hS a b ha hb]
  refine List.single_le_sum (fun y hy => ?_) _ (List.mem_map.2 ⟨T, hT, rfl⟩)
  obtain ⟨T, -, rfl⟩ := List.mem_map.1 hy
  exact term_nonneg hw (amp_nonneg hs ha hb) T i

theorem idx_r {D : Data} (h : D.Ok) (i : ℤ) : idx D (D.r i) = i := by
  unfold idx Data.r
  rw [add_sub_cancel_right, mul_div_cancel_right₀ _ h.step.ne', nint_int]

theorem term_pos {D : Data} (h : D.Ok) {ph : PPhase} (hw : ph.rcut ≤ 0 ∨ 0 ≤ ph.sratio) {R : ℝ} (hc : 0 ≤ D.rcmax) (hR : D.rcmax + 1 ≤ R)
    {a b : PAtom} {amp : ℝ} (ha : 0 < amp) {T : ℤ × ℤ × ℤ} {i : ℤ} (h1 : D.ncmin ≤ i) (h2 : i ≤ D.ncmax)
    (hn : √(d2 ph a b T) ≤ R → 5 * width D ph a b T + D.deltar ≤ 1) (hd : 1 / 100 ≤ d2 ph a b T) (hdR : √(d2 ph a b T) ≤ R)
    (hdr : Draws D ph a b T) (hin : |D.r i - √(d2 ph a b T)| ≤ 5 * width D ph a b T) (hst : 0 < ph.stepcut → D.r i ≤ ph.stepcut) :
    0 < term D ph a b amp T i := by
  classical
  rw [term_free h hc hR hn amp h1 h2]
  unfold free
  rw [abs_le] at hin
  rw [if_pos ⟨⟨⟨hd, hdR⟩, hdr⟩, (idx_mono h (by linarith)).trans (idx_r h i).le, (idx_r h i).ge.trans (idx_mono h (by linarith)),
    fun hs => (idx_r h i).ge.trans (idx_mono h (hst hs))⟩]
  refine mul_pos ha ?_
  unfold gaus
  have := Real.pi_pos
  have : 0 < width D ph a b T := lt_of_le_of_ne (width_nonneg D hw a b T) (Ne.symm hdr.2.2)
  positivity

/-- (partial: structures with atoms not further apart than the diagonal of the supercell, peaks not wider than 1 Å, no termination ripples) A length
of the bond list of a selected pair with positive scattering lengths and occupancies gives a peak: the points within five widths are above the base
line. -/
theorem C102_peak_partial (lookup : String → Option ℕ) {D : Data} (h : D.Ok) (hq : D.qmax ≤ 0) (hc : 0 ≤ D.rcmax)
    {psel : List (Option (PPhase × Sel))} {f : ℤ → ℝ}
    (hf : determine D psel = .ok (some f)) {i : ℤ} (h1 : D.ncmin ≤ i) (h2 : i ≤ D.ncmax) (hr : 0 < D.r i)
    (hs : ∀ x, some x ∈ psel → (∀ a ∈ x.1.atom, 0 ≤ a.occ ∧ 0 ≤ a.sf) ∧ (x.1.rcut ≤ 0 ∨ 0 ≤ x.1.sratio) ∧ 0 ≤ D.dscale * x.1.pscale)
    {x : PPhase × Sel} (hx : some x ∈ psel) (F : C19.Fine x.1.toPhs) (N : Near x.1) {P : Phs} (H : Same P x.1) {A B : String} {lb ub : ℝ}
    {rv : List PairDist} (hb : bondLengthTypes lookup P A B lb ub = .ok rv) {b : PairDist} (hm : b ∈ rv) (hd : 1 / 10 ≤ b.dij)
    (hsel : Selected x.2 (b.i - 1) (b.j - 1)) (ho : 0 < (x.1.atm (b.i - 1)).occ ∧ 0 < (x.1.atm (b.i - 1)).sf)
    (ho' : 0 < (x.1.atm (b.j - 1)).occ ∧ 0 < (x.1.atm (b.j - 1)).sf)
    (hp : 0 < D.dscale * x.1.pscale) (he : 0 < envelope D x.1 (D.r i)) (hst : 0 < x.1.stepcut → D.r i ≤ x.1.stepcut ∧ b.dij ≤ x.1.stepcut)
    (W : Narrow D x.1 (max (D.rcmax + 1) b.dij))
    (hw : ∀ T, √(d2 x.1 (x.1.atm (b.i - 1)) (x.1.atm (b.j - 1)) T) = b.dij → Draws D x.1 (x.1.atm (b.i - 1)) (x.1.atm (b.j - 1)) T ∧
      |D.r i - b.dij| ≤ 5 * width D x.1 (x.1.atm (b.i - 1)) (x.1.atm (b.j - 1)) T) :
    ((psel.filterMap id).map fun x => D.dscale * x.1.pscale * (base x.1 (ract x.1 x.2 / rtot x.1) (D.r i) * envelope D x.1 (D.r i))).sum < f i := by
  obtain ⟨-, L, -, hL, hperm⟩ := C19.exact_of_close lookup P (H.fine F) A B lb ub (H.near N) rv hb
  have hm' := hperm.mem_iff.1 (List.mem_map.2 ⟨b, hm, rfl⟩)
  obtain ⟨⟨a, c, T⟩, hl, e⟩ := List.mem_map.1 hm'
  have e1 : C19.dist P a c T = b.dij := congrArg Prod.fst e
  have e2 : a = b.i - 1 := by
    have : a + 1 = b.i := congrArg (fun z => z.2.1) e
    omega
  have e3 : c = b.j - 1 := by
    have : c + 1 = b.j := congrArg (fun z => z.2.2) e
    omega
  obtain ⟨⟨a', ma, -⟩, ⟨c', mc, -⟩, -⟩ := (hL a c T).1 hl
  have ha := (H.at ma).1
  have hc' := (H.at mc).1
  rw [H.dist ha hc'] at e1
  rw [← e2, ← e3] at hw
  rw [← e2] at ho
  rw [← e3] at ho'
  rw [← e2, ← e3] at hsel
  obtain ⟨w1, w2⟩ := hw T e1
  obtain ⟨n1, n2⟩ := determine_some h hf
  obtain ⟨s1, s2, -⟩ := hs x hx
  have hbavg : 0 < x.1.bavg := lt_of_le_of_ne (by
    unfold PPhase.bavg PPhase.np
    refine div_nonneg (List.sum_nonneg ?_) (List.sum_nonneg ?_)
    · intro y hy
      obtain ⟨z, hz, rfl⟩ := List.mem_map.1 hy
      exact mul_nonneg (s1 z hz).1 (s1 z hz).2
    · intro y hy
      obtain ⟨z, hz, rfl⟩ := List.mem_map.1 hy
      exact (s1 z hz).1) fun h0 => n1 x hx (.inr (.inr (.inr (.inl h0.symm))))
  have hnp : 0 < x.1.np := lt_of_le_of_ne (List.sum_nonneg fun y hy => by
    obtain ⟨z, hz, rfl⟩ := List.mem_map.1 hy
    exact (s1 z hz).1) fun h0 => n1 x hx (.inr (.inl h0.symm))
  have hamp : 0 < (x.1.atm a).occ * x.1.weight a * ((x.1.atm c).occ * x.1.weight c) :=
    mul_pos (mul_pos ho.1 (div_pos ho.2 hbavg)) (mul_pos ho'.1 (div_pos ho'.2 hbavg))
  have hd2 : 1 / 100 ≤ d2 x.1 (x.1.atm a) (x.1.atm c) T := by
    have h0 : 0 ≤ d2 x.1 (x.1.atm a) (x.1.atm c) T := C19.nonneg F _
    rw [← Real.sq_sqrt h0, e1]
    nlinarith
  have hterm := term_pos h s2 (R := max (D.rcmax + 1) b.dij) hc (le_max_left _ _) hamp h1 h2 (W a c ha hc' T) hd2
    (e1.le.trans (le_max_right _ _)) w1 (by rw [e1]; exact w2) fun z => (hst z).1
  have hskip : event D x.1 (x.1.atm a) (x.1.atm c) T ≠ .skip := by
    intro h0
    unfold term at hterm
    rw [h0] at hterm
    exact lt_irrefl _ hterm
  have hkept : T ∈ kept x.1 := by
    intro z
    have t1 := (tri F a c T).1
    have t2 := N a c ha hc'
    have t3 := (hst z).2
    unfold d2 at e1
    rw [e1] at t1
    linarith
  have hT : T ∈ Sphere.points (sphere D x.1) := (points_iff F N ha hc' T hskip).2 ((ball_kept F N ha hc' hskip).2 hkept)
  have hpos : 0 < pairSum D x.1 x.2 i := hterm.trans_le (pairSum_ge F N s1 s2 ha hc' hsel hT i)
  rw [n2 i h1 h2]
  refine List.sum_lt_sum _ _ (fun y hy => ?_) ⟨x, List.mem_filterMap.2 ⟨some x, hx, rfl⟩, ?_⟩
  · rw [List.mem_filterMap] at hy
    obtain ⟨z, hz, rfl⟩ := hy
    obtain ⟨a1, a2, a3⟩ := hs y hz
    unfold filt
    rw [if_neg hq.not_gt]
    refine mul_le_mul_of_nonneg_left ?_ a3
    unfold curve base
    refine mul_le_mul_of_nonneg_right ?_ (envelope_nonneg D y.1 hr.le)
    have hn : 0 ≤ y.1.np := List.sum_nonneg fun z hz => by
      rw [List.mem_map] at hz
      obtain ⟨a, ha, rfl⟩ := hz
      exact (a1 a ha).1
    have : 0 ≤ pairSum D y.1 y.2 i / y.1.np / D.r i := div_nonneg (div_nonneg (pairSum_nonneg D y.2 a1 a2 i) hn) hr.le
    linarith
  · unfold filt
    rw [if_neg hq.not_gt]
    refine mul_lt_mul_of_pos_left ?_ hp
    unfold curve base
    refine mul_lt_mul_of_pos_right ?_ he
    have : 0 < pairSum D x.1 x.2 i / x.1.np / D.r i := div_pos (div_pos hpos hnp) hr
    linarith

/-! ## Example -/

theorem iso_same (u : ℝ) : Same (iso u).toPhs (iso u) := ⟨rfl, rfl, by simp [PPhase.toPhs]⟩

theorem iso_list (u lb ub : ℝ) : ∃ rv, bondLengthTypes C19.table (iso u).toPhs "ALL" "ALL" lb ub = .ok rv := by
  have hs : selectAtomsOf C19.table (iso u).toPhs.atom "ALL" = .ok [0] := by
    unfold selectAtomsOf
    rw [if_pos (by decide +kernel)]
    rfl
  unfold bondLengthTypes
  rw [hs]
  exact ⟨_, rfl⟩

theorem iso_isOf (u : ℝ) {a : ℕ} (ha : a < (iso u).atom.length) : C19.IsOf C19.table (iso u).toPhs "ALL" a := by
  have ha : a < 1 := ha
  interval_cases a
  exact ⟨_, rfl, .inl (by decide +kernel)⟩

/-- The structure of one atom in a cube of 3 Å with U = 0.005: there is no length near 2 Å and the curve at 2 Å (grid point 2) is the base line; the
list from 2.5 to 3.5 Å has the length 3 and the curve at 3 Å (grid point 4) is above it. -/
example : ∃ f, determine (span isoD 1 6) [some (iso (1 / 200), C60.noSel)] = .ok (some f) ∧
    f 2 = (span isoD 1 6).dscale * (iso (1 / 200)).pscale * (base (iso (1 / 200)) (ract (iso (1 / 200)) C60.noSel / rtot (iso (1 / 200)))
      ((span isoD 1 6).r 2) * envelope (span isoD 1 6) (iso (1 / 200)) ((span isoD 1 6).r 2)) ∧
    (span isoD 1 6).dscale * (iso (1 / 200)).pscale * (base (iso (1 / 200)) (ract (iso (1 / 200)) C60.noSel / rtot (iso (1 / 200)))
      ((span isoD 1 6).r 4) * envelope (span isoD 1 6) (iso (1 / 200)) ((span isoD 1 6).r 4)) < f 4 := by
  have o := isoD_ok (lo := 1) (hi := 6) le_rfl (by norm_num)
  have hsf : √(2 * (1 / 200) : ℝ) = 1 / 10 := by
    rw [show (2 * (1 / 200) : ℝ) = (1 / 10) ^ 2 by norm_num, Real.sqrt_sq (by norm_num)]
  obtain ⟨f, e1, -⟩ := determine_of o (psel := [some (iso (1 / 200), C60.noSel)]) (by
    intro x hx
    simp only [List.mem_singleton, Option.some.injEq] at hx
    subst hx
    exact iso_good (by norm_num) o one_pos _)
  have n : ∀ (x : ℝ) (n : ℤ), x = n → nint x = n := fun x n e => by rw [e, nint_int]
  have r := span_rc (D := isoD) (lo := 1) (hi := 6) le_rfl
  have c1 : (span isoD 1 6).ncmin = 0 := (show (span isoD 1 6).ncmin = (span isoD 1 6).nfmin from by
    unfold Data.ncmin Data.nfmin; rw [r.1]; rfl).trans (by rw [isoD_nf.1, n _ 0 (by norm_num)])
  have c2 : (span isoD 1 6).ncmax = 10 := (show (span isoD 1 6).ncmax = (span isoD 1 6).nfmax from by
    unfold Data.ncmax Data.nfmax; rw [r.2]; rfl).trans (by rw [isoD_nf.2, n _ 10 (by norm_num)])
  have r2 : (span isoD 1 6).r 2 = 2 := by norm_num [Data.r, span, isoD]
  have r4 : (span isoD 1 6).r 4 = 3 := by norm_num [Data.r, span, isoD]
  have hd : (span isoD 1 6).deltar = 1 / 2 := rfl
  have hwd : ∀ T, width (span isoD 1 6) (iso (1 / 200)) ((iso (1 / 200)).atm 0) ((iso (1 / 200)).atm 0) T = if T = 0 then 0 else 1 / 10 := by
    intro T
    rw [(iso_width (1 / 200) (span isoD 1 6) rfl T).2, hsf]
  have h0 : ∀ {a : ℕ}, a < (iso (1 / 200)).atom.length → a = 0 := fun {a} ha => by
    have ha : a < 1 := ha
    omega
  refine ⟨f, e1, ?_, ?_⟩
  · have := C102_between_partial C19.table o le_rfl e1 (i := 2) (by rw [c1]; norm_num) (by rw [c2]; norm_num) (fun x hx => by
      simp only [List.mem_singleton, Option.some.injEq] at hx
      subst hx
      obtain ⟨rv, hrv⟩ := iso_list (1 / 200) (5 / 4) (11 / 4)
      refine ⟨iso_fine _, iso_near _, (iso (1 / 200)).toPhs, "ALL", "ALL", 5 / 4, 11 / 4, 3 / 4, rv, iso_same _,
        fun a b ha hb _ => .inl ⟨iso_isOf _ ha, iso_isOf _ hb⟩, hrv, ?_, ?_⟩
      · intro a b ha hb T
        rw [h0 ha, h0 hb, hwd, hd]
        split <;> norm_num
      · rw [r2]
        refine ⟨by norm_num, by norm_num, fun b hb => ?_⟩
        exfalso
        obtain ⟨-, L, -, hL, hp⟩ := C19.exact_of_close C19.table _ (iso_fine (1 / 200)) "ALL" "ALL" (5 / 4) (11 / 4)
          ((iso_same _).near (iso_near _)) rv hrv
        obtain ⟨⟨a, c, T⟩, hl, -⟩ := List.mem_map.1 (hp.mem_iff.1 (List.mem_map.2 ⟨b, hb, rfl⟩))
        obtain ⟨⟨_, ma, -⟩, ⟨_, mc, -⟩, l1, l2⟩ := (hL a c T).1 hl
        have ha := ((iso_same (1 / 200)).at ma).1
        have hc := ((iso_same (1 / 200)).at mc).1
        rw [(iso_same _).dist ha hc, h0 ha, h0 hc, iso_d2] at l1 l2
        have q0 : 0 ≤ 9 * ((T.1 : ℝ) ^ 2 + (T.2.1 : ℝ) ^ 2 + (T.2.2 : ℝ) ^ 2) := by positivity
        have l1' := pow_le_pow_left₀ (by norm_num) l1 2
        have l2' := pow_le_pow_left₀ (Real.sqrt_nonneg _) l2 2
        rw [Real.sq_sqrt q0] at l1' l2'
        have q1 : (0 : ℝ) < ((T.1 ^ 2 + T.2.1 ^ 2 + T.2.2 ^ 2 : ℤ) : ℝ) := by push_cast; linarith
        have q2 : ((T.1 ^ 2 + T.2.1 ^ 2 + T.2.2 ^ 2 : ℤ) : ℝ) < 1 := by push_cast; linarith
        have q3 : 0 < (T.1 ^ 2 + T.2.1 ^ 2 + T.2.2 ^ 2 : ℤ) := by exact_mod_cast q1
        have q4 : (T.1 ^ 2 + T.2.1 ^ 2 + T.2.2 ^ 2 : ℤ) < 1 := by exact_mod_cast q2
        omega)
    simpa using this
  · obtain ⟨rv, hrv⟩ := iso_list (1 / 200) (5 / 2) (7 / 2)
    obtain ⟨-, L, -, hL, hp⟩ := C19.exact_of_close C19.table _ (iso_fine (1 / 200)) "ALL" "ALL" (5 / 2) (7 / 2)
      ((iso_same _).near (iso_near _)) rv hrv
    have z : 0 < (iso (1 / 200)).atom.length := one_pos
    have hdist : C19.dist (iso (1 / 200)).toPhs 0 0 (1, 0, 0) = 3 := by
      rw [(iso_same _).dist z z, iso_d2]
      rw [show (9 * (((1, 0, 0) : ℤ × ℤ × ℤ).1 ^ 2 + ((((1, 0, 0) : ℤ × ℤ × ℤ).2.1 : ℤ) : ℝ) ^ 2 + ((((1, 0, 0) : ℤ × ℤ × ℤ).2.2 : ℤ) : ℝ) ^ 2) : ℝ) =
        3 ^ 2 by norm_num, Real.sqrt_sq (by norm_num)]
    have hmem := hp.mem_iff.2 (List.mem_map.2 ⟨(0, 0, (1, 0, 0)), (hL 0 0 (1, 0, 0)).2 ⟨iso_isOf _ z, iso_isOf _ z, by rw [hdist]; norm_num,
      by rw [hdist]; norm_num⟩, rfl⟩)
    obtain ⟨b, hb, e⟩ := List.mem_map.1 hmem
    have b1 : b.dij = 3 := (congrArg Prod.fst e).trans hdist
    have b2 : b.i = 1 := congrArg (fun z => z.2.1) e
    have b3 : b.j = 1 := congrArg (fun z => z.2.2) e
    have henv : envelope (span isoD 1 6) (iso (1 / 200)) ((span isoD 1 6).r 4) = 1 := by
      unfold envelope
      rw [if_neg (show ¬0 < (span isoD 1 6).qdamp from lt_irrefl (0 : ℝ)), if_neg (show ¬0 < (iso (1 / 200)).spdiameter from lt_irrefl (0 : ℝ)),
        if_neg (show ¬0 < (iso (1 / 200)).stepcut from lt_irrefl (0 : ℝ))]
      norm_num
    have hps : 0 < (span isoD 1 6).dscale * (iso (1 / 200)).pscale := by norm_num [span, isoD, iso, demo]
    have := C102_peak_partial C19.table o le_rfl (by rw [r.2]; norm_num) e1 (i := 4) (by rw [c1]; norm_num) (by rw [c2]; norm_num)
      (by rw [r4]; norm_num) (fun x hx => by
        simp only [List.mem_singleton, Option.some.injEq] at hx
        subst hx
        refine ⟨fun a ha => ?_, .inl le_rfl, hps.le⟩
        have ha : a ∈ [(⟨![0, 0, 0], 1, ![1 / 200, 1 / 200, 1 / 200, 0, 0, 0], 1⟩ : PAtom)] := ha
        rw [List.mem_singleton] at ha
        subst ha
        norm_num) (x := (iso (1 / 200), C60.noSel)) (List.mem_singleton.2 rfl) (iso_fine _) (iso_near _) (iso_same _) hrv hb (by rw [b1]; norm_num)
      (.inl ⟨rfl, rfl⟩) (by rw [b2]; exact ⟨one_pos, one_pos⟩) (by rw [b3]; exact ⟨one_pos, one_pos⟩) hps (by rw [henv]; norm_num)
      (fun hs => absurd hs (lt_irrefl (0 : ℝ))) iso_narrow (fun T hT => by
        rw [b2, b3] at hT ⊢
        have hT : √(d2 (iso (1 / 200)) ((iso (1 / 200)).atm 0) ((iso (1 / 200)).atm 0) T) = b.dij := hT
        have hne : T ≠ 0 := by
          rintro rfl
          rw [iso_d2, b1] at hT
          norm_num at hT
        show Draws _ _ ((iso (1 / 200)).atm 0) ((iso (1 / 200)).atm 0) T ∧ _ ≤ 5 * width _ _ ((iso (1 / 200)).atm 0) ((iso (1 / 200)).atm 0) T
        rw [hwd, if_neg hne, r4, b1]
        refine ⟨⟨?_, ?_, ?_⟩, by norm_num⟩
        · rw [iso_msd, if_neg hne]; norm_num
        · rw [(iso_width (1 / 200) (span isoD 1 6) rfl T).1]; norm_num
        · rw [hwd, if_neg hne]; norm_num)
    simpa using this

end Pdffit.C102
