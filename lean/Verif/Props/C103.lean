import Verif.Props.C19
import Verif.Props.C20

/-!
# C103: `bond_length_atoms` and `bond_length_types` agree

Observable content: the bond that `bond_length_atoms(i, j)` returns is an entry of `bond_length_types(A, B, lb, ub)`, with its length, its standard
deviation and its two atoms, whenever the atoms are of these types and the length is between `lb` and `ub` (`C103_listed_partial`). The list for these
two atoms should begin with it, as it is to be the shortest. This holds in rectangular cells for atoms at most half a cell apart
(`C103_first_partial`), otherwise it does not: in a cube with atoms that differ by 0.8 in one coordinate `bond_length_atoms` returns 0.8, and the list
begins with 0.2 (`C103_shortest_violated`), because stru.cc 612-617 leave out the search for the nearest image in rectangular cells.
-/

namespace Pdffit.C103
open Geom Parser Bonds

/-- The atoms are not further apart than the diagonal of the supercell. -/
def Close (p : Phs) : Prop := ∀ ai ∈ p.atom, ∀ aj ∈ p.atom,
  √(p.skal (fun k => ai.pos k - aj.pos k) fun k => ai.pos k - aj.pos k) < circumDiameter p

theorem mem_list {lookup : String → Option ℕ} {p : Phs} (F : C19.Fine p) (hc : Close p) {A B : String} {lb ub : ℝ} {rv : List PairDist}
    (h : bondLengthTypes lookup p A B lb ub = .ok rv) {i j : ℕ} (hA : C19.IsOf lookup p A i) (hB : C19.IsOf lookup p B j) {ai aj : Atm}
    (ei : p.atom[i]? = some ai) (ej : p.atom[j]? = some aj) (T : ℤ × ℤ × ℤ) (h1 : lb ≤ √(p.skal (diff p ai aj T) (diff p ai aj T)))
    (h2 : √(p.skal (diff p ai aj T) (diff p ai aj T)) ≤ ub) :
    mkPair p (diff p ai aj T) (fun k => ai.dpos k + aj.dpos k) (i + 1) (j + 1) ∈ rv := by
  unfold bondLengthTypes at h
  obtain ⟨si, hsi, h⟩ := Res.bind_eq_ok.1 h
  obtain ⟨sj, hsj, h⟩ := Res.bind_eq_ok.1 h
  have h := Res.ok.inj h
  rw [← h, List.mem_mergeSort, List.mem_flatMap]
  refine ⟨i, ((C19.select_spec hsi).2 i).2 hA, ?_⟩
  rw [List.mem_flatMap]
  refine ⟨j, ((C19.select_spec hsj).2 j).2 hB, ?_⟩
  unfold pairsOf
  rw [ei, ej]
  dsimp only
  rw [List.mem_filterMap]
  refine ⟨T, C19.visited F lb ub ((Real.sqrt_nonneg _).trans h2) ai aj T (hc ai (List.mem_of_getElem? ei) aj (List.mem_of_getElem? ej)) h1 h2, ?_⟩
  unfold tryPair
  rw [if_pos ⟨h1, h2⟩]

/-- (partial: atoms not further apart than the diagonal of the supercell; the full statement is false, `C19.missed`) The bond of two atoms is an entry
of the list, with all its members. -/
theorem C103_listed_partial (lookup : String → Option ℕ) (p : Phs) (F : C19.Fine p) (hc : Close p) (A B : String) (lb ub : ℝ) (rv : List PairDist)
    (h : bondLengthTypes lookup p A B lb ub = .ok rv) (i j : ℤ) (d : PairDist) (hd : bondLengthAtoms p i j = .ok d)
    (hA : C19.IsOf lookup p A (i - 1).toNat) (hB : C19.IsOf lookup p B (j - 1).toNat) (h1 : lb ≤ d.dij) (h2 : d.dij ≤ ub) : d ∈ rv := by
  have hv : (1 ≤ i ∧ i ≤ p.atom.length) ∧ 1 ≤ j ∧ j ≤ p.atom.length := by
    by_contra hn
    rw [((C20.valid p i j).1).2 hn] at hd
    cases hd
  obtain ⟨ai, aj, ei, ej, e⟩ := C20.result hd
  obtain ⟨k, hk⟩ := makeNearest_equiv p F.icc fun k => ai.pos k - aj.pos k
  have ev : makeNearest p (fun k => ai.pos k - aj.pos k) = diff p ai aj (-k 0, -k 1, -k 2) := by
    funext l
    rw [hk l]
    unfold diff
    fin_cases l <;> simp
  rw [ev] at e
  have n1 : (i - 1).toNat + 1 = i.toNat := by omega
  have n2 : (j - 1).toNat + 1 = j.toNat := by omega
  have hdij : d.dij = √(p.skal (diff p ai aj (-k 0, -k 1, -k 2)) (diff p ai aj (-k 0, -k 1, -k 2))) := by rw [e]; rfl
  rw [hdij] at h1 h2
  have := mem_list F hc h hA hB ei ej (-k 0, -k 1, -k 2) h1 h2
  rw [n1, n2, ← e] at this
  exact this

/-- Every entry of the list is a distance of its two atoms up to translations. -/
theorem entry {lookup : String → Option ℕ} {p : Phs} {A B : String} {lb ub : ℝ} {rv : List PairDist}
    (h : bondLengthTypes lookup p A B lb ub = .ok rv) {b : PairDist} (hb : b ∈ rv) :
    ∃ ai aj, p.atom[b.i - 1]? = some ai ∧ p.atom[b.j - 1]? = some aj ∧ C20.IsImageDist p ai aj b.dij ∧ 1 ≤ b.i ∧ 1 ≤ b.j := by
  unfold bondLengthTypes at h
  obtain ⟨si, hsi, h⟩ := Res.bind_eq_ok.1 h
  obtain ⟨sj, hsj, h⟩ := Res.bind_eq_ok.1 h
  have h := Res.ok.inj h
  rw [← h, List.mem_mergeSort, List.mem_flatMap] at hb
  obtain ⟨i, hi, hb⟩ := hb
  rw [List.mem_flatMap] at hb
  obtain ⟨j, hj, hb⟩ := hb
  obtain ⟨ai, ei, -⟩ := ((C19.select_spec hsi).2 i).1 hi
  obtain ⟨aj, ej, -⟩ := ((C19.select_spec hsj).2 j).1 hj
  unfold pairsOf at hb
  rw [ei, ej] at hb
  dsimp only at hb
  rw [List.mem_filterMap] at hb
  obtain ⟨T, -, hT⟩ := hb
  unfold tryPair at hT
  split at hT
  · have hT := Option.some.inj hT
    subst hT
    refine ⟨ai, aj, ei, ej, ⟨![-T.1, -T.2.1, -T.2.2], ?_⟩, Nat.succ_pos _, Nat.succ_pos _⟩
    have e : (fun l => ai.pos l - aj.pos l + ((![-T.1, -T.2.1, -T.2.2] : Fin 3 → ℤ) l : ℝ) * p.icc l) = diff p ai aj T := by
      funext l
      unfold diff
      fin_cases l <;> simp <;> ring
    show √_ = _
    rw [e]
  · cases hT

/-- (partial: rectangular cells and atoms that differ by at most half a supercell in each coordinate, after removal of whole supercells) The bond is the
shortest of the entries of the list with the same atoms. -/
theorem C103_first_partial (lookup : String → Option ℕ) (p : Phs) (hi : ∀ k, 0 < p.icc k) (ha : ∀ k, p.cell.a0 k ≠ 0) (h90 : ∀ k, p.cell.win k = 90)
    (A B : String) (lb ub : ℝ) (rv : List PairDist) (h : bondLengthTypes lookup p A B lb ub = .ok rv) (i j : ℤ) (d : PairDist)
    (hd : bondLengthAtoms p i j = .ok d)
    (hh : ∀ ai aj, p.atom[(i - 1).toNat]? = some ai → p.atom[(j - 1).toNat]? = some aj →
      ∀ k, |fmodK (ai.pos k - aj.pos k) (p.icc k : ℝ)| ≤ p.icc k / 2)
    (b : PairDist) (hb : b ∈ rv) (hbi : b.i = d.i) (hbj : b.j = d.j) : d.dij ≤ b.dij := by
  obtain ⟨ai, aj, ei, ej, -, ni, nj⟩ := C20.image p hi i j d hd
  obtain ⟨ai', aj', ei', ej', hb', n1, n2⟩ := entry h hb
  have m1 : b.i - 1 = (i - 1).toNat := by rw [hbi, ni]; omega
  have m2 : b.j - 1 = (j - 1).toNat := by rw [hbj, nj]; omega
  rw [m1, ei] at ei'
  rw [m2, ej] at ej'
  rw [← Option.some.inj ei', ← Option.some.inj ej'] at hb'
  exact (((C20.ortho_partial p hi ha h90 i j d hd ai aj ei ej).2 (hh ai aj ei ej)).2) b.dij hb'

/-! ## Violation -/

theorem ortho_fine : C19.Fine C20.ortho where
  acc := by
    have hv : voll C20.ortho.cell = 1 := by unfold voll; simp only [C20.ortho90, C45.cosd90]; norm_num
    refine ⟨_, if_neg ?_⟩
    rw [hv, not_le]
    unfold eps
    norm_num
  edge := by intro i; fin_cases i <;> simp [C20.ortho]
  angle := by intro i; rw [C20.ortho90]; norm_num
  small := by intro i j _; left; rw [C20.ortho90, C45.cosd90, mul_zero]
  icc := fun _ => Nat.one_pos

theorem ortho_close : Close C20.ortho := fun ai hi aj hj => C19.diag_bound _ ortho_fine (List.ne_nil_of_mem hi) _ (by
  simp only [C20.ortho, List.mem_cons, List.not_mem_nil, or_false] at hi hj
  rcases hi with rfl | rfl <;> rcases hj with rfl | rfl <;> intro k <;> fin_cases k <;> norm_num [abs_le])

theorem ortho_list (lb ub : ℝ) : ∃ rv, bondLengthTypes C19.table C20.ortho "ALL" "ALL" lb ub = .ok rv := by
  have hs : selectAtomsOf C19.table C20.ortho.atom "ALL" = .ok [0, 1] := by
    unfold selectAtomsOf
    rw [if_pos (by decide +kernel)]
    rfl
  unfold bondLengthTypes
  rw [hs]
  exact ⟨_, rfl⟩

theorem ortho_isOf (i : ℕ) (h : i < 2) : C19.IsOf C19.table C20.ortho "ALL" i := by
  match i, h with
  | 0, _ => exact ⟨_, rfl, .inl (by decide +kernel)⟩
  | 1, _ => exact ⟨_, rfl, .inl (by decide +kernel)⟩

/-- The bond of the atoms 1 and 2 is an entry of the list, but not the shortest one with these atoms. -/
theorem C103_shortest_violated : ∃ d rv, bondLengthAtoms C20.ortho 1 2 = .ok d ∧
    bondLengthTypes C19.table C20.ortho "ALL" "ALL" (1 / 10) 1 = .ok rv ∧ d ∈ rv ∧ d.dij = 4 / 5 ∧
    ∃ b ∈ rv, b.i = 1 ∧ b.j = 2 ∧ b.dij = 1 / 5 := by
  obtain ⟨d, e1, e2, -⟩ := C20.not_shortest_ortho
  obtain ⟨rv, hrv⟩ := ortho_list (1 / 10) 1
  have hm := C103_listed_partial C19.table C20.ortho ortho_fine ortho_close "ALL" "ALL" (1 / 10) 1 rv hrv 1 2 d e1 (ortho_isOf 0 (by norm_num))
    (ortho_isOf 1 (by norm_num)) (by rw [e2]; norm_num) (by rw [e2]; norm_num)
  have hlen : √(C20.ortho.skal (diff C20.ortho ⟨![4 / 5, 0, 0], 0, 0⟩ ⟨0, 0, 0⟩ (1, 0, 0))
      (diff C20.ortho ⟨![4 / 5, 0, 0], 0, 0⟩ ⟨0, 0, 0⟩ (1, 0, 0))) = 1 / 5 := by
    rw [C20.skal_ortho _ C20.ortho90]
    have : (C20.ortho.cell.a0 0 * diff C20.ortho ⟨![4 / 5, 0, 0], 0, 0⟩ ⟨0, 0, 0⟩ (1, 0, 0) 0) ^ 2 +
        (C20.ortho.cell.a0 1 * diff C20.ortho ⟨![4 / 5, 0, 0], 0, 0⟩ ⟨0, 0, 0⟩ (1, 0, 0) 1) ^ 2 +
        (C20.ortho.cell.a0 2 * diff C20.ortho ⟨![4 / 5, 0, 0], 0, 0⟩ ⟨0, 0, 0⟩ (1, 0, 0) 2) ^ 2 = (1 / 5 : ℝ) ^ 2 := by
      unfold diff
      simp [C20.ortho]
      norm_num
    rw [this, Real.sqrt_sq (by norm_num)]
  have hb := mem_list ortho_fine ortho_close hrv (ortho_isOf 0 (by norm_num)) (ortho_isOf 1 (by norm_num)) (ai := ⟨![4 / 5, 0, 0], 0, 0⟩)
    (aj := ⟨0, 0, 0⟩) rfl rfl (1, 0, 0) (by rw [hlen]; norm_num) (by rw [hlen]; norm_num)
  exact ⟨d, rv, e1, hrv, hm, e2, _, hb, rfl, rfl, hlen⟩

/-- Two atoms of a cubic cell that differ by a quarter of the edge. -/
noncomputable def quarter : Phs := { C20.ortho with atom := [⟨![1 / 4, 0, 0], 0, 0⟩, ⟨0, 0, 0⟩] }

/-- The bond of length 1/4 is the shortest entry with the atoms 1 and 2, whatever the limits of the list are. -/
example (lb ub : ℝ) (rv : List PairDist) (h : bondLengthTypes C19.table quarter "ALL" "ALL" lb ub = .ok rv) :
    ∃ d, bondLengthAtoms quarter 1 2 = .ok d ∧ ∀ b ∈ rv, b.i = 1 → b.j = 2 → d.dij ≤ b.dij := by
  refine ⟨_, rfl, fun b hb h1 h2 => ?_⟩
  refine C103_first_partial C19.table quarter (fun _ => Nat.one_pos) (fun k => by fin_cases k <;> simp [quarter, C20.ortho]) C20.ortho90 "ALL" "ALL"
    lb ub rv h 1 2 _ rfl (fun ai aj ei ej k => ?_) b hb h1 h2
  have ei := Option.some.inj ei
  have ej := Option.some.inj ej
  rw [← ei, ← ej]
  show |fmodK _ ((1 : ℕ) : ℝ)| ≤ ((1 : ℕ) : ℝ) / 2
  rw [fmodK_small (by simp)] <;> fin_cases k <;> simp <;> norm_num

end Pdffit.C103
