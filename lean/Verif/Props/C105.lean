import Verif.Props.C103

/-!
# C105: lists of bonds for different elements and limits agree

Observable content: `bond_length_types(A, B, lb, ub)` consists of the entries of any list for more atoms and wider limits, such as
`bond_length_types("ALL", "ALL", 0, 10)`, that are bonds from an atom `A` to an atom `B` within the limits (`C105_part_partial`).
`bond_length_types(B, A, lb, ub)` is the same list with the atoms of each bond exchanged (`C105_mirror_partial`). In both cases lengths and standard
deviations are the same. The order of bonds of equal length is not compared.

The theorems are about structures with atoms not further apart than the diagonal of the supercell. Otherwise bonds are missed (`C19.missed`), and
more of them in a list with narrower limits (`C105_part_violated`).
-/

namespace Pdffit.C105
open Geom Bonds

/-- The entry for the bond from atom `i` to the image of atom `j` shifted by `T`. -/
noncomputable def entry (p : Phs) (x : ℕ × ℕ × (ℤ × ℤ × ℤ)) : PairDist :=
  match p.atom[x.1]?, p.atom[x.2.1]? with
  | some ai, some aj => mkPair p (diff p ai aj x.2.2) (fun k => ai.dpos k + aj.dpos k) (x.1 + 1) (x.2.1 + 1)
  | _, _ => ⟨0, 0, 0, 0⟩

theorem entry_eq {p : Phs} {i j : ℕ} {ai aj : Atm} (hi : p.atom[i]? = some ai) (hj : p.atom[j]? = some aj) (T : ℤ × ℤ × ℤ) :
    entry p (i, j, T) = mkPair p (diff p ai aj T) (fun k => ai.dpos k + aj.dpos k) (i + 1) (j + 1) := by
  unfold entry
  dsimp only
  rw [hi, hj]

theorem pairsOf_entry (p : Phs) (lb ub : ℝ) (i j : ℕ) (hi : i < p.atom.length) (hj : j < p.atom.length) :
    pairsOf p lb ub i j =
      (((Sphere.points (sph p lb ub)).filter fun T => decide (C19.dist p i j T ≥ lb ∧ C19.dist p i j T ≤ ub)).map fun T => (i, j, T)).map (entry p) := by
  have ei := List.getElem?_eq_getElem hi
  have ej := List.getElem?_eq_getElem hj
  have hd : ∀ T, C19.dist p i j T = √(p.skal (diff p p.atom[i] p.atom[j] T) (diff p p.atom[i] p.atom[j] T)) := by
    intro T
    unfold C19.dist
    rw [ei, ej]
  unfold pairsOf
  rw [ei, ej]
  dsimp only
  generalize Sphere.points (sph p lb ub) = l
  induction l with
  | nil => rfl
  | cons T l ih =>
    by_cases hT : C19.dist p i j T ≥ lb ∧ C19.dist p i j T ≤ ub
    · rw [List.filter_cons_of_pos (by simpa using hT)]
      have hT' := hT
      rw [hd] at hT'
      rw [List.filterMap_cons_some (by unfold tryPair; rw [if_pos hT']), List.map_cons, List.map_cons, ih, entry_eq ei ej]
    · rw [List.filter_cons_of_neg (by simpa using hT)]
      have hT' := hT
      rw [hd] at hT'
      rw [List.filterMap_cons_none (by unfold tryPair; rw [if_neg hT']), ih]

/-- The list of bonds with all members of the entries. -/
theorem entries {lookup : String → Option ℕ} {p : Phs} (F : C19.Fine p) (hc : C103.Close p) {A B : String} {lb ub : ℝ} {rv : List PairDist}
    (h : bondLengthTypes lookup p A B lb ub = .ok rv) :
    ∃ L : List (ℕ × ℕ × (ℤ × ℤ × ℤ)), L.Nodup ∧
      (∀ i j T, (i, j, T) ∈ L ↔ C19.IsOf lookup p A i ∧ C19.IsOf lookup p B j ∧ lb ≤ C19.dist p i j T ∧ C19.dist p i j T ≤ ub) ∧
      rv.Perm (L.map (entry p)) := by
  unfold bondLengthTypes at h
  obtain ⟨si, hsi, h⟩ := Res.bind_eq_ok.1 h
  obtain ⟨sj, hsj, h⟩ := Res.bind_eq_ok.1 h
  have h := Res.ok.inj h
  obtain ⟨ni, mi⟩ := C19.select_spec hsi
  obtain ⟨nj, mj⟩ := C19.select_spec hsj
  refine ⟨C19.bonds p lb ub si sj, ?_, ?_, ?_⟩
  · unfold C19.bonds
    rw [List.nodup_flatMap]
    refine ⟨fun i _ => ?_, ?_⟩
    · rw [List.nodup_flatMap]
      refine ⟨fun j _ => ((C18.nodup_points (C19.good F lb ub)).filter _).map fun a b e => by simpa using e, ?_⟩
      refine nj.imp fun {a b} hab => ?_
      intro x h1 h2
      simp only [List.mem_map] at h1 h2
      obtain ⟨_, _, rfl⟩ := h1
      obtain ⟨_, _, e⟩ := h2
      simp only [Prod.mk.injEq] at e
      exact hab e.2.1.symm
    · refine ni.imp fun {a b} hab => ?_
      intro x h1 h2
      simp only [List.mem_flatMap, List.mem_map] at h1 h2
      obtain ⟨_, _, _, _, rfl⟩ := h1
      obtain ⟨_, _, _, _, e⟩ := h2
      simp only [Prod.mk.injEq] at e
      exact hab e.1.symm
  · intro i j T
    have : (i, j, T) ∈ C19.bonds p lb ub si sj ↔ i ∈ si ∧ j ∈ sj ∧ T ∈ Sphere.points (sph p lb ub) ∧
        (lb ≤ C19.dist p i j T ∧ C19.dist p i j T ≤ ub) := by
      unfold C19.bonds
      simp only [List.mem_flatMap, List.mem_map, List.mem_filter, decide_eq_true_eq, Prod.mk.injEq]
      constructor
      · rintro ⟨i', h1, j', h2, T', h3, rfl, rfl, rfl⟩
        exact ⟨h1, h2, h3⟩
      · rintro ⟨h1, h2, h3⟩
        exact ⟨i, h1, j, h2, T, h3, rfl, rfl, rfl⟩
    rw [this, mi, mj]
    refine and_congr_right fun hA => and_congr_right fun hB => and_iff_right_of_imp ?_
    rintro ⟨h1, h2⟩
    obtain ⟨ai, hai, -⟩ := hA
    obtain ⟨aj, haj, -⟩ := hB
    have hd : C19.dist p i j T = √(p.skal (diff p ai aj T) (diff p ai aj T)) := by
      unfold C19.dist; rw [hai, haj]
    rw [hd] at h1 h2
    exact C19.visited F lb ub (le_trans (Real.sqrt_nonneg _) h2) ai aj T
      (hc ai (List.mem_of_getElem? hai) aj (List.mem_of_getElem? haj)) h1 h2
  · rw [← h]
    refine (List.mergeSort_perm _ _).trans ?_
    apply List.Perm.of_eq
    unfold C19.bonds
    rw [C19.flat_map]
    apply List.flatMap_congr
    intro i hi
    rw [C19.flat_map]
    apply List.flatMap_congr
    intro j hj
    obtain ⟨a, ha, -⟩ := (mi i).1 hi
    obtain ⟨b, hb, -⟩ := (mj j).1 hj
    exact pairsOf_entry p lb ub i j (List.getElem?_eq_some_iff.1 ha).1 (List.getElem?_eq_some_iff.1 hb).1

theorem entry_mem {lookup : String → Option ℕ} {p : Phs} {A B : String} {i j : ℕ} (hA : C19.IsOf lookup p A i) (hB : C19.IsOf lookup p B j)
    (T : ℤ × ℤ × ℤ) : (entry p (i, j, T)).dij = C19.dist p i j T ∧ (entry p (i, j, T)).i = i + 1 ∧ (entry p (i, j, T)).j = j + 1 := by
  obtain ⟨ai, hi, -⟩ := hA
  obtain ⟨aj, hj, -⟩ := hB
  rw [entry_eq hi hj]
  refine ⟨?_, rfl, rfl⟩
  unfold C19.dist
  rw [hi, hj]
  rfl

open Classical in
/-- (partial: atoms not further apart than the diagonal of the supercell; otherwise `C105_part_violated`) A list is the part of a list for more atoms
and wider limits with the bonds of its own atoms and limits. -/
theorem C105_part_partial (lookup : String → Option ℕ) (p : Phs) (F : C19.Fine p) (hc : C103.Close p) (A B A' B' : String) (lb ub lb' ub' : ℝ)
    (hA : ∀ i, C19.IsOf lookup p A i → C19.IsOf lookup p A' i) (hB : ∀ j, C19.IsOf lookup p B j → C19.IsOf lookup p B' j) (hl : lb' ≤ lb)
    (hu : ub ≤ ub') (rv rv' : List PairDist) (h : bondLengthTypes lookup p A B lb ub = .ok rv) (h' : bondLengthTypes lookup p A' B' lb' ub' = .ok rv') :
    rv.Perm (rv'.filter fun d => decide (C19.IsOf lookup p A (d.i - 1) ∧ C19.IsOf lookup p B (d.j - 1) ∧ lb ≤ d.dij ∧ d.dij ≤ ub)) := by
  obtain ⟨L, n, m, e⟩ := entries F hc h
  obtain ⟨L', n', m', e'⟩ := entries F hc h'
  refine e.trans (List.Perm.trans ?_ (e'.filter _).symm)
  rw [List.filter_map]
  refine List.Perm.map _ ((List.perm_ext_iff_of_nodup n (n'.filter _)).2 fun x => ?_)
  obtain ⟨i, j, T⟩ := x
  rw [List.mem_filter, m, m']
  constructor
  · rintro ⟨a, b, c, d⟩
    obtain ⟨e1, e2, e3⟩ := entry_mem a b T
    refine ⟨⟨hA i a, hB j b, hl.trans c, d.trans hu⟩, ?_⟩
    rw [Function.comp_apply, decide_eq_true_eq, e1, e2, e3]
    exact ⟨a, b, c, d⟩
  · rintro ⟨⟨a, b, -, -⟩, k⟩
    obtain ⟨e1, e2, e3⟩ := entry_mem a b T
    rw [Function.comp_apply, decide_eq_true_eq, e1, e2, e3] at k
    exact k

/-! ## Exchange of the elements -/

/-- A bond with its atoms exchanged. -/
def swap (d : PairDist) : PairDist := { d with i := d.j, j := d.i }

theorem diff_neg (p : Phs) (ai aj : Atm) (T : ℤ × ℤ × ℤ) : diff p aj ai (-T) = -diff p ai aj T := by
  funext k
  unfold diff
  simp only [Pi.neg_apply]
  fin_cases k <;> simp <;> ring

theorem dist_neg (p : Phs) (i j : ℕ) (T : ℤ × ℤ × ℤ) : C19.dist p j i (-T) = C19.dist p i j T := by
  unfold C19.dist
  cases p.atom[i]? with
  | none => cases p.atom[j]? <;> rfl
  | some ai =>
    cases p.atom[j]? with
    | none => rfl
    | some aj =>
      dsimp only
      rw [diff_neg]
      unfold Phs.skal
      rw [skalpro_neg]

theorem dskal_neg (p : Phs) (h d : Fin 3 → ℝ) : p.dskal (-h) (-h) d d = p.dskal h h d d := by
  unfold Phs.dskal
  refine Finset.sum_congr rfl fun i _ => Finset.sum_congr rfl fun j _ => ?_
  simp only [Pi.neg_apply, mul_neg, neg_mul, abs_neg, neg_neg]

theorem entry_neg {p : Phs} {i j : ℕ} {ai aj : Atm} (hi : p.atom[i]? = some ai) (hj : p.atom[j]? = some aj) (T : ℤ × ℤ × ℤ) :
    entry p (j, i, -T) = swap (entry p (i, j, T)) := by
  have e : p.skal (-diff p ai aj T) (-diff p ai aj T) = p.skal (diff p ai aj T) (diff p ai aj T) := skalpro_neg _ _
  rw [entry_eq hi hj, entry_eq hj hi, diff_neg, show (fun k => aj.dpos k + ai.dpos k) = fun k => ai.dpos k + aj.dpos k from
    funext fun k => add_comm _ _]
  unfold swap mkPair
  rw [e, dskal_neg]

/-- (partial: atoms not further apart than the diagonal of the supercell) The list for exchanged elements has the bonds with exchanged atoms. -/
theorem C105_mirror_partial (lookup : String → Option ℕ) (p : Phs) (F : C19.Fine p) (hc : C103.Close p) (A B : String) (lb ub : ℝ)
    (rv rv' : List PairDist) (h : bondLengthTypes lookup p A B lb ub = .ok rv) (h' : bondLengthTypes lookup p B A lb ub = .ok rv') :
    rv'.Perm (rv.map swap) := by
  obtain ⟨L, n, m, e⟩ := entries F hc h
  obtain ⟨L', n', m', e'⟩ := entries F hc h'
  refine e'.trans (List.Perm.trans ?_ (e.map swap).symm)
  have n2 : (L.map fun x : ℕ × ℕ × (ℤ × ℤ × ℤ) => (x.2.1, x.1, -x.2.2)).Nodup := n.map fun x y hxy => by
    obtain ⟨a, b, T⟩ := x
    obtain ⟨a', b', T'⟩ := y
    simp only [Prod.mk.injEq, neg_inj] at hxy
    obtain ⟨rfl, rfl, rfl⟩ := hxy
    rfl
  have h1 : L'.Perm (L.map fun x => (x.2.1, x.1, -x.2.2)) := (List.perm_ext_iff_of_nodup n' n2).2 fun x => by
    obtain ⟨i, j, T⟩ := x
    rw [m', List.mem_map]
    constructor
    · rintro ⟨a, b, c, d⟩
      refine ⟨(j, i, -T), (m j i (-T)).2 ⟨b, a, by rw [dist_neg]; exact c, by rw [dist_neg]; exact d⟩, ?_⟩
      dsimp only
      rw [neg_neg]
    · rintro ⟨⟨a, b, T'⟩, hx, hxy⟩
      simp only [Prod.mk.injEq] at hxy
      obtain ⟨rfl, rfl, rfl⟩ := hxy
      obtain ⟨a1, b1, c1, d1⟩ := (m a b T').1 hx
      exact ⟨b1, a1, by rw [dist_neg]; exact c1, by rw [dist_neg]; exact d1⟩
  refine (h1.map (entry p)).trans (List.Perm.of_eq ?_)
  rw [List.map_map, List.map_map]
  refine List.map_congr_left fun x hx => ?_
  obtain ⟨i, j, T⟩ := x
  obtain ⟨⟨ai, hi, -⟩, ⟨aj, hj, -⟩, -⟩ := (m i j T).1 hx
  exact entry_neg hi hj T

/-! ## Violation -/

/-- In the supercell of `C19.missed` the list from 0 to 10 has the bond of length 9.1, the list from 8.5 to 10 does not. -/
theorem C105_part_violated : ∃ rv rv', bondLengthTypes C19.table C19.super "A" "B" (17 / 2 + 4 * eps) 10 = .ok rv ∧
    bondLengthTypes C19.table C19.super "A" "B" 0 10 = .ok rv' ∧ 17 / 2 + 4 * eps ≤ (91 / 10 : ℝ) ∧ (∀ d ∈ rv, d.dij ≠ 91 / 10) ∧
    ∃ d ∈ rv', d.dij = 91 / 10 := by
  obtain ⟨hd, hl, rv, hr, hn⟩ := C19.missed
  have hA : selectAtomsOf C19.table C19.super.atom "A" = .ok [0] := by
    have : ("A" : String).toUpper ≠ "ALL" := by decide +kernel
    unfold selectAtomsOf
    rw [if_neg this]
    have : C19.table "A" = some 0 := rfl
    rw [this]
    simp [C19.super, List.range_succ]
  have hB : selectAtomsOf C19.table C19.super.atom "B" = .ok [1] := by
    have : ("B" : String).toUpper ≠ "ALL" := by decide +kernel
    unfold selectAtomsOf
    rw [if_neg this]
    have : C19.table "B" = some 1 := rfl
    rw [this]
    simp [C19.super, List.range_succ]
  have hd' : √(C19.super.skal (diff C19.super ⟨0, 0, 0⟩ ⟨![91 / 10, 0, 0], 0, 1⟩ (0, 0, 0))
      (diff C19.super ⟨0, 0, 0⟩ ⟨![91 / 10, 0, 0], 0, 1⟩ (0, 0, 0))) = 91 / 10 := hd
  have hT : (0, 0, 0) ∈ Sphere.points (sph C19.super 0 10) := by
    have := C45.eps_pos
    refine (C18.no_rmin _ (C19.good C19.super_fine 0 10) ?_ ?_ (0, 0, 0)).2 ?_
    · show 0 - circumDiameter C19.super ≤ 0
      rw [C19.super_circum]; linarith
    · show 0 ≤ 10 + circumDiameter C19.super
      rw [C19.super_circum]; linarith
    · rw [C19.len2_tvec C19.super_fine, C20.skal_ortho _ C19.super90]
      show _ < (10 + circumDiameter C19.super) ^ 2
      rw [C19.super_circum]
      simp [C19.tvec]
      positivity
  refine ⟨rv, _, hr, by unfold bondLengthTypes; rw [hA, hB]; rfl, hl, hn,
    mkPair C19.super (diff C19.super ⟨0, 0, 0⟩ ⟨![91 / 10, 0, 0], 0, 1⟩ (0, 0, 0)) (fun k => (0 : Fin 3 → ℝ) k + (0 : Fin 3 → ℝ) k) (0 + 1) (1 + 1), ?_, hd'⟩
  rw [List.mem_mergeSort]
  simp only [List.flatMap_cons, List.flatMap_nil, List.append_nil]
  refine List.mem_filterMap.2 ⟨(0, 0, 0), hT, ?_⟩
  unfold tryPair
  rw [if_pos]
  constructor
  · exact Real.sqrt_nonneg _
  · exact hd'.le.trans (by norm_num)

/-! ## Example -/

/-- The hypotheses are satisfied: the bond of length 0.2 in two lists with different limits. -/
example : ∃ rv rv', bondLengthTypes C19.table C20.ortho "ALL" "ALL" (1 / 10) 1 = .ok rv ∧ bondLengthTypes C19.table C20.ortho "ALL" "ALL" 0 2 = .ok rv' ∧
    rv'.Perm (rv'.map swap) ∧ (∃ d ∈ rv, d.dij = 1 / 5) ∧ ∃ d ∈ rv', d.dij = 1 / 5 := by
  classical
  obtain ⟨_, rv, -, h, -, -, b, hb, -, -, hd⟩ := C103.C103_shortest_violated
  obtain ⟨rv', h'⟩ := C103.ortho_list 0 2
  have hp := C105_part_partial C19.table C20.ortho C103.ortho_fine C103.ortho_close "ALL" "ALL" "ALL" "ALL" (1 / 10) 1 0 2 (fun _ => id) (fun _ => id)
    (by norm_num) (by norm_num) rv rv' h h'
  exact ⟨rv, rv', h, h', C105_mirror_partial C19.table C20.ortho C103.ortho_fine C103.ortho_close "ALL" "ALL" 0 2 rv' rv' h' h', ⟨b, hb, hd⟩,
    b, (List.mem_filter.1 (hp.mem_iff.1 hb)).1, hd⟩

end Pdffit.C105
