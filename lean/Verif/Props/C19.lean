import Verif.Lemmas.Bonds
import Verif.Props.C18
import Verif.Props.C20

/-!
# C19: bond_length_types returns exactly the bonds in the range

The search radius is extended by `circum_diameter`, the diameter of *one* unit cell, which covers the
position differences only if the atoms lie within one unit cell. `exact_partial` proves the claim for coordinates that
differ by at most 1. For supercells (or coordinates outside the cell) bonds are missed: `missed`.

An atom is an image of itself at distance 0, so with `lb ≤ 0` these zero distances are reported as well.
-/

namespace Pdffit.C19
open Geom Parser Bonds

/-- Atom `i` (from 0) is an atom of the given label. -/
def IsOf (lookup : String → Option ℕ) (p : Phs) (sym : String) (i : ℕ) : Prop :=
  ∃ a, p.atom[i]? = some a ∧ (sym.toUpper = "ALL" ∨ lookup sym = some a.typ)

/-- Distance from atom `i` to atom `j` of the supercell shifted by `T`. -/
noncomputable def dist (p : Phs) (i j : ℕ) (T : ℤ × ℤ × ℤ) : ℝ :=
  match p.atom[i]?, p.atom[j]? with
  | some ai, some aj => √(p.skal (diff p ai aj T) (diff p ai aj T))
  | _, _ => 0

theorem select_spec {lookup : String → Option ℕ} {p : Phs} {sym : String} {s : List ℕ}
    (h : selectAtomsOf lookup p.atom sym = .ok s) : s.Nodup ∧ ∀ i, i ∈ s ↔ IsOf lookup p sym i := by
  unfold selectAtomsOf at h
  split at h
  · rename_i hall
    simp only [Res.ok.injEq] at h
    subst h
    refine ⟨List.nodup_range, fun i => ?_⟩
    rw [List.mem_range]
    constructor
    · intro hi
      exact ⟨_, List.getElem?_eq_getElem hi, Or.inl hall⟩
    · rintro ⟨a, ha, -⟩
      exact (List.getElem?_eq_some_iff.1 ha).1
  · rename_i hall
    split at h
    · simp at h
    · rename_i t ht
      simp only [Res.ok.injEq] at h
      subst h
      refine ⟨List.nodup_range.filter _, fun i => ?_⟩
      rw [List.mem_filter, List.mem_range]
      constructor
      · rintro ⟨hi, hf⟩
        refine ⟨_, List.getElem?_eq_getElem hi, Or.inr ?_⟩
        rw [List.getElem?_eq_getElem hi] at hf
        simp at hf
        rw [ht, hf]
      · rintro ⟨a, ha, h' | h'⟩
        · exact absurd h' hall
        · refine ⟨(List.getElem?_eq_some_iff.1 ha).1, ?_⟩
          rw [ha]
          rw [ht] at h'
          simp only [Option.some.injEq] at h'
          simp [h']

/-- A label that is neither "ALL" nor in the periodic table raises `ValueError`. -/
theorem unknown (lookup : String → Option ℕ) (p : Phs) (A B : String) (lb ub : ℝ)
    (h : (A.toUpper ≠ "ALL" ∧ lookup A = none) ∨ (B.toUpper ≠ "ALL" ∧ lookup B = none)) :
    bondLengthTypes lookup p A B lb ub = .err .value := by
  have key : ∀ s, s.toUpper ≠ "ALL" ∧ lookup s = none → selectAtomsOf lookup p.atom s = .err .value := by
    rintro s ⟨h1, h2⟩
    unfold selectAtomsOf
    rw [if_neg h1, h2]
  have tot : ∀ s, selectAtomsOf lookup p.atom s = .err .value ∨ ∃ l, selectAtomsOf lookup p.atom s = .ok l := by
    intro s
    unfold selectAtomsOf
    split
    · exact Or.inr ⟨_, rfl⟩
    · split
      · exact Or.inl rfl
      · exact Or.inr ⟨_, rfl⟩
  unfold bondLengthTypes
  rcases h with h | h
  · rw [key A h]; rfl
  · rcases tot A with hA | ⟨l, hA⟩
    · rw [hA]; rfl
    · rw [hA, key B h]; rfl

/-- The cells for which the search is correct. -/
structure Fine (p : Phs) : Prop where
  acc : ∃ m, lattice p.cell = .ok m
  edge : ∀ i, 0 < p.cell.a0 i
  angle : ∀ i, 0 < p.cell.win i ∧ p.cell.win i < 180
  small : C45.NoSmall p.cell.a0 p.cell.win
  icc : ∀ i, 0 < p.icc i

section
variable {p : Phs} (F : Fine p)
include F

theorem voll_pos : 0 < voll p.cell := by
  obtain ⟨m, hm⟩ := F.acc
  unfold lattice at hm
  split at hm
  · simp at hm
  · rename_i h
    exact lt_trans C45.eps_pos (not_le.1 h)

theorem law (x : Fin 3 → ℝ) : p.skal x x =
      (p.cell.a0 0 * x 0) ^ 2 + (p.cell.a0 1 * x 1) ^ 2 + (p.cell.a0 2 * x 2) ^ 2 +
        2 * (p.cell.a0 0 * x 0) * (p.cell.a0 1 * x 1) * bcosd (p.cell.win 2) +
        2 * (p.cell.a0 0 * x 0) * (p.cell.a0 2 * x 2) * bcosd (p.cell.win 1) +
        2 * (p.cell.a0 1 * x 1) * (p.cell.a0 2 * x 2) * bcosd (p.cell.win 0) := by
  obtain ⟨m, hm⟩ := F.acc
  have h := (C45.direct_partial p.cell m hm (fun i => (F.edge i).ne') F.small).2.2 x
  have hg : p.gten = m.gten := by
    unfold lattice at hm
    split at hm
    · simp at hm
    · simp only [Res.ok.injEq] at hm
      rw [← hm]
      rfl
  rw [← hg] at h
  exact h

theorem nonneg (x : Fin 3 → ℝ) : 0 ≤ skalpro p.gten x x := by
  obtain ⟨m, hm⟩ := F.acc
  have h := (C45.direct_partial p.cell m hm (fun i => (F.edge i).ne') F.small).1
  have hg : p.gten = m.gten := by
    unfold lattice at hm
    split at hm
    · simp at hm
    · simp only [Res.ok.injEq] at hm
      rw [← hm]
      rfl
  by_cases hx : x = 0
  · subst hx; simp [skalpro]
  · rw [hg]; exact (h x hx).le

theorem good (lb ub : ℝ) : C18.Good (sph p lb ub).lat := by
  have n : ∀ i, (0 : ℝ) < p.icc i := fun i => by exact_mod_cast F.icc i
  refine C18.good_of _ _ _ _ _ _ (mul_pos (F.edge 0) (n 0)) (mul_pos (F.edge 1) (n 1)) (mul_pos (F.edge 2) (n 2))
    (F.angle 0) (F.angle 1) (F.angle 2) ?_
  have := voll_pos F
  unfold voll bcosd rad at this
  linarith

/-- The vector of a superlattice point. -/
def tvec (p : Phs) (T : ℤ × ℤ × ℤ) : Fin 3 → ℝ := fun k => ((![T.1, T.2.1, T.2.2] k : ℤ) : ℝ) * p.icc k

theorem len2_tvec (lb ub : ℝ) (T : ℤ × ℤ × ℤ) : C18.len2 (sph p lb ub).lat T = p.skal (tvec p T) (tvec p T) := by
  rw [law F]
  unfold C18.len2 sph Sphere.Lat.of tvec bcosd rad
  simp only [Matrix.cons_val]
  ring

/-- A vector within the range is among the visited points. -/
theorem visited (lb ub : ℝ) (h0 : 0 ≤ ub) (ai aj : Atm) (T : ℤ × ℤ × ℤ)
    (hc : √(p.skal (fun k => ai.pos k - aj.pos k) fun k => ai.pos k - aj.pos k) < circumDiameter p)
    (h1 : lb ≤ √(p.skal (diff p ai aj T) (diff p ai aj T))) (h2 : √(p.skal (diff p ai aj T) (diff p ai aj T)) ≤ ub) :
    T ∈ Sphere.points (sph p lb ub) := by
  set D : Fin 3 → ℝ := fun k => ai.pos k - aj.pos k with hD
  set d := diff p ai aj T with hd
  set t := tvec p T with ht
  have hg := p.gten_symm
  have hp := nonneg F
  have e1 : d + t = D := by
    funext k
    simp only [hd, ht, hD, diff, tvec, Pi.add_apply]
    ring
  have e2 : t = D + -d := by rw [← e1]; funext k; simp
  have tri1 : √(p.skal t t) ≤ √(p.skal D D) + √(p.skal d d) := by
    have := triangle _ hg hp D (-d)
    rw [skalpro_neg, ← e2] at this
    exact this
  have tri2 : √(p.skal d d) ≤ √(p.skal D D) + √(p.skal t t) := by
    have e3 : d = D + -t := by rw [← e1]; funext k; simp
    have := triangle _ hg hp D (-t)
    rw [skalpro_neg, ← e3] at this
    exact this
  have c0 : 0 < circumDiameter p := lt_of_le_of_lt (Real.sqrt_nonneg _) hc
  have hmax : 0 ≤ (sph p lb ub).rmax := by show 0 ≤ ub + circumDiameter p; linarith
  have hl : C18.len2 (sph p lb ub).lat T = √(p.skal t t) ^ 2 := by
    rw [len2_tvec F]; exact (Real.sq_sqrt (hp t)).symm
  have hlt : √(p.skal t t) < (sph p lb ub).rmax := by show _ < ub + circumDiameter p; linarith
  have hlt2 : C18.len2 (sph p lb ub).lat T < (sph p lb ub).rmax ^ 2 := by
    rw [hl]
    exact pow_lt_pow_left₀ hlt (Real.sqrt_nonneg _) two_ne_zero
  by_cases hr : (sph p lb ub).rmin ≤ 0
  · exact (C18.no_rmin _ (good F lb ub) hr hmax T).2 hlt2
  · have hr := not_le.1 hr
    refine (C18.complete _ (good F lb ub) hr.le hmax).2.1 T ?_ hlt2
    rw [hl]
    refine pow_le_pow_left₀ hr.le ?_ 2
    show lb - circumDiameter p ≤ _
    linarith

end

theorem flat_map {α β γ : Type} (l : List α) (f : α → List β) (g : β → γ) :
    (l.flatMap f).map g = l.flatMap fun a => (f a).map g := by
  rw [List.map_flatMap]

/-- The bonds of the selected atoms as a list of index pairs and superlattice points. -/
noncomputable def bonds (p : Phs) (lb ub : ℝ) (si sj : List ℕ) : List (ℕ × ℕ × (ℤ × ℤ × ℤ)) :=
  si.flatMap fun i => sj.flatMap fun j =>
    ((Sphere.points (sph p lb ub)).filter fun T => decide (dist p i j T ≥ lb ∧ dist p i j T ≤ ub)).map fun T => (i, j, T)

theorem pairsOf_map (p : Phs) (lb ub : ℝ) (i j : ℕ) (hi : i < p.atom.length) (hj : j < p.atom.length) :
    (pairsOf p lb ub i j).map (fun d => (d.dij, d.i, d.j)) =
      (((Sphere.points (sph p lb ub)).filter fun T => decide (dist p i j T ≥ lb ∧ dist p i j T ≤ ub)).map fun T =>
        (i, j, T)).map fun x : ℕ × ℕ × (ℤ × ℤ × ℤ) => (dist p x.1 x.2.1 x.2.2, x.1 + 1, x.2.1 + 1) := by
  have hd : ∀ T, dist p i j T = √(p.skal (diff p p.atom[i] p.atom[j] T) (diff p p.atom[i] p.atom[j] T)) := by
    intro T
    unfold dist
    rw [List.getElem?_eq_getElem hi, List.getElem?_eq_getElem hj]
  unfold pairsOf
  rw [List.getElem?_eq_getElem hi, List.getElem?_eq_getElem hj]
  dsimp only
  generalize Sphere.points (sph p lb ub) = l
  induction l with
  | nil => rfl
  | cons T l ih =>
    by_cases hT : dist p i j T ≥ lb ∧ dist p i j T ≤ ub
    · rw [List.filter_cons_of_pos (by simpa using hT)]
      have hT' := hT
      rw [hd] at hT'
      rw [List.filterMap_cons_some (by unfold tryPair; rw [if_pos hT'])]
      simp only [List.map_cons, ih]
      congr 1
      simp only [mkPair, hd]
    · rw [List.filter_cons_of_neg (by simpa using hT)]
      have hT' := hT
      rw [hd] at hT'
      rw [List.filterMap_cons_none (by unfold tryPair; rw [if_neg hT']), ih]

/-- The general form: exact whenever all position differences are shorter than the extension of the search sphere. -/
theorem exact_of_close (lookup : String → Option ℕ) (p : Phs) (F : Fine p) (A B : String) (lb ub : ℝ)
    (hc : ∀ ai ∈ p.atom, ∀ aj ∈ p.atom,
      √(p.skal (fun k => ai.pos k - aj.pos k) fun k => ai.pos k - aj.pos k) < circumDiameter p)
    (rv : List PairDist) (h : bondLengthTypes lookup p A B lb ub = .ok rv) :
    rv.Pairwise (fun a b => a.dij ≤ b.dij) ∧
    ∃ L : List (ℕ × ℕ × (ℤ × ℤ × ℤ)), L.Nodup ∧
      (∀ i j T, (i, j, T) ∈ L ↔ IsOf lookup p A i ∧ IsOf lookup p B j ∧ lb ≤ dist p i j T ∧ dist p i j T ≤ ub) ∧
      (rv.map fun d => (d.dij, d.i, d.j)).Perm (L.map fun x => (dist p x.1 x.2.1 x.2.2, x.1 + 1, x.2.1 + 1)) := by
  unfold bondLengthTypes at h
  obtain ⟨si, hsi, h⟩ := Res.bind_eq_ok.1 h
  obtain ⟨sj, hsj, h⟩ := Res.bind_eq_ok.1 h
  simp only [Res.ok.injEq] at h
  obtain ⟨ni, mi⟩ := select_spec hsi
  obtain ⟨nj, mj⟩ := select_spec hsj
  constructor
  · rw [← h]
    have := List.pairwise_mergeSort (le := fun a b : PairDist => decide (a.dij ≤ b.dij))
      (fun a b c h1 h2 => by simp only [decide_eq_true_eq] at *; exact le_trans h1 h2)
      (fun a b => by simp only [Bool.or_eq_true, decide_eq_true_eq]; exact le_total _ _)
      (si.flatMap fun i => sj.flatMap fun j => pairsOf p lb ub i j)
    exact this.imp fun h => by simpa using h
  · refine ⟨bonds p lb ub si sj, ?_, ?_, ?_⟩
    · unfold bonds
      rw [List.nodup_flatMap]
      refine ⟨fun i _ => ?_, ?_⟩
      · rw [List.nodup_flatMap]
        refine ⟨fun j _ => ((C18.nodup_points (good F lb ub)).filter _).map fun a b e => by simpa using e, ?_⟩
        refine nj.imp fun {a b} hab => ?_
        intro x h1 h2
        simp only [List.mem_map] at h1 h2
        obtain ⟨_, _, rfl⟩ := h1
        obtain ⟨_, _, e⟩ := h2
        simp only [Prod.mk.injEq] at e
        exact hab e.2.1.symm
      · refine ni.imp fun {a b} hab => ?_
        intro x h1 h2
        simp only [List.mem_flatMap, List.mem_map] at h1 h2
        obtain ⟨_, _, _, _, rfl⟩ := h1
        obtain ⟨_, _, _, _, e⟩ := h2
        simp only [Prod.mk.injEq] at e
        exact hab e.1.symm
    · intro i j T
      have : (i, j, T) ∈ bonds p lb ub si sj ↔ i ∈ si ∧ j ∈ sj ∧ T ∈ Sphere.points (sph p lb ub) ∧
          (lb ≤ dist p i j T ∧ dist p i j T ≤ ub) := by
        unfold bonds
        simp only [List.mem_flatMap, List.mem_map, List.mem_filter, decide_eq_true_eq, Prod.mk.injEq]
        constructor
        · rintro ⟨i', h1, j', h2, T', h3, rfl, rfl, rfl⟩
          exact ⟨h1, h2, h3⟩
        · rintro ⟨h1, h2, h3⟩
          exact ⟨i, h1, j, h2, T, h3, rfl, rfl, rfl⟩
      rw [this, mi, mj]
      refine and_congr_right fun hA => and_congr_right fun hB => and_iff_right_of_imp ?_
      rintro ⟨h1, h2⟩
      obtain ⟨ai, hai, -⟩ := hA
      obtain ⟨aj, haj, -⟩ := hB
      have hd : dist p i j T = √(p.skal (diff p ai aj T) (diff p ai aj T)) := by
        unfold dist; rw [hai, haj]
      rw [hd] at h1 h2
      exact visited F lb ub (le_trans (Real.sqrt_nonneg _) h2) ai aj T
        (hc ai (List.mem_of_getElem? hai) aj (List.mem_of_getElem? haj)) h1 h2
    · rw [← h]
      refine ((List.mergeSort_perm _ _).map _).trans ?_
      apply List.Perm.of_eq
      unfold bonds
      rw [flat_map, flat_map]
      apply List.flatMap_congr
      intro i hi
      rw [flat_map, flat_map]
      apply List.flatMap_congr
      intro j hj
      obtain ⟨a, ha, -⟩ := (mi i).1 hi
      obtain ⟨b, hb, -⟩ := (mj j).1 hj
      exact pairsOf_map p lb ub i j (List.getElem?_eq_some_iff.1 ha).1 (List.getElem?_eq_some_iff.1 hb).1

/-- The longest diagonal of the cell bounds the length of a vector with coordinates in [-1, 1]. -/
theorem diag_bound_eps (p : Phs) (F : Fine p) (hne : p.atom ≠ []) (x : Fin 3 → ℝ) (hx : ∀ k, |x k| ≤ 1) :
    √(p.skal x x) + eps ≤ circumDiameter p := by
  set f := fun u : Fin 3 → ℝ => √(p.skal u u) with hf
  have hfold : ∀ (l : List (Fin 3 → ℝ)) (m : ℝ), m ≤ l.foldl (fun mx u => if f u > mx then f u else mx) m ∧
      ∀ u ∈ l, f u ≤ l.foldl (fun mx u => if f u > mx then f u else mx) m := by
    intro l
    induction l with
    | nil => intro m; exact ⟨le_rfl, fun u hu => by simp at hu⟩
    | cons a l ih =>
      intro m
      rw [List.foldl_cons]
      obtain ⟨i1, i2⟩ := ih (if f a > m then f a else m)
      have b1 : m ≤ (if f a > m then f a else m) := by split <;> [(rename_i h; exact h.le); exact le_rfl]
      have b2 : f a ≤ (if f a > m then f a else m) := by split <;> [exact le_rfl; (rename_i h; exact not_lt.1 h)]
      refine ⟨le_trans b1 i1, fun u hu => ?_⟩
      rcases List.mem_cons.1 hu with rfl | hu
      · exact le_trans b2 i1
      · exact i2 u hu
  have hmax := (hfold diagonals (-1)).2
  set M := diagonals.foldl (fun mx u => if f u > mx then f u else mx) (-1) with hM
  have hcd : circumDiameter p = M * (1 + eps) + eps := by
    unfold circumDiameter
    rw [if_neg hne]
  have hep := C45.eps_pos
  have hp := nonneg F
  have hM0 : 0 ≤ M := le_trans (Real.sqrt_nonneg _) (hmax ![1, 1, 1] (by simp [diagonals]))
  have hd : ∀ u ∈ diagonals, p.skal u u ≤ M ^ 2 := fun u hu => (Real.sqrt_le_left hM0).1 (hmax u hu)
  have d1 := hd ![1, 1, 1] (by simp [diagonals])
  have d2 := hd ![-1, 1, 1] (by simp [diagonals])
  have d3 := hd ![1, -1, 1] (by simp [diagonals])
  have d4 := hd ![1, 1, -1] (by simp [diagonals])
  have g0 : 0 ≤ p.gten 0 0 := by have := hp ![1, 0, 0]; rw [skalpro_exp] at this; simpa using this
  have g1 : 0 ≤ p.gten 1 1 := by have := hp ![0, 1, 0]; rw [skalpro_exp] at this; simpa using this
  have g2 : 0 ≤ p.gten 2 2 := by have := hp ![0, 0, 1]; rw [skalpro_exp] at this; simpa using this
  have hb : p.skal x x ≤ M ^ 2 := by
    unfold Phs.skal at *
    rw [skalpro_exp] at *
    have s := p.gten_symm
    rw [s 1 0, s 2 0, s 2 1] at *
    simp only [Matrix.cons_val] at d1 d2 d3 d4
    generalize p.gten 0 0 = a at *
    generalize p.gten 1 1 = b at *
    generalize p.gten 2 2 = c at *
    generalize p.gten 0 1 = u at *
    generalize p.gten 0 2 = v at *
    generalize p.gten 1 2 = w at *
    have x0 := abs_le.1 (hx 0)
    have x1 := abs_le.1 (hx 1)
    have x2 := abs_le.1 (hx 2)
    generalize x 0 = r at *
    generalize x 1 = q at *
    generalize x 2 = t at *
    -- one coordinate at a time
    have step : ∀ (A Bc C y : ℝ), 0 ≤ A → -1 ≤ y → y ≤ 1 → A + Bc + C ≤ M ^ 2 → A - Bc + C ≤ M ^ 2 →
        A * y ^ 2 + Bc * y + C ≤ M ^ 2 := by
      intro A Bc C y hA hy1 hy2 h1 h2
      have : A * y ^ 2 ≤ A := by nlinarith [mul_nonneg (sub_nonneg.2 hy2) (by linarith : (0:ℝ) ≤ 1 + y)]
      rcases le_total 0 Bc with h | h <;> nlinarith
    have f3 : ∀ e1 e2 : ℝ, (e1 = 1 ∨ e1 = -1) → (e2 = 1 ∨ e2 = -1) →
        c * t ^ 2 + (2 * e1 * v + 2 * e2 * w) * t + (a + b + 2 * e1 * e2 * u) ≤ M ^ 2 := by
      rintro e1 e2 (rfl | rfl) (rfl | rfl) <;> refine step _ _ _ _ g2 x2.1 x2.2 ?_ ?_ <;> linarith
    have f2 : ∀ e1 : ℝ, (e1 = 1 ∨ e1 = -1) →
        b * q ^ 2 + (2 * e1 * u + 2 * t * w) * q + (a + c * t ^ 2 + 2 * e1 * t * v) ≤ M ^ 2 := by
      intro e1 he
      refine step _ _ _ _ g1 x1.1 x1.2 ?_ ?_
      · have := f3 e1 1 he (Or.inl rfl); linarith
      · have := f3 e1 (-1) he (Or.inr rfl); linarith
    have f1 := step a (2 * q * u + 2 * t * v) (b * q ^ 2 + c * t ^ 2 + 2 * q * t * w) r g0 x0.1 x0.2
      (by have := f2 1 (Or.inl rfl); linarith) (by have := f2 (-1) (Or.inr rfl); linarith)
    linarith
  have h1 : √(p.skal x x) ≤ M := by
    rw [Real.sqrt_le_left hM0]; exact hb
  rw [hcd]
  nlinarith

theorem diag_bound (p : Phs) (F : Fine p) (hne : p.atom ≠ []) (x : Fin 3 → ℝ) (hx : ∀ k, |x k| ≤ 1) :
    √(p.skal x x) < circumDiameter p := by
  have := diag_bound_eps p F hne x hx
  have := C45.eps_pos
  linarith

/-- Partial result: exact for atoms whose coordinates differ by at most one cell edge.
Missing: larger differences, where the claim is false (`missed`), and cells that
violate `Fine` (suppressed metric elements, nonpositive edges or angles outside (0, 180)). -/
theorem exact_partial (lookup : String → Option ℕ) (p : Phs) (F : Fine p) (A B : String) (lb ub : ℝ)
    (hc : ∀ ai ∈ p.atom, ∀ aj ∈ p.atom, ∀ k, |ai.pos k - aj.pos k| ≤ 1)
    (rv : List PairDist) (h : bondLengthTypes lookup p A B lb ub = .ok rv) :
    rv.Pairwise (fun a b => a.dij ≤ b.dij) ∧
    ∃ L : List (ℕ × ℕ × (ℤ × ℤ × ℤ)), L.Nodup ∧
      (∀ i j T, (i, j, T) ∈ L ↔ IsOf lookup p A i ∧ IsOf lookup p B j ∧ lb ≤ dist p i j T ∧ dist p i j T ≤ ub) ∧
      (rv.map fun d => (d.dij, d.i, d.j)).Perm (L.map fun x => (dist p x.1 x.2.1 x.2.2, x.1 + 1, x.2.1 + 1)) :=
  exact_of_close lookup p F A B lb ub
    (fun ai hi aj hj => diag_bound p F (List.ne_nil_of_mem hi) _ (hc ai hi aj hj)) rv h

/-! ### Violation -/

/-- A 10 × 1 × 1 supercell of a 1 × 2 × 2 cell with an atom A at the origin and an atom B at 9.1. -/
noncomputable def super : Phs where
  cell := ⟨![1, 2, 2], ![90, 90, 90]⟩
  dcell := ⟨0, 0⟩
  icc := ![10, 1, 1]
  atom := [⟨0, 0, 0⟩, ⟨![91 / 10, 0, 0], 0, 1⟩]

def table : String → Option ℕ := fun s => if s = "A" then some 0 else if s = "B" then some 1 else none

theorem super90 : ∀ k, super.cell.win k = 90 := by intro k; fin_cases k <;> rfl

theorem super_fine : Fine super where
  acc := by
    have hv : voll super.cell = 1 := by unfold voll; simp only [super90, C45.cosd90]; norm_num
    refine ⟨_, if_neg ?_⟩
    rw [hv, not_le]
    unfold eps
    norm_num
  edge := by intro i; fin_cases i <;> simp [super]
  angle := by intro i; rw [super90]; norm_num
  small := by intro i j _; left; rw [super90, C45.cosd90, mul_zero]
  icc := by intro i; fin_cases i <;> simp [super]

theorem super_circum : circumDiameter super = 3 + 4 * eps := by
  have e : ∀ u ∈ diagonals, √(super.skal u u) = 3 := by
    intro u hu
    rw [C20.skal_ortho _ super90, Real.sqrt_eq_iff_mul_self_eq (by positivity) (by norm_num)]
    simp only [diagonals, List.mem_cons, List.not_mem_nil, or_false] at hu
    rcases hu with rfl | rfl | rfl | rfl <;> simp [super] <;> norm_num
  unfold circumDiameter
  rw [if_neg (by simp [super])]
  have h1 := e ![1, 1, 1] (by simp [diagonals])
  have h2 := e ![-1, 1, 1] (by simp [diagonals])
  have h3 := e ![1, -1, 1] (by simp [diagonals])
  have h4 := e ![1, 1, -1] (by simp [diagonals])
  simp only [diagonals, List.foldl_cons, List.foldl_nil, h1, h2, h3, h4]
  norm_num
  ring

/-- The bond of length 9.1 between the two atoms of the supercell lies in the range but is not reported. -/
theorem missed : dist super 0 1 (0, 0, 0) = 91 / 10 ∧ 17 / 2 + 4 * eps ≤ (91 / 10 : ℝ) ∧
    ∃ rv, bondLengthTypes table super "A" "B" (17 / 2 + 4 * eps) 10 = .ok rv ∧ ∀ d ∈ rv, d.dij ≠ 91 / 10 := by
  have hd : ∀ T : ℤ × ℤ × ℤ, super.skal (diff super ⟨0, 0, 0⟩ ⟨![91 / 10, 0, 0], 0, 1⟩ T)
      (diff super ⟨0, 0, 0⟩ ⟨![91 / 10, 0, 0], 0, 1⟩ T) =
      (91 / 10 + T.1 * 10) ^ 2 + 4 * T.2.1 ^ 2 + 4 * T.2.2 ^ 2 := by
    intro T
    rw [C20.skal_ortho _ super90]
    simp [diff, super]
    ring
  refine ⟨?_, ?_, ?_⟩
  · show √(super.skal _ _) = _
    rw [hd, Real.sqrt_eq_iff_mul_self_eq (by positivity) (by norm_num)]
    norm_num
  · unfold eps; norm_num
  · have hA : selectAtomsOf table super.atom "A" = .ok [0] := by
      have : ("A" : String).toUpper ≠ "ALL" := by decide +kernel
      unfold selectAtomsOf
      rw [if_neg this]
      have : table "A" = some 0 := rfl
      rw [this]
      simp [super, List.range_succ]
    have hB : selectAtomsOf table super.atom "B" = .ok [1] := by
      have : ("B" : String).toUpper ≠ "ALL" := by decide +kernel
      unfold selectAtomsOf
      rw [if_neg this]
      have : table "B" = some 1 := rfl
      rw [this]
      simp [super, List.range_succ]
    unfold bondLengthTypes
    rw [hA, hB]
    refine ⟨_, rfl, fun d hm => ?_⟩
    rw [List.mem_mergeSort] at hm
    simp only [List.flatMap_cons, List.flatMap_nil, List.append_nil] at hm
    unfold pairsOf at hm
    change d ∈ List.filterMap (tryPair super _ _ 0 1 ⟨0, 0, 0⟩ ⟨![91 / 10, 0, 0], 0, 1⟩) _ at hm
    obtain ⟨T, hT, ht⟩ := List.mem_filterMap.1 hm
    unfold tryPair at ht
    split at ht
    swap
    · simp at ht
    simp only [Option.some.injEq] at ht
    subst ht
    intro hdij
    have h1 : √(super.skal (diff super ⟨0, 0, 0⟩ ⟨![91 / 10, 0, 0], 0, 1⟩ T)
      (diff super ⟨0, 0, 0⟩ ⟨![91 / 10, 0, 0], 0, 1⟩ T)) = 91 / 10 := hdij
    rw [hd, Real.sqrt_eq_iff_mul_self_eq (by positivity) (by norm_num)] at h1
    obtain ⟨m, n, o⟩ := T
    dsimp only at h1
    have h2 : 182 * m + 100 * m ^ 2 + 4 * n ^ 2 + 4 * o ^ 2 = 0 := by
      have : (182 * m + 100 * m ^ 2 + 4 * n ^ 2 + 4 * o ^ 2 : ℝ) = 0 := by linarith
      exact_mod_cast this
    have hm0 : m = 0 := by
      have b1 : m ≤ 0 := by nlinarith [sq_nonneg n, sq_nonneg o, sq_nonneg m]
      have b2 : -2 < m := by nlinarith [sq_nonneg n, sq_nonneg o, sq_nonneg m]
      rcases (by omega : m = 0 ∨ m = -1) with h | h
      · exact h
      · subst h
        generalize n ^ 2 = N at h2
        generalize o ^ 2 = O at h2
        omega
    subst hm0
    have hn0 : n = 0 := by
      have : n ^ 2 = 0 := by nlinarith [sq_nonneg n, sq_nonneg o]
      exact pow_eq_zero_iff two_ne_zero |>.1 this
    have ho0 : o = 0 := by
      have : o ^ 2 = 0 := by nlinarith [sq_nonneg n, sq_nonneg o]
      exact pow_eq_zero_iff two_ne_zero |>.1 this
    subst hn0; subst ho0
    have hrmin : (sph super (17 / 2 + 4 * eps) 10).rmin = 11 / 2 := by
      show 17 / 2 + 4 * eps - circumDiameter super = _
      rw [super_circum]; ring
    have hsh := (C18.shell_partial _ (good super_fine (17 / 2 + 4 * eps) 10) (by rw [hrmin]; norm_num)
      (by show 0 ≤ 10 + circumDiameter super; rw [super_circum]; have := C45.eps_pos; positivity) ?_ (0, 0, 0)).1 hT
    · rw [hrmin, len2_tvec super_fine] at hsh
      have : super.skal (tvec super (0, 0, 0)) (tvec super (0, 0, 0)) = 0 := by
        rw [C20.skal_ortho _ super90]; simp [tvec]
      rw [this] at hsh
      norm_num at hsh
    · rintro ⟨m, n, o⟩
      rw [hrmin, len2_tvec super_fine, C20.skal_ortho _ super90]
      intro h
      simp [tvec, super] at h
      have : (4 * (100 * m ^ 2 + 4 * n ^ 2 + 4 * o ^ 2) : ℝ) = 121 := by linarith
      have h' : 4 * (100 * m ^ 2 + 4 * n ^ 2 + 4 * o ^ 2) = 121 := by exact_mod_cast this
      omega

/-- A cell for which `exact_partial` applies: all distances from 1.5 to 2.5 in a simple cubic cell with edge 2. -/
noncomputable def simple : Phs where
  cell := ⟨![2, 2, 2], ![90, 90, 90]⟩
  dcell := ⟨0, 0⟩
  icc := ![1, 1, 1]
  atom := [⟨0, 0, 0⟩]

theorem simple90 : ∀ k, simple.cell.win k = 90 := by intro k; fin_cases k <;> rfl

theorem simple_fine : Fine simple where
  acc := by
    have hv : voll simple.cell = 1 := by unfold voll; simp only [simple90, C45.cosd90]; norm_num
    refine ⟨_, if_neg ?_⟩
    rw [hv, not_le]
    unfold eps
    norm_num
  edge := by intro i; fin_cases i <;> simp [simple]
  angle := by intro i; rw [simple90]; norm_num
  small := by intro i j _; left; rw [simple90, C45.cosd90, mul_zero]
  icc := by intro i; fin_cases i <;> simp [simple]

/-- The bond of length 2 along the first edge is reported. -/
example : ∃ rv, bondLengthTypes table simple "ALL" "all" (3 / 2) (5 / 2) = .ok rv ∧ (2, 1, 1) ∈ rv.map fun d => (d.dij, d.i, d.j) := by
  have hs : ∀ s : String, s.toUpper = "ALL" → selectAtomsOf table simple.atom s = .ok [0] := by
    intro s h
    unfold selectAtomsOf
    rw [if_pos h]
    rfl
  have hok : ∃ rv, bondLengthTypes table simple "ALL" "all" (3 / 2) (5 / 2) = .ok rv := by
    unfold bondLengthTypes
    rw [hs "ALL" (by decide +kernel), hs "all" (by decide +kernel)]
    exact ⟨_, rfl⟩
  obtain ⟨rv, hrv⟩ := hok
  refine ⟨rv, hrv, ?_⟩
  obtain ⟨-, L, -, hL, hp⟩ := exact_partial table simple simple_fine "ALL" "all" (3 / 2) (5 / 2)
    (by intro ai hi aj hj k; simp [simple] at hi hj; subst hi; subst hj; simp) rv hrv
  have hd : dist simple 0 0 (1, 0, 0) = 2 := by
    show √(simple.skal _ _) = _
    rw [C20.skal_ortho _ simple90, Real.sqrt_eq_iff_mul_self_eq (by positivity) (by norm_num)]
    simp [diff, simple]
    norm_num
  have hmem : (0, 0, ((1, 0, 0) : ℤ × ℤ × ℤ)) ∈ L := by
    rw [hL]
    refine ⟨⟨⟨0, 0, 0⟩, rfl, Or.inl (by decide +kernel)⟩, ⟨⟨0, 0, 0⟩, rfl, Or.inl (by decide +kernel)⟩, ?_, ?_⟩ <;>
      rw [hd] <;> norm_num
  rw [hp.mem_iff]
  exact List.mem_map.2 ⟨_, hmem, by simp [hd]⟩

end Pdffit.C19
