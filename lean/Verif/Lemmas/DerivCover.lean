import Verif.Lemmas.DerivReg
import Verif.Props.C24

/-! # Decisions when the edges of the cell change -/

namespace Pdffit.Deriv
open Geom Parser Bonds Det Layout Filter

/-- The selected pairs of the half loop. -/
def selPairs (s : Sel) (n : ℕ) : List (ℕ × ℕ) := (halfPairs n).filter fun x => !skip s x.1 x.2

/-- Pairs with translations of a given list. -/
def onList (s : Sel) (n : ℕ) (L : List (ℤ × ℤ × ℤ)) : List ((ℕ × ℕ) × (ℤ × ℤ × ℤ)) :=
  (selPairs s n).flatMap fun x => L.map fun T => (x, T)

theorem flatMap_filter {α β : Type} (l : List α) (f : α → List β) (q : α → Bool) (h : ∀ a ∈ l, q a = false → f a = []) :
    (l.filter q).flatMap f = l.flatMap f := by
  induction l with
  | nil => rfl
  | cons a l ih =>
    have ih := ih fun b hb => h b (by simp [hb])
    cases e : q a with
    | true => rw [List.filter_cons_of_pos (by simpa using e), List.flatMap_cons, List.flatMap_cons, ih]
    | false => rw [List.filter_cons_of_neg (by simp [e]), ih, List.flatMap_cons, h a (by simp) e, List.nil_append]

theorem perm_flatMap_left {α β : Type} (l : List α) (f g : α → List β) (h : ∀ a ∈ l, (f a).Perm (g a)) :
    (l.flatMap f).Perm (l.flatMap g) := by
  induction l with
  | nil => exact List.Perm.refl _
  | cons a l ih =>
    rw [List.flatMap_cons, List.flatMap_cons]
    exact (h a (by simp)).append (ih fun b hb => h b (by simp [hb]))

open Classical in
/-- Any list of translations that contains all with an effect gives the same decisions. -/
theorem cover (D : Data) (ph : PPhase) (s : Sel) (F : C19.Fine ph.toPhs) (N : C24.Near ph) (hs : ph.stepcut ≤ 0)
    (L : List (ℤ × ℤ × ℤ)) (nd : L.Nodup)
    (hL : ∀ i j T, i < ph.atom.length → j < ph.atom.length → event D ph (ph.atm i) (ph.atm j) T ≠ .skip → T ∈ L) :
    (decisions D ph s).Perm ((onList s ph.atom.length L).flatMap (piece D ph)) ∧
    ((∃ x ∈ visited D ph s, eventOf D ph x = .nan) → ∃ x ∈ onList s ph.atom.length L, eventOf D ph x = .nan) := by
  have hmem : ∀ x ∈ selPairs s ph.atom.length, x.1 < ph.atom.length ∧ x.2 < ph.atom.length := by
    intro x hx
    unfold selPairs at hx
    rw [List.mem_filter, mem_halfPairs] at hx
    omega
  have hball : ∀ i j T, i < ph.atom.length → j < ph.atom.length → event D ph (ph.atm i) (ph.atm j) T ≠ .skip →
      T ∈ Sphere.points (sphere D ph) := by
    intro i j T hi hj he
    rw [C24.points_iff F N hi hj T he]
    have h3 := Real.sqrt_le_sqrt (C24.event_range he).2
    have h4 := (C24.tri F i j T).1
    have h5 := N i j hi hj
    show C24.tlen ph T < (if 0 < ph.stepcut then _ else _)
    rw [if_neg (not_lt.2 hs)]
    linarith
  constructor
  · rw [decisions_eq]
    unfold visited onList selPairs
    rw [List.flatMap_assoc, List.flatMap_assoc]
    apply perm_flatMap_left
    intro x hx
    obtain ⟨h1, h2⟩ := hmem x hx
    rw [List.flatMap_map, List.flatMap_map]
    have hq : ∀ T, decide (event D ph (ph.atm x.1) (ph.atm x.2) T ≠ .skip) = false → piece D ph (x, T) = [] := by
      intro T hT
      have hT' : event D ph (ph.atm x.1) (ph.atm x.2) T = .skip := by simpa using hT
      have : eventOf D ph (x, T) = .skip := hT'
      unfold piece
      rw [this]
    rw [← flatMap_filter (Sphere.points (sphere D ph)) _ (fun T => decide (event D ph (ph.atm x.1) (ph.atm x.2) T ≠ .skip))
      fun T _ => hq T, ← flatMap_filter L _ (fun T => decide (event D ph (ph.atm x.1) (ph.atm x.2) T ≠ .skip)) fun T _ => hq T]
    apply List.Perm.flatMap_right
    rw [List.perm_ext_iff_of_nodup ((C18.nodup_points (C24.good F)).filter _) (nd.filter _)]
    intro T
    rw [List.mem_filter, List.mem_filter]
    constructor
    · rintro ⟨-, h⟩; exact ⟨hL _ _ T h1 h2 (by simpa using h), h⟩
    · rintro ⟨-, h⟩; exact ⟨hball _ _ T h1 h2 (by simpa using h), h⟩
  · rintro ⟨x, hx, he⟩
    refine ⟨x, ?_, he⟩
    unfold visited at hx
    rw [List.mem_flatMap] at hx
    obtain ⟨y, hy, hx⟩ := hx
    rw [List.mem_map] at hx
    obtain ⟨T, -, rfl⟩ := hx
    obtain ⟨h1, h2⟩ := hmem y hy
    unfold onList
    rw [List.mem_flatMap]
    refine ⟨y, hy, List.mem_map.2 ⟨T, hL _ _ T h1 h2 ?_, rfl⟩⟩
    have : event D ph (ph.atm y.1) (ph.atm y.2) T = .nan := he
    rw [this]
    simp

/-- The phase with an edge set to `t`. -/
def edgeAt (ph : PPhase) (k : Fin 3) (t : ℝ) : PPhase := { ph with cell := { ph.cell with a0 := Function.update ph.cell.a0 k t } }

theorem edge_orth {ph : PPhase} (O : Orth ph.cell) (k : Fin 3) {t : ℝ} (ht : t ≠ 0) : Orth (edgeAt ph k t).cell where
  cos := O.cos
  sin := O.sin
  edge := fun j => by
    unfold edgeAt
    dsimp only
    by_cases e : j = k
    · subst e; rwa [Function.update_self]
    · rw [Function.update_of_ne e]; exact O.edge j

theorem edge_fine {ph : PPhase} (O : Orth ph.cell) (F : C19.Fine ph.toPhs) (k : Fin 3) {t : ℝ} (ht : 0 < t) :
    C19.Fine (edgeAt ph k t).toPhs where
  acc := by
    obtain ⟨m, hm⟩ := F.acc
    unfold lattice at hm ⊢
    have e : voll (edgeAt ph k t).toPhs.cell = voll ph.toPhs.cell := rfl
    rw [e]
    split at hm
    · cases hm
    · rename_i hc
      rw [if_neg hc]
      exact ⟨_, rfl⟩
  edge := fun j => by
    show 0 < Function.update ph.cell.a0 k t j
    by_cases e : j = k
    · subst e; rwa [Function.update_self]
    · rw [Function.update_of_ne e]; exact F.edge j
  angle := F.angle
  small := fun i j _ => by
    left
    have := O.cos (third i j)
    show _ * bcosd (ph.cell.win (third i j)) = 0
    rw [this, mul_zero]
  icc := F.icc

/-- Lengths change at most by a factor of two. -/
theorem edge_scale {ph : PPhase} (O : Orth ph.cell) (k : Fin 3) {t : ℝ} (h0 : 0 < ph.cell.a0 k) (h1 : ph.cell.a0 k / 2 < t)
    (h2 : t < 2 * ph.cell.a0 k) (v : Fin 3 → ℝ) :
    √((edgeAt ph k t).toPhs.skal v v) ≤ 2 * √(ph.toPhs.skal v v) ∧ √(ph.toPhs.skal v v) ≤ 2 * √((edgeAt ph k t).toPhs.skal v v) := by
  have ht : t ≠ 0 := by linarith
  rw [skal_orth (edge_orth O k ht), skal_orth O]
  have key : ∀ j, (v j * Function.update ph.cell.a0 k t j) ^ 2 ≤ 2 ^ 2 * (v j * ph.cell.a0 j) ^ 2 ∧
      (v j * ph.cell.a0 j) ^ 2 ≤ 2 ^ 2 * (v j * Function.update ph.cell.a0 k t j) ^ 2 := by
    intro j
    by_cases e : j = k
    · subst e
      rw [Function.update_self]
      have a1 : t ^ 2 ≤ 4 * ph.cell.a0 j ^ 2 := by nlinarith
      have a2 : ph.cell.a0 j ^ 2 ≤ 4 * t ^ 2 := by nlinarith
      have := sq_nonneg (v j)
      constructor
      · calc (v j * t) ^ 2 = v j ^ 2 * t ^ 2 := by ring
          _ ≤ v j ^ 2 * (4 * ph.cell.a0 j ^ 2) := mul_le_mul_of_nonneg_left a1 this
          _ = _ := by ring
      · calc (v j * ph.cell.a0 j) ^ 2 = v j ^ 2 * ph.cell.a0 j ^ 2 := by ring
          _ ≤ v j ^ 2 * (4 * t ^ 2) := mul_le_mul_of_nonneg_left a2 this
          _ = _ := by ring
    · rw [Function.update_of_ne e]
      have := sq_nonneg (v j * ph.cell.a0 j)
      constructor <;> linarith
  have two : ∀ y : ℝ, 2 * √y = √(2 ^ 2 * y) := fun y => by
    rw [Real.sqrt_mul (by norm_num), Real.sqrt_sq (by norm_num)]
  unfold sq3
  rw [two, two]
  show √((v 0 * Function.update ph.cell.a0 k t 0) ^ 2 + (v 1 * Function.update ph.cell.a0 k t 1) ^ 2 +
    (v 2 * Function.update ph.cell.a0 k t 2) ^ 2) ≤ _ ∧ _ ≤ √(2 ^ 2 * ((v 0 * Function.update ph.cell.a0 k t 0) ^ 2 +
      (v 1 * Function.update ph.cell.a0 k t 1) ^ 2 + (v 2 * Function.update ph.cell.a0 k t 2) ^ 2))
  constructor
  · exact Real.sqrt_le_sqrt (by linarith [(key 0).1, (key 1).1, (key 2).1])
  · exact Real.sqrt_le_sqrt (by linarith [(key 0).2, (key 1).2, (key 2).2])

/-- Edges of an orthogonal cell: pairs away from all thresholds give the same decisions for nearby edges. -/
theorem edge_steady (D : Data) (ph : PPhase) (s : Sel) (k : Fin 3) (O : Orth ph.cell) (F : C19.Fine ph.toPhs)
    (hp : ∀ i j, i < ph.atom.length → j < ph.atom.length → ∀ k, |(ph.atm i).pos k - (ph.atm j).pos k| ≤ 1)
    (hs : ph.stepcut ≤ 0) (hS : ∀ x ∈ selPairs s ph.atom.length, ∀ T, Steady D ph (x, T)) :
    ∀ᶠ t in nhds (ph.cell.a0 k), (decisions D (edgeAt ph k t) s).Perm (decisions D ph s) ∧
      ∀ x ∈ visited D (edgeAt ph k t) s, eventOf D (edgeAt ph k t) x ≠ .nan := by
  have h0 : 0 < ph.cell.a0 k := F.edge k
  have e0 : edgeAt ph k (ph.cell.a0 k) = ph := by unfold edgeAt; rw [Function.update_eq_self]
  set R := 2 * (2 * circumDiameter ph.toPhs + √D.rmax2) with hR
  set K : Sphere.Cst := { rmin := 0, rmax := |R|, lat := (sphere D ph).lat } with hK
  set L := Sphere.points K with hL
  have g : C18.Good K.lat := C24.good (D := D) F
  have nd : L.Nodup := C18.nodup_points g
  have N := C24.near_of ph F hp
  have hcov : ∀ t, ph.cell.a0 k / 2 < t → t < 2 * ph.cell.a0 k → ∀ i j T, i < ph.atom.length → j < ph.atom.length →
      event D (edgeAt ph k t) ((edgeAt ph k t).atm i) ((edgeAt ph k t).atm j) T ≠ .skip → T ∈ L := by
    intro t h1 h2 i j T hi hj he
    have ht : 0 < t := by linarith
    have Ft := edge_fine O F k ht
    rw [hL, C18.no_rmin K g le_rfl (abs_nonneg R)]
    show C18.len2 (sphere D ph).lat T < |R| ^ 2
    rw [C24.len2 F, sq_abs]
    have q1 := (C24.tri Ft i j T).1
    have q2 := Real.sqrt_le_sqrt (C24.event_range he).2
    have q3 := (edge_scale O k h0 h1 h2 fun m => (ph.atm i).pos m - (ph.atm j).pos m).1
    have q4 := N i j hi hj
    have q5 : C24.tlen ph T ≤ 2 * C24.tlen (edgeAt ph k t) T := (edge_scale O k h0 h1 h2 (C19.tvec ph.toPhs T)).2
    have q6 : C24.tlen (edgeAt ph k t) T ≤ 2 * √(ph.toPhs.skal (fun m => (ph.atm i).pos m - (ph.atm j).pos m) fun m =>
        (ph.atm i).pos m - (ph.atm j).pos m) + √D.rmax2 := by
      refine q1.trans ?_
      exact add_le_add q3 q2
    have q7 : C24.tlen ph T < R := by rw [hR]; linarith
    exact pow_lt_pow_left₀ q7 (Real.sqrt_nonneg _) two_ne_zero
  have P : Path (fun _ => D) (edgeAt ph k) (ph.cell.a0 k) :=
    ⟨fun t => ⟨rfl, rfl, rfl, rfl, rfl, rfl⟩, fun t => rfl, continuousAt_const⟩
  have Oe : ∀ᶠ t in nhds (ph.cell.a0 k), Orth (edgeAt ph k t).cell := by
    filter_upwards [lt_mem_nhds h0] with t ht
    exact edge_orth O k ht.ne'
  have cont : ∀ x, ContinuousAt (fun t => dist2 (edgeAt ph k t) x) (ph.cell.a0 k) ∧
      (0 < dist2 (edgeAt ph k (ph.cell.a0 k)) x → ContinuousAt (fun t => msdOf (edgeAt ph k t) x) (ph.cell.a0 k)) := by
    intro x
    refine orth_cont (edgeAt ph k) x (ph.cell.a0 k) Oe (fun m => ?_) fun m => continuousAt_const
    show ContinuousAt (fun t => vec ph x m * Function.update ph.cell.a0 k t m) _
    refine continuousAt_const.mul ?_
    by_cases e : m = k
    · subst e
      simp only [Function.update_self]
      exact continuousAt_id
    · simpa [Function.update_of_ne e] using continuousAt_const
  have key := steady_list P (onList s ph.atom.length L) (fun x hx => by
      rw [e0]
      unfold onList at hx
      rw [List.mem_flatMap] at hx
      obtain ⟨y, hy, hx⟩ := hx
      rw [List.mem_map] at hx
      obtain ⟨T, -, rfl⟩ := hx
      exact hS y hy T) (fun x _ => (cont x).1) (fun x _ => (cont x).2)
      fun x _ => corfact_cont D (edgeAt ph k) x _ (fun t => ⟨rfl, rfl⟩) (cont x).1
  have c0 := cover D ph s F N hs L nd (by
    have := hcov (ph.cell.a0 k) (by linarith) (by linarith)
    rwa [e0] at this)
  filter_upwards [key, lt_mem_nhds (show ph.cell.a0 k / 2 < ph.cell.a0 k by linarith),
    gt_mem_nhds (show ph.cell.a0 k < 2 * ph.cell.a0 k by linarith)] with t ht h1 h2
  have Ft := edge_fine O F k (show 0 < t by linarith)
  have ct := cover D (edgeAt ph k t) s Ft (C24.near_of _ Ft hp) hs L nd (hcov t h1 h2)
  constructor
  · refine ct.1.trans ?_
    show ((onList s ph.atom.length L).flatMap _).Perm _
    rw [ht.1, e0]
    exact c0.1.symm
  · intro x hx he
    obtain ⟨y, hy, hn⟩ := ct.2 ⟨x, hx, he⟩
    exact ht.2 y hy hn

end Pdffit.Deriv
