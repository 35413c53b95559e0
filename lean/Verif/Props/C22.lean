import Verif.Props.C20

/-!
# C22: bond_angle is a symmetric angle between 0 and 180 degrees

Proved when neither end atom is an image of the middle atom. If one is (two atoms with distinct coordinates can be
images of each other, `not_a_number`) the angle is `0/0`.
-/

namespace Pdffit.C22
open Geom Parser Bonds

/-- Exactly the invalid or equal indices raise `ValueError`. -/
theorem valid (p : Phs) (i j k : ℤ) : (bondAngle p i j k = .err .value ↔
    ¬ ((1 ≤ i ∧ i ≤ p.atom.length) ∧ (1 ≤ j ∧ j ≤ p.atom.length) ∧ (1 ≤ k ∧ k ≤ p.atom.length) ∧ i ≠ j ∧ i ≠ k ∧ j ≠ k)) ∧
    ((1 ≤ i ∧ i ≤ p.atom.length) ∧ (1 ≤ j ∧ j ≤ p.atom.length) ∧ (1 ≤ k ∧ k ≤ p.atom.length) ∧ i ≠ j ∧ i ≠ k ∧ j ≠ k →
      ∃ r, bondAngle p i j k = .ok r) := by
  unfold bondAngle
  split
  · rename_i h
    exact ⟨⟨fun _ => by omega, fun _ => rfl⟩, fun h' => by omega⟩
  split
  · rename_i h
    exact ⟨⟨fun _ => by omega, fun _ => rfl⟩, fun h' => by omega⟩
  · rename_i h1 h2
    obtain ⟨a, ha, -⟩ := at_valid p.atom i (by omega) (by omega)
    obtain ⟨b, hb, -⟩ := at_valid p.atom j (by omega) (by omega)
    obtain ⟨c, hc, -⟩ := at_valid p.atom k (by omega) (by omega)
    rw [ha, hb, hc]
    exact ⟨⟨fun e => by simp at e, fun e => by omega⟩, fun _ => ⟨_, rfl⟩⟩

theorem angle_comm (p : Phs) (x y dx dy : Fin 3 → ℝ) : angle p x y dx dy = angle p y x dy dx := by
  unfold angle
  rw [mul_comm (√(p.skal x x))]
  split
  · rfl
  · dsimp only
    have h1 : p.skal x y = p.skal y x := skalpro_comm _ p.gten_symm x y
    rw [h1, dskal_comm p x y dx dy, mul_comm (√(p.skal x x))]
    have h2 : ∀ a b c : ℝ, a + b + c = a + c + b := fun a b c => by ring
    rw [h2]

/-- The angle and its standard deviation do not depend on the direction in which the bond is named, for all
indices. -/
theorem symmetric (p : Phs) (i j k : ℤ) : bondAngle p i j k = bondAngle p k j i := by
  by_cases h : (1 ≤ i ∧ i ≤ p.atom.length) ∧ (1 ≤ j ∧ j ≤ p.atom.length) ∧ (1 ≤ k ∧ k ≤ p.atom.length) ∧ i ≠ j ∧ i ≠ k ∧ j ≠ k
  · unfold bondAngle
    obtain ⟨a, ha, -⟩ := at_valid p.atom i (by omega) (by omega)
    obtain ⟨b, hb, -⟩ := at_valid p.atom j (by omega) (by omega)
    obtain ⟨c, hc, -⟩ := at_valid p.atom k (by omega) (by omega)
    rw [if_neg (by omega), if_neg (by omega), if_neg (by omega), if_neg (by omega), ha, hb, hc]
    simp only [Res.bind_ok, Res.ok.injEq]
    exact angle_comm p _ _ _ _
  · rw [(valid p i j k).1.2 h, (valid p k j i).1.2 (fun h' => h (by omega))]

theorem acosd_mem (x : ℝ) : 0 ≤ bacosd x ∧ bacosd x ≤ 180 := by
  have hp := Real.pi_pos
  have h1 := Real.arccos_nonneg x
  have h2 := Real.arccos_le_pi x
  have hr : (0 : ℝ) < rad := by unfold rad; positivity
  unfold bacosd
  refine ⟨by positivity, ?_⟩
  rw [div_le_iff₀ hr]
  unfold rad
  linarith

/-- Partial result: for an accepted cell and atoms of which neither end is an image of the middle one, the angle is
a number in [0, 180] and its cosine is the normalised scalar product of two bond vectors (an argument within [-1, 1],
so `acos` is defined). Missing: end atoms that are images of the middle atom, where the result is not a number. -/
theorem range_partial (p : Phs) (m : Metric) (hm : lattice p.cell = .ok m) (ha : ∀ i, p.cell.a0 i ≠ 0)
    (hs : C45.NoSmall p.cell.a0 p.cell.win) (hi : ∀ l, 0 < p.icc l) (i j k : ℤ) (ai aj ak : Atm)
    (hai : p.atom[(i - 1).toNat]? = some ai) (haj : p.atom[(j - 1).toNat]? = some aj)
    (hak : p.atom[(k - 1).toNat]? = some ak)
    (hv : (1 ≤ i ∧ i ≤ p.atom.length) ∧ (1 ≤ j ∧ j ≤ p.atom.length) ∧ (1 ≤ k ∧ k ≤ p.atom.length) ∧ i ≠ j ∧ i ≠ k ∧ j ≠ k)
    (h1 : ¬ Bonds.Equiv p.icc ai.pos aj.pos) (h2 : ¬ Bonds.Equiv p.icc ak.pos aj.pos) :
    ∃ ang dang, bondAngle p i j k = .ok (some (ang, dang)) ∧ 0 ≤ ang ∧ ang ≤ 180 ∧ 0 ≤ dang ∧
      ∃ x y, Bonds.Equiv p.icc (fun l => aj.pos l - ai.pos l) x ∧ Bonds.Equiv p.icc (fun l => aj.pos l - ak.pos l) y ∧
        Real.cos (Real.pi / 180 * ang) * (√(p.skal x x) * √(p.skal y y)) = p.skal x y := by
  have hpos : ∀ x : Fin 3 → ℝ, x ≠ 0 → 0 < p.skal x x := by
    have hg : p.gten = m.gten := by
      unfold lattice at hm
      split at hm
      · simp at hm
      · simp only [Res.ok.injEq] at hm
        rw [← hm]
        rfl
    intro x hx
    have := (C45.direct_partial p.cell m hm ha hs).1 x hx
    unfold Phs.skal
    rw [hg]
    exact this
  have hnn : ∀ x : Fin 3 → ℝ, 0 ≤ skalpro p.gten x x := by
    intro x
    by_cases hx : x = 0
    · subst hx; simp [skalpro]
    · exact (hpos x hx).le
  have key : ∀ (a : Atm), ¬ Bonds.Equiv p.icc a.pos aj.pos → ∀ x, Bonds.Equiv p.icc (fun l => aj.pos l - a.pos l) x → x ≠ 0 := by
    rintro a hne x ⟨s, hs⟩ rfl
    refine hne ⟨-s, fun l => ?_⟩
    have := hs l
    simp only [Pi.zero_apply] at this
    rw [Pi.neg_apply]
    push_cast
    linarith
  obtain ⟨ai', e1, e1'⟩ := at_valid p.atom i (by omega) (by omega)
  obtain ⟨aj', e2, e2'⟩ := at_valid p.atom j (by omega) (by omega)
  obtain ⟨ak', e3, e3'⟩ := at_valid p.atom k (by omega) (by omega)
  rw [hai] at e1'; rw [haj] at e2'; rw [hak] at e3'
  cases e1'; cases e2'; cases e3'
  have ex := makeNearest_equiv p hi fun l => aj.pos l - ai.pos l
  have ey := makeNearest_equiv p hi fun l => aj.pos l - ak.pos l
  set x := makeNearest p fun l => aj.pos l - ai.pos l with hx
  set y := makeNearest p fun l => aj.pos l - ak.pos l with hy
  have px := Real.sqrt_pos.2 (hpos x (key ai h1 x ex))
  have py := Real.sqrt_pos.2 (hpos y (key ak h2 y ey))
  have hne : √(p.skal x x) * √(p.skal y y) ≠ 0 := (mul_pos px py).ne'
  have hc : |p.skal x y / (√(p.skal x x) * √(p.skal y y))| ≤ 1 := by
    rw [abs_div, abs_of_pos (mul_pos px py), div_le_one (mul_pos px py)]
    exact cauchy_abs _ p.gten_symm hnn x y
  unfold bondAngle
  rw [if_neg (by omega), if_neg (by omega), e1, e2, e3]
  simp only [Res.bind_ok, ← hx, ← hy]
  unfold angle
  rw [if_neg hne]
  refine ⟨_, _, rfl, (acosd_mem _).1, (acosd_mem _).2, ?_, x, y, ex, ey, ?_⟩
  · split
    · exact abs_nonneg _
    · exact le_rfl
  · have := C45.cosd_acosd (abs_le.1 hc).1 (abs_le.1 hc).2
    unfold bcosd rad at this
    rw [this, div_mul_cancel₀ _ hne]

/-- Three atoms with different coordinates, two of them images of each other. -/
noncomputable def coincident : Phs where
  cell := ⟨![1, 1, 1], ![90, 90, 90]⟩
  dcell := ⟨0, 0⟩
  icc := fun _ => 1
  atom := [⟨![1, 0, 0], 0, 0⟩, ⟨0, 0, 0⟩, ⟨![1 / 2, 0, 0], 0, 0⟩]

/-- No angle although all three indices and positions differ. -/
theorem not_a_number : bondAngle coincident 1 2 3 = .ok none := by
  show Res.ok (angle coincident _ _ _ _) = _
  have hmn : makeNearest coincident (fun k => (0 : Fin 3 → ℝ) k - (![1, 0, 0] : Fin 3 → ℝ) k) = 0 := by
    have : wrap (fun _ => 1) (fun k => (0 : Fin 3 → ℝ) k - (![1, 0, 0] : Fin 3 → ℝ) k) = 0 := by
      funext k
      unfold wrap fmodK
      fin_cases k <;> norm_num
    unfold makeNearest
    rw [if_pos]
    · exact this
    · left
      intro k
      exact congrFun this k
  rw [hmn]
  unfold angle
  rw [if_pos]
  simp [Phs.skal, skalpro]

/-- A right angle. -/
noncomputable def right : Phs where
  cell := ⟨![1, 1, 1], ![90, 90, 90]⟩
  dcell := ⟨0, 0⟩
  icc := fun _ => 1
  atom := [⟨![1 / 4, 0, 0], 0, 0⟩, ⟨0, 0, 0⟩, ⟨![0, 1 / 4, 0], 0, 0⟩]

theorem small (x : Fin 3 → ℝ) (hx : ∀ k, |x k| < 1) : makeNearest right x = x := by
  unfold makeNearest
  rw [if_pos (Or.inr (by intro k; fin_cases k <;> rfl))]
  funext k
  exact fmodK_small (by simp [right]) (by simpa [right] using hx k)

theorem right_angle : ∃ d, bondAngle right 1 2 3 = .ok (some (90, d)) := by
  show ∃ d, Res.ok (angle right _ _ _ _) = .ok (some (90, d))
  rw [small _ (by intro k; fin_cases k <;> simp <;> norm_num), small _ (by intro k; fin_cases k <;> simp <;> norm_num)]
  have h90 : ∀ k, right.cell.win k = 90 := by intro k; fin_cases k <;> rfl
  have e : ∀ x y : Fin 3 → ℝ, right.skal x y = x 0 * y 0 + x 1 * y 1 + x 2 * y 2 := by
    intro x y
    have h : ∀ i j, right.gten i j = if i = j then 1 else 0 := by
      intro i j
      unfold Phs.gten tensor
      by_cases hij : i = j
      · subst hij; simp; fin_cases i <;> simp [right]
      · rw [if_pos hij, if_neg hij, h90, C45.cosd90, mul_zero, abs_zero, if_pos C45.eps_pos]
    unfold Phs.skal
    rw [skalpro_exp]
    simp [h]
  unfold angle
  simp only [e]
  rw [if_neg]
  · have h0 : bacosd 0 = 90 := by
      unfold bacosd rad
      rw [Real.arccos_zero]
      have := Real.pi_pos.ne'
      field_simp
      norm_num
    refine ⟨_, congrArg (fun x => Res.ok (some (x, _))) (Eq.trans (congrArg bacosd ?_) h0)⟩
    simp
  · have : √((1 / 4 : ℝ) * (1 / 4)) = 1 / 4 := by rw [Real.sqrt_mul_self (by norm_num)]
    simp

end Pdffit.C22
