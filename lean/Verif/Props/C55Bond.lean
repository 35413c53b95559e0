import Verif.Props.C55
import Verif.Props.C45
import Verif.Props.C20

/-!
# C55, bonds: standard deviations of bond lengths and angles; places where the reported deviations are too small
-/

namespace Pdffit.C55
open Geom Bonds Parser CellErr

/-- The metric tensor without rounding of small elements. -/
noncomputable def exactG (c : Cell) (i j : Fin 3) : ℝ :=
  if i ≠ j then c.a0 i * c.a0 j * bcosd (c.win (third i j)) else c.a0 i * c.a0 j

/-- The tensor of the phase is exact and its deviations cover the change `δ` of the cell. -/
structure Trusted (p : Phs) (δ : Cell) : Prop where
  gten : ∀ i j, p.gten i j = exactG p.cell i j
  dgten : ∀ i j, Covers (fun t => exactG (along p.cell δ t) i j) (p.dgten i j)

/-- Cells without obtuse angles and without small nonzero elements. -/
theorem trusted_of (p : Phs) (δ : Cell) (hw : Within δ p.dcell) (ha : ∀ i, 0 < p.cell.a0 i)
    (hc : ∀ i, 0 ≤ bcosd (p.cell.win i)) (hs : ∀ i, 0 ≤ bsind (p.cell.win i))
    (h1 : ∀ i j, i ≠ j → exactG p.cell i j = 0 ∨ eps ≤ exactG p.cell i j)
    (h2 : ∀ i j, i ≠ j → p.dgten i j ≠ 0 ∨ (p.dcell.a0 i = 0 ∧ p.dcell.a0 j = 0 ∧ p.dcell.win (third i j) = 0)) : Trusted p δ := by
  constructor
  · intro i j
    unfold Phs.gten tensor
    by_cases hij : i = j
    · subst hij
      unfold exactG
      rw [if_neg (by simp), if_neg (by simp)]
    · have e : exactG p.cell i j = p.cell.a0 i * p.cell.a0 j * bcosd (p.cell.win (third i j)) := by
        unfold exactG
        rw [if_pos hij]
      rw [if_pos hij, ← e]
      rcases h1 i j hij with h | h
      · rw [h]
        simp
      · rw [if_neg]
        rw [not_lt]
        exact h.trans (le_abs_self _)
  · intro i j
    by_cases hij : i = j
    · subst hij
      obtain ⟨q, g1, g2⟩ := metric_diagonal hw ha i
      refine ⟨q, ?_, g2⟩
      refine g1.congr_of_eventuallyEq (Filter.Eventually.of_forall fun t => ?_)
      unfold exactG
      dsimp only
      rw [if_neg (by simp)]
    · obtain ⟨q, g1, g2⟩ := metric_offdiagonal_partial hw ha i j hij (hc _) (hs _)
      have g1' : HasDerivAt (fun t => exactG (along p.cell δ t) i j) q 0 := by
        refine g1.congr_of_eventuallyEq (Filter.Eventually.of_forall fun t => ?_)
        unfold exactG
        dsimp only
        rw [if_pos hij]
      have heps : (0 : ℝ) < eps := by unfold eps; positivity
      rcases h2 i j hij with h | ⟨h3, h4, h5⟩
      · refine ⟨q, g1', g2.trans ?_⟩
        have : eps ≤ p.dgten i j := by
          unfold Phs.dgten dtensor at h ⊢
          rw [if_pos hij] at h ⊢
          dsimp only at h ⊢
          split at h
          · exact absurd rfl h
          · rename_i h6
            rw [if_neg h6]
            exact not_lt.1 h6
        exact max_le le_rfl this
      · have z1 : δ.a0 i = 0 := abs_eq_zero.1 (le_antisymm (h3 ▸ hw.a0 i) (abs_nonneg _))
        have z2 : δ.a0 j = 0 := abs_eq_zero.1 (le_antisymm (h4 ▸ hw.a0 j) (abs_nonneg _))
        have z3 : δ.win (third i j) = 0 := abs_eq_zero.1 (le_antisymm (h5 ▸ hw.win _) (abs_nonneg _))
        refine ⟨0, ?_, ?_⟩
        · have : (fun t => exactG (along p.cell δ t) i j) = fun _ => exactG p.cell i j := by
            funext t
            unfold exactG along
            dsimp only
            rw [z1, z2, z3]
            simp
          rw [this]
          exact hasDerivAt_const _ _
        · unfold Phs.dgten dtensor
          rw [if_pos hij]
          dsimp only
          rw [h3, h4, h5]
          simp [heps]

section
variable {p : Phs} {δ : Cell} (T : Trusted p δ)
include T

/-- Scalar product of changing vectors in the changing cell. -/
noncomputable def quad (c δ : Cell) (h k e f : Fin 3 → ℝ) (t : ℝ) : ℝ :=
  ∑ i, ∑ j, (h i + t * e i) * (k j + t * f j) * exactG (along c δ t) i j

omit T in
theorem exactG_zero : exactG (along p.cell δ 0) = exactG p.cell := by
  unfold exactG along
  simp

theorem quad_zero (h k e f : Fin 3 → ℝ) : quad p.cell δ h k e f 0 = p.skal h k := by
  unfold quad Phs.skal skalpro
  simp only [zero_mul, add_zero, exactG_zero, T.gten]

/-- Scalar product. -/
theorem scalar_product {h k e f dh dk : Fin 3 → ℝ} (he : ∀ i, |e i| ≤ dh i) (hf : ∀ i, |f i| ≤ dk i) :
    Covers (quad p.cell δ h k e f) (p.dskal h k dh dk) := by
  choose G' hG hb using T.dgten
  refine ⟨_, HasDerivAt.fun_sum fun i _ => HasDerivAt.fun_sum fun j _ =>
    ((lin_deriv (h i) (e i)).mul (lin_deriv (k j) (f j))).mul (hG i j), ?_⟩
  unfold Phs.dskal
  refine (Finset.abs_sum_le_sum_abs _ _).trans (Finset.sum_le_sum fun i _ => (Finset.abs_sum_le_sum_abs _ _).trans
    (Finset.sum_le_sum fun j _ => ?_))
  simp only [Pi.mul_apply, zero_mul, add_zero, exactG_zero, ← T.gten]
  rw [add_mul]
  have e1 : |e i| ≤ |dh i| := (he i).trans (le_abs_self _)
  have e2 : |f j| ≤ |dk j| := (hf j).trans (le_abs_self _)
  have e3 : |G' i j| ≤ |p.dgten i j| := (hb i j).trans (le_abs_self _)
  refine (abs_add_le _ _).trans (add_le_add ((abs_add_le _ _).trans (add_le_add ?_ ?_)) ?_) <;>
  · simp only [abs_mul]
    gcongr

/-- Length of a vector. -/
theorem length {d e dd : Fin 3 → ℝ} (he : ∀ i, |e i| ≤ dd i) (hp : 0 < √(p.skal d d)) (i j : ℕ) :
    Covers (fun t => √(quad p.cell δ d d e e t)) (mkPair p d dd i j).ddij := by
  obtain ⟨q, h1, h2⟩ := scalar_product T (h := d) (k := d) he he
  have hq : quad p.cell δ d d e e 0 = p.skal d d := quad_zero T ..
  have hne : p.skal d d ≠ 0 := (Real.sqrt_pos.1 hp).ne'
  refine ⟨_, h1.sqrt (by rw [hq]; exact hne), ?_⟩
  unfold mkPair
  dsimp only
  rw [if_pos hp, hq, abs_div, abs_of_pos (by positivity : 0 < 2 * √(p.skal d d))]
  have : 1 / 2 / √(p.skal d d) * p.dskal d d dd dd = p.dskal d d dd dd / (2 * √(p.skal d d)) := by ring
  rw [this]
  gcongr

/-- Bond lengths: the two atoms move within their deviations, and the cell changes. -/
theorem bond_length (hi : ∀ k, 0 < p.icc k) (i j : ℤ) (r : PairDist) (h : bondLengthAtoms p i j = .ok r) (hp : 0 < r.dij) :
    ∃ ai aj n, p.atom[(i - 1).toNat]? = some ai ∧ p.atom[(j - 1).toNat]? = some aj ∧
      (∃ m : Fin 3 → ℤ, ∀ k, n k = ai.pos k - aj.pos k + m k * p.icc k) ∧ r.dij = √(p.skal n n) ∧
      ∀ ei ej : Fin 3 → ℝ, (∀ k, |ei k| ≤ ai.dpos k) → (∀ k, |ej k| ≤ aj.dpos k) →
        Covers (fun t => √(quad p.cell δ n n (fun k => ei k - ej k) (fun k => ei k - ej k) t)) r.ddij := by
  obtain ⟨ai, aj, h1, h2, rfl⟩ := C20.result h
  obtain ⟨m, hm⟩ := makeNearest_equiv p hi fun k => ai.pos k - aj.pos k
  refine ⟨ai, aj, makeNearest p fun k => ai.pos k - aj.pos k, h1, h2, ⟨m, hm⟩, rfl, fun ei ej b1 b2 => ?_⟩
  exact length T (fun k => (abs_sub _ _).trans (add_le_add (b1 k) (b2 k))) hp _ _

end

/-- Derivative of an angle. -/
theorem angle_deriv {X Y Z : ℝ → ℝ} {x y z : ℝ} (hX : HasDerivAt X x 0) (hY : HasDerivAt Y y 0) (hZ : HasDerivAt Z z 0) (pX : 0 < X 0)
    (pY : 0 < Y 0) (h1 : -1 < Z 0 / (√(X 0) * √(Y 0))) (h2 : Z 0 / (√(X 0) * √(Y 0)) < 1) :
    HasDerivAt (fun t => bacosd (Z t / (√(X t) * √(Y t))))
      (-(1 / √(1 - (Z 0 / (√(X 0) * √(Y 0))) ^ 2)) * (z / (√(X 0) * √(Y 0)) -
        Z 0 / (√(X 0) * √(Y 0)) / √(X 0) * (x / (2 * √(X 0))) - Z 0 / (√(X 0) * √(Y 0)) / √(Y 0) * (y / (2 * √(Y 0)))) / rad) 0 := by
  have p1 := Real.sqrt_pos.2 pX
  have p2 := Real.sqrt_pos.2 pY
  have hd := hZ.div ((hX.sqrt pX.ne').mul (hY.sqrt pY.ne')) (mul_ne_zero p1.ne' p2.ne')
  have hac := (Real.hasDerivAt_arccos (x := Z 0 / (√(X 0) * √(Y 0))) h1.ne' h2.ne).comp (0 : ℝ) hd
  refine (hac.div_const rad).congr_deriv ?_
  congr 2
  simp only [Pi.mul_apply]
  field_simp
  ring

/-- (partial) Bond angles of less than or equal to 90 degrees. Missing: obtuse angles (`bond_angle_obtuse`), and angles of 0 and 180 degrees,
where the angle is not differentiable. -/
theorem bond_angle_partial {p : Phs} {δ : Cell} (T : Trusted p δ) {x y dx dy e f : Fin 3 → ℝ} {ang dang : ℝ}
    (h : angle p x y dx dy = some (ang, dang)) (he : ∀ i, |e i| ≤ dx i) (hf : ∀ i, |f i| ≤ dy i) (h0 : 0 ≤ p.skal x y)
    (h1 : p.skal x y < √(p.skal x x) * √(p.skal y y)) :
    ang = bacosd (p.skal x y / (√(p.skal x x) * √(p.skal y y))) ∧
      Covers (fun t => bacosd (quad p.cell δ x y e f t / (√(quad p.cell δ x x e e t) * √(quad p.cell δ y y f f t)))) dang := by
  obtain ⟨qx, hx, bx⟩ := scalar_product T (h := x) (k := x) he he
  obtain ⟨qy, hy, bY⟩ := scalar_product T (h := y) (k := y) hf hf
  obtain ⟨qz, hz, bz⟩ := scalar_product T (h := x) (k := y) he hf
  have zx : quad p.cell δ x x e e 0 = p.skal x x := quad_zero T ..
  have zy : quad p.cell δ y y f f 0 = p.skal y y := quad_zero T ..
  have zz : quad p.cell δ x y e f 0 = p.skal x y := quad_zero T ..
  unfold angle at h
  split at h
  · cases h
  rename_i hne
  have px : 0 < √(p.skal x x) := lt_of_le_of_ne (Real.sqrt_nonneg _) (Ne.symm (left_ne_zero_of_mul hne))
  have py : 0 < √(p.skal y y) := lt_of_le_of_ne (Real.sqrt_nonneg _) (Ne.symm (right_ne_zero_of_mul hne))
  simp only [Option.some.injEq, Prod.mk.injEq] at h
  have hlt : p.skal x y / (√(p.skal x x) * √(p.skal y y)) < 1 := (div_lt_one (by positivity)).2 h1
  have hge : 0 ≤ p.skal x y / (√(p.skal x x) * √(p.skal y y)) := by positivity
  refine ⟨h.1.symm, _, angle_deriv hx hy hz (by rw [zx]; exact Real.sqrt_pos.1 px) (by rw [zy]; exact Real.sqrt_pos.1 py)
    (by rw [zx, zy, zz]; linarith) (by rw [zx, zy, zz]; exact hlt), ?_⟩
  rw [zx, zy, zz, ← h.2, if_pos hlt.ne]
  generalize p.skal x y / (√(p.skal x x) * √(p.skal y y)) = g at *
  generalize √(p.skal x x) = a at *
  generalize √(p.skal y y) = b at *
  have hrp := rad_pos
  have sp : 0 < √(1 - g ^ 2) := Real.sqrt_pos.2 (by nlinarith)
  have key : |qz / (a * b) - g / a * (qx / (2 * a)) - g / b * (qy / (2 * b))| ≤
      1 / (a * b) * p.dskal x y dx dy + g / a * (1 / 2 / a * p.dskal x x dx dx) + g / b * (1 / 2 / b * p.dskal y y dy dy) := by
    rw [sub_sub]
    refine (abs_sub _ _).trans ?_
    rw [add_assoc]
    refine add_le_add ?_ ((abs_add_le _ _).trans (add_le_add ?_ ?_))
    · rw [abs_div, abs_of_pos (by positivity : 0 < a * b), div_eq_mul_one_div, mul_comm]
      gcongr
    · rw [abs_mul, abs_of_nonneg (by positivity : 0 ≤ g / a), abs_div, abs_of_pos (by positivity : 0 < 2 * a)]
      have : 1 / 2 / a * p.dskal x x dx dx = p.dskal x x dx dx / (2 * a) := by ring
      rw [this]
      gcongr
    · rw [abs_mul, abs_of_nonneg (by positivity : 0 ≤ g / b), abs_div, abs_of_pos (by positivity : 0 < 2 * b)]
      have : 1 / 2 / b * p.dskal y y dy dy = p.dskal y y dy dy / (2 * b) := by ring
      rw [this]
      gcongr
  rw [abs_div, abs_mul, abs_neg, abs_mul (1 / √(1 - g * g) / rad), abs_div _ rad, abs_of_pos hrp, ← sq,
    abs_of_pos (by positivity : 0 < 1 / √(1 - g ^ 2))]
  have := key.trans (le_abs_self _)
  calc 1 / √(1 - g ^ 2) * |qz / (a * b) - g / a * (qx / (2 * a)) - g / b * (qy / (2 * b))| / rad
      = 1 / √(1 - g ^ 2) / rad * |qz / (a * b) - g / a * (qx / (2 * a)) - g / b * (qy / (2 * b))| := by ring
    _ ≤ _ := by gcongr

/-! ## Violations -/

theorem not_covers {q : ℝ → ℝ} {q' dev : ℝ} (h : HasDerivAt q q' 0) (hd : dev < |q'|) : ¬Covers q dev := by
  rintro ⟨r, h1, h2⟩
  rw [h1.unique h] at h2
  exact absurd h2 (not_le.2 hd)

/-- A hexagonal cell. -/
noncomputable def hex : Cell := ⟨![1, 1, 1], ![90, 90, 120]⟩

theorem hex_voll : voll hex = 3 / 4 := by
  simp [voll, hex, C45.cosd90, C45.cosd120]
  norm_num

theorem sin120 : bsind 120 = √3 / 2 := by
  unfold bsind rad
  rw [show Real.pi / 180 * 120 = Real.pi - Real.pi / 3 by ring, Real.sin_pi_sub, Real.sin_pi_div_three]

/-- **Violation**: the deviation of the metric tensor between edges at 120 degrees is reported as zero when only the edges are uncertain. -/
theorem metric_obtuse : ∃ d δ : Cell, Within δ d ∧ dtensor hex.a0 hex.win d.a0 d.win 0 1 = 0 ∧
    ¬Covers (fun t => exactG (along hex δ t) 0 1) (dtensor hex.a0 hex.win d.a0 d.win 0 1) := by
  refine ⟨⟨![1 / 10, 0, 0], 0⟩, ⟨![1 / 10, 0, 0], 0⟩, ⟨fun i => ?_, fun i => ?_⟩, ?_⟩
  · fin_cases i <;> simp
  · fin_cases i <;> simp
  have hd : dtensor hex.a0 hex.win ![1 / 10, 0, 0] 0 0 1 = 0 := by
    unfold dtensor
    rw [if_pos (by decide)]
    dsimp only
    rw [if_pos]
    have : third 0 1 = 2 := by decide
    rw [this]
    simp [hex, C45.cosd120]
    have : (0 : ℝ) < eps := by unfold eps; positivity
    linarith
  refine ⟨hd, ?_⟩
  rw [hd]
  have hq : HasDerivAt (fun t => exactG (along hex ⟨![1 / 10, 0, 0], 0⟩ t) 0 1) (-(1 / 20)) 0 := by
    have : (fun t => exactG (along hex ⟨![1 / 10, 0, 0], 0⟩ t) 0 1) = fun t : ℝ => -(1 / 2) + t * -(1 / 20) := by
      funext t
      unfold exactG along
      rw [if_pos (by decide)]
      have : third 0 1 = 2 := by decide
      rw [this]
      simp [hex, C45.cosd120]
      ring
    rw [this]
    exact lin_deriv _ _
  exact not_covers hq (by norm_num)

/-- **Violation**: the reported deviation of a reciprocal angle can be negative. -/
theorem reciprocal_angle_negative : ∃ d : Cell, (∀ i, 0 ≤ d.a0 i) ∧ (∀ i, 0 ≤ d.win i) ∧ dwrez hex d 0 < 0 := by
  refine ⟨⟨0, ![0, 1, 0]⟩, fun i => le_rfl, fun i => by fin_cases i <;> simp, ?_⟩
  have hs : bsind 120 ≠ 0 := by rw [sin120]; positivity
  have h0 : recArg hex 0 = 0 := by
    simp [recArg, hex, C45.cosd90]
  have hr := rad_pos
  unfold dwrez
  rw [h0]
  have : darg hex ⟨0, ![0, 1, 0]⟩ 0 = -(rad / √3) := by
    unfold darg
    rw [h0]
    simp [hex, C45.cosd90, C45.sind90, C45.cosd120, sin120]
    field_simp
  rw [this, mul_zero, sub_zero, Real.sqrt_one]
  have : 1 / 1 * -(rad / √3) / rad = -(1 / √3) := by field_simp
  rw [this, neg_lt_zero]
  positivity

/-- **Violation**: for more than one unit cell the deviation of the number density is not that of the number density: the contributions of
the occupancies and of the volume are too large by the number of cells. -/
theorem number_density_supercell (ncc : ℕ) (hn : 0 < ncc) (np v dnp dv : ℝ) (hv : 0 < v) :
    HasDerivAt (fun t => rho0 ncc (np + t * dnp) v) (dnp / (ncc * v)) 0 ∧
    HasDerivAt (fun t => rho0 ncc np (v + t * dv)) (-(np * dv / (ncc * v ^ 2))) 0 ∧
    drho0 np v dnp dv = ncc * √((dnp / (ncc * v)) ^ 2 + (np * dv / (ncc * v ^ 2)) ^ 2) := by
  have hn' : (0 : ℝ) < ncc := by exact_mod_cast hn
  refine ⟨?_, ?_, ?_⟩
  · exact (lin_deriv np dnp).div_const _
  · have h := (hasDerivAt_const (0 : ℝ) np).div ((lin_deriv v dv).const_mul (ncc : ℝ)) (by simpa using ⟨hn.ne', hv.ne'⟩)
    refine h.congr_deriv ?_
    simp only [zero_mul, add_zero, zero_sub]
    field_simp
  · unfold drho0
    rw [← Real.sqrt_sq hn'.le, ← Real.sqrt_mul (by positivity)]
    rw [Real.sqrt_sq hn'.le]
    congr 1
    field_simp

/-- Number density of one unit cell: root of the sum of the squares of the two contributions. -/
theorem number_density_partial (np v dnp dv : ℝ) (hv : 0 < v) : ∃ q1 q2, HasDerivAt (fun t => rho0 1 (np + t * dnp) v) q1 0 ∧
    HasDerivAt (fun t => rho0 1 np (v + t * dv)) q2 0 ∧ drho0 np v dnp dv = √(q1 ^ 2 + q2 ^ 2) := by
  obtain ⟨h1, h2, h3⟩ := number_density_supercell 1 one_pos np v dnp dv hv
  refine ⟨_, _, h1, h2, ?_⟩
  rw [h3, neg_sq]
  simp

/-- Three atoms in a cubic cell; only the position of the first one is uncertain. -/
noncomputable def bent : Phs where
  cell := ⟨![1, 1, 1], ![90, 90, 90]⟩
  dcell := ⟨0, 0⟩
  icc := fun _ => 1
  atom := [⟨![-(1 / 10), -(1 / 10), 0], ![1 / 100, 1 / 100, 0], 0⟩, ⟨0, 0, 0⟩, ⟨![1 / 5, 1 / 10, 0], 0, 0⟩]

theorem bent90 : ∀ k, bent.cell.win k = 90 := by intro k; fin_cases k <;> rfl
theorem bent1 : ∀ k, bent.cell.a0 k = 1 := by intro k; fin_cases k <;> rfl

theorem bent_gten (i j : Fin 3) : bent.gten i j = if i = j then 1 else 0 := by
  unfold Phs.gten tensor
  by_cases hij : i = j
  · rw [if_neg (by simpa using hij), if_pos hij, bent1, bent1, one_mul]
  · rw [if_pos hij, if_neg hij, bent90, C45.cosd90, mul_zero, abs_zero, if_pos C45.eps_pos]

theorem bent_dgten (i j : Fin 3) : bent.dgten i j = 0 := by
  unfold Phs.dgten dtensor
  by_cases hij : i = j
  · rw [if_neg (by simpa using hij)]
    simp [bent]
  · rw [if_pos hij]
    simp [bent]

theorem bent_exactG (t : ℝ) (i j : Fin 3) : exactG (along bent.cell ⟨0, 0⟩ t) i j = if i = j then 1 else 0 := by
  unfold exactG along
  by_cases hij : i = j
  · rw [if_neg (by simpa using hij), if_pos hij]
    simp [bent1]
  · rw [if_pos hij, if_neg hij]
    simp [bent90, C45.cosd90]

theorem bent_trusted : Trusted bent ⟨0, 0⟩ := by
  constructor
  · intro i j
    have := bent_exactG 0 i j
    rw [exactG_zero] at this
    rw [bent_gten, this]
  · intro i j
    refine ⟨0, ?_, by rw [bent_dgten, abs_zero]⟩
    have : (fun t => exactG (along bent.cell ⟨0, 0⟩ t) i j) = fun _ => if i = j then 1 else 0 := funext fun t => bent_exactG t i j
    rw [this]
    exact hasDerivAt_const _ _

theorem bent_small (x : Fin 3 → ℝ) (hx : ∀ k, |x k| < 1) : makeNearest bent x = x := by
  unfold makeNearest
  rw [if_pos (Or.inr bent90)]
  funext k
  exact fmodK_small (by simp [bent]) (by simpa [bent] using hx k)

theorem bent_skal (x y : Fin 3 → ℝ) : bent.skal x y = x 0 * y 0 + x 1 * y 1 + x 2 * y 2 := by
  unfold Phs.skal
  rw [skalpro_exp]
  simp [bent_gten]

theorem bent_dskal (h k dh dk : Fin 3 → ℝ) : bent.dskal h k dh dk =
    |dh 0 * k 0| + |h 0 * dk 0| + (|dh 1 * k 1| + |h 1 * dk 1|) + (|dh 2 * k 2| + |h 2 * dk 2|) := by
  unfold Phs.dskal
  simp [Fin.sum_univ_three, bent_gten, bent_dgten]

theorem bent_quad (h k e f : Fin 3 → ℝ) (t : ℝ) : quad bent.cell ⟨0, 0⟩ h k e f t =
    (h 0 + t * e 0) * (k 0 + t * f 0) + (h 1 + t * e 1) * (k 1 + t * f 1) + (h 2 + t * e 2) * (k 2 + t * f 2) := by
  unfold quad
  simp only [bent_exactG]
  simp [Fin.sum_univ_three]

theorem flat (a b : ℝ) : (![a, b, 0] : Fin 3 → ℝ) 2 = 0 := rfl

theorem bent_x : makeNearest bent (fun k => (0 : Fin 3 → ℝ) k - ![-(1 / 10), -(1 / 10), 0] k) = ![1 / 10, 1 / 10, 0] := by
  rw [bent_small]
  · funext k; fin_cases k <;> simp
  · intro k; fin_cases k <;> simp <;> norm_num

theorem bent_y : makeNearest bent (fun k => (0 : Fin 3 → ℝ) k - ![1 / 5, 1 / 10, 0] k) = ![-(1 / 5), -(1 / 10), 0] := by
  rw [bent_small]
  · funext k; fin_cases k <;> simp
  · intro k; fin_cases k <;> simp <;> norm_num

/-- **Violation**: an obtuse bond angle is reported with deviation zero, but it changes when the first atom moves within its deviation. -/
theorem bond_angle_obtuse : ∃ ang, bondAngle bent 1 2 3 = .ok (some (ang, 0)) ∧ ∃ e : Fin 3 → ℝ,
    (∀ k, |e k| ≤ (![1 / 100, 1 / 100, 0] : Fin 3 → ℝ) k) ∧
    ¬Covers (fun t => bacosd (quad bent.cell ⟨0, 0⟩ ![1 / 10, 1 / 10, 0] ![-(1 / 5), -(1 / 10), 0] e 0 t /
      (√(quad bent.cell ⟨0, 0⟩ ![1 / 10, 1 / 10, 0] ![1 / 10, 1 / 10, 0] e e t) *
        √(quad bent.cell ⟨0, 0⟩ ![-(1 / 5), -(1 / 10), 0] ![-(1 / 5), -(1 / 10), 0] 0 0 t)))) 0 := by
  have hxx : bent.skal ![1 / 10, 1 / 10, 0] ![1 / 10, 1 / 10, 0] = 1 / 50 := by rw [bent_skal]; norm_num [flat]
  have hyy : bent.skal ![-(1 / 5), -(1 / 10), 0] ![-(1 / 5), -(1 / 10), 0] = 1 / 20 := by rw [bent_skal]; norm_num [flat]
  have hxy : bent.skal ![1 / 10, 1 / 10, 0] ![-(1 / 5), -(1 / 10), 0] = -(3 / 100) := by rw [bent_skal]; norm_num [flat]
  have sp : (0 : ℝ) < √(1 / 50) := by positivity
  have sq : (0 : ℝ) < √(1 / 20) := by positivity
  have s1 : √(1 / 50) * √(1 / 50) = (1 / 50 : ℝ) := Real.mul_self_sqrt (by norm_num)
  have s2 : √(1 / 20) * √(1 / 20) = (1 / 20 : ℝ) := Real.mul_self_sqrt (by norm_num)
  have s3 : (√(1 / 50) * √(1 / 20)) ^ 2 = (1 / 1000 : ℝ) := by rw [mul_pow, pow_two, pow_two, s1, s2]; norm_num
  have d1 : bent.dskal ![1 / 10, 1 / 10, 0] ![1 / 10, 1 / 10, 0] ![1 / 100, 1 / 100, 0] ![1 / 100, 1 / 100, 0] = 1 / 250 := by
    rw [bent_dskal]
    norm_num [flat]
  have d2 : bent.dskal ![-(1 / 5), -(1 / 10), 0] ![-(1 / 5), -(1 / 10), 0] ![0, 0, 0] ![0, 0, 0] = 0 := by
    rw [bent_dskal]
    norm_num [flat]
  have d3 : bent.dskal ![1 / 10, 1 / 10, 0] ![-(1 / 5), -(1 / 10), 0] ![1 / 100, 1 / 100, 0] ![0, 0, 0] = 3 / 1000 := by
    rw [bent_dskal]
    norm_num [abs_mul, flat]
  refine ⟨bacosd (-(3 / 100) / (√(1 / 50) * √(1 / 20))), ?_, ![1 / 100, -(1 / 100), 0], fun k => by fin_cases k <;> simp, ?_⟩
  · have hb : bondAngle bent 1 2 3 = .ok (angle bent (makeNearest bent (fun k => (0 : Fin 3 → ℝ) k - ![-(1 / 10), -(1 / 10), 0] k))
        (makeNearest bent (fun k => (0 : Fin 3 → ℝ) k - ![1 / 5, 1 / 10, 0] k))
        (fun k => (0 : Fin 3 → ℝ) k + ![1 / 100, 1 / 100, 0] k) (fun k => (0 : Fin 3 → ℝ) k + (0 : Fin 3 → ℝ) k)) := rfl
    have e1 : (fun k => (0 : Fin 3 → ℝ) k + (![1 / 100, 1 / 100, 0] : Fin 3 → ℝ) k) = ![1 / 100, 1 / 100, 0] := by funext k; simp
    have e2 : (fun k => (0 : Fin 3 → ℝ) k + (0 : Fin 3 → ℝ) k) = ![0, 0, 0] := by funext k; fin_cases k <;> simp
    rw [hb, bent_x, bent_y, e1, e2]
    unfold angle
    rw [hxx, hyy, hxy, if_neg (by positivity), d1, d2, d3]
    dsimp only
    congr 3
    have hz : 1 / (√(1 / 50) * √(1 / 20)) * (3 / 1000) + -(3 / 100) / (√(1 / 50) * √(1 / 20)) / √(1 / 50) * (1 / 2 / √(1 / 50) * (1 / 250)) +
        -(3 / 100) / (√(1 / 50) * √(1 / 20)) / √(1 / 20) * (1 / 2 / √(1 / 20) * 0) = (0 : ℝ) := by
      have : -(3 / 100) / (√(1 / 50) * √(1 / 20)) / √(1 / 50) * (1 / 2 / √(1 / 50) * (1 / 250)) =
          -(3 / 50000) / (√(1 / 50) * √(1 / 20)) / (√(1 / 50) * √(1 / 50)) := by
        field_simp
        norm_num
      rw [this, s1]
      field_simp
      norm_num
    rw [hz, mul_zero, abs_zero, ite_self]
  · have hX : HasDerivAt (quad bent.cell ⟨0, 0⟩ ![1 / 10, 1 / 10, 0] ![1 / 10, 1 / 10, 0] ![1 / 100, -(1 / 100), 0] ![1 / 100, -(1 / 100), 0]) 0 0 := by
      have : quad bent.cell ⟨0, 0⟩ ![1 / 10, 1 / 10, 0] ![1 / 10, 1 / 10, 0] ![1 / 100, -(1 / 100), 0] ![1 / 100, -(1 / 100), 0] =
          fun t : ℝ => 1 / 50 + (1 / 5000) * t ^ 2 := by
        funext t
        rw [bent_quad]
        simp
        ring
      rw [this]
      have := (((hasDerivAt_id (0 : ℝ)).pow 2).const_mul (1 / 5000)).const_add (1 / 50)
      simpa using this
    have hY : HasDerivAt (quad bent.cell ⟨0, 0⟩ ![-(1 / 5), -(1 / 10), 0] ![-(1 / 5), -(1 / 10), 0] 0 0) 0 0 := by
      have : quad bent.cell ⟨0, 0⟩ ![-(1 / 5), -(1 / 10), 0] ![-(1 / 5), -(1 / 10), 0] 0 0 = fun _ : ℝ => 1 / 20 := by
        funext t
        rw [bent_quad]
        simp
        norm_num
      rw [this]
      exact hasDerivAt_const _ _
    have hZ : HasDerivAt (quad bent.cell ⟨0, 0⟩ ![1 / 10, 1 / 10, 0] ![-(1 / 5), -(1 / 10), 0] ![1 / 100, -(1 / 100), 0] 0) (-(1 / 1000)) 0 := by
      have : quad bent.cell ⟨0, 0⟩ ![1 / 10, 1 / 10, 0] ![-(1 / 5), -(1 / 10), 0] ![1 / 100, -(1 / 100), 0] 0 =
          fun t : ℝ => -(3 / 100) + t * -(1 / 1000) := by
        funext t
        rw [bent_quad]
        simp
        ring
      rw [this]
      exact lin_deriv _ _
    have zx := quad_zero bent_trusted ![1 / 10, 1 / 10, 0] ![1 / 10, 1 / 10, 0] ![1 / 100, -(1 / 100), 0] ![1 / 100, -(1 / 100), 0]
    have zy := quad_zero bent_trusted ![-(1 / 5), -(1 / 10), 0] ![-(1 / 5), -(1 / 10), 0] 0 0
    have zz := quad_zero bent_trusted ![1 / 10, 1 / 10, 0] ![-(1 / 5), -(1 / 10), 0] ![1 / 100, -(1 / 100), 0] 0
    rw [hxx] at zx
    rw [hyy] at zy
    rw [hxy] at zz
    have p12 : 0 < √(1 / 50) * √(1 / 20) := mul_pos sp sq
    have hlow : -1 < -(3 / 100) / (√(1 / 50) * √(1 / 20)) := by
      rw [lt_div_iff₀ p12]
      have : (3 / 100 : ℝ) < √(1 / 50) * √(1 / 20) := by
        by_contra hc
        have := mul_self_le_mul_self p12.le (not_lt.1 hc)
        rw [← pow_two, s3] at this
        norm_num at this
      linarith
    have hup : -(3 / 100) / (√(1 / 50) * √(1 / 20)) < 1 := by
      rw [div_lt_iff₀ p12]
      linarith
    refine not_covers (angle_deriv hX hY hZ (by rw [zx]; norm_num) (by rw [zy]; norm_num) (by rw [zx, zy, zz]; exact hlow)
      (by rw [zx, zy, zz]; exact hup)) ?_
    rw [zx, zy, zz]
    have p3 : 0 < √(1 - (-(3 / 100) / (√(1 / 50) * √(1 / 20))) ^ 2) := by
      apply Real.sqrt_pos.2
      nlinarith
    have hr := rad_pos
    rw [abs_pos]
    simp only [zero_div, mul_zero, sub_zero]
    have : -(1 / 1000) / (√(1 / 50) * √(1 / 20)) ≠ (0 : ℝ) := div_ne_zero (by norm_num) p12.ne'
    exact div_ne_zero (mul_ne_zero (neg_ne_zero.2 (by positivity)) this) hr.ne'

/-! ## Examples -/

/-- A monoclinic cell with uncertain parameters. -/
noncomputable def mono : Cell := ⟨![3, 4, 5], ![90, 60, 90]⟩

theorem mono_voll : voll mono = 3 / 4 := by
  simp [voll, mono, C45.cosd90, C20.cosd60]
  norm_num

theorem sin60 : bsind 60 = √3 / 2 := by
  unfold bsind rad
  rw [show Real.pi / 180 * 60 = Real.pi / 3 by ring, Real.sin_pi_div_three]

/-- The theorems about the cell apply to it, and the reported deviation of the volume is not zero. -/
example : Covers (fun t => vol (along mono ⟨![1 / 10, 0, -(1 / 10)], ![0, 1, 0]⟩ t)) (dv mono ⟨![1 / 10, 0, 1 / 10], ![0, 1, 0]⟩) ∧
    Covers (fun t => recEdge (along mono ⟨![1 / 10, 0, -(1 / 10)], ![0, 1, 0]⟩ t) 0) (dar mono ⟨![1 / 10, 0, 1 / 10], ![0, 1, 0]⟩ 0) ∧
    0 < dv mono ⟨![1 / 10, 0, 1 / 10], ![0, 1, 0]⟩ := by
  have hw : Within ⟨![1 / 10, 0, -(1 / 10)], ![0, 1, 0]⟩ ⟨![1 / 10, 0, 1 / 10], ![0, 1, 0]⟩ :=
    ⟨fun i => by fin_cases i <;> simp, fun i => by fin_cases i <;> simp⟩
  have ha : ∀ i, 0 < mono.a0 i := by intro i; fin_cases i <;> simp [mono]
  have hs : ∀ i, 0 < bsind (mono.win i) := by intro i; fin_cases i <;> simp [mono, C45.sind90, sin60]
  have hv : 0 < voll mono := by rw [mono_voll]; norm_num
  refine ⟨volume hw hv ha, reciprocal_edge hw hv ha hs 0, ?_⟩
  have h2 : 0 ≤ dvoll mono ⟨![1 / 10, 0, 1 / 10], ![0, 1, 0]⟩ := by
    unfold dvoll dcos abscos
    positivity
  have sp := Real.sqrt_pos.2 hv
  unfold dv
  have : 0 < √(voll mono) * (1 / 10 * 4 * 5 + 3 * 0 * 5 + 3 * 4 * (1 / 10)) := by positivity
  have : 0 ≤ 0.5 / √(voll mono) * dvoll mono ⟨![1 / 10, 0, 1 / 10], ![0, 1, 0]⟩ * 3 * 4 * 5 := by positivity
  show 0 < 0.5 / √(voll mono) * dvoll mono ⟨![1 / 10, 0, 1 / 10], ![0, 1, 0]⟩ * 3 * 4 * 5 +
    √(voll mono) * (1 / 10 * 4 * 5 + 3 * 0 * 5 + 3 * 4 * (1 / 10))
  linarith

/-- A bond length of the example above. -/
example : ∃ r, bondLengthAtoms bent 1 2 = .ok r ∧ 0 < r.dij ∧ 0 < r.ddij ∧ ∃ n : Fin 3 → ℝ,
    Covers (fun t => √(quad bent.cell ⟨0, 0⟩ n n (fun k => ![1 / 100, -(1 / 200), 0] k - 0) (fun k => ![1 / 100, -(1 / 200), 0] k - 0) t)) r.ddij := by
  have hb : bondLengthAtoms bent 1 2 = .ok (mkPair bent (makeNearest bent fun k => ![-(1 / 10), -(1 / 10), 0] k - (0 : Fin 3 → ℝ) k)
    (fun k => ![1 / 100, 1 / 100, 0] k + (0 : Fin 3 → ℝ) k) 1 2) := rfl
  have hm : makeNearest bent (fun k => ![-(1 / 10), -(1 / 10), 0] k - (0 : Fin 3 → ℝ) k) = ![-(1 / 10), -(1 / 10), 0] := by
    rw [bent_small]
    · funext k; simp
    · intro k; fin_cases k <;> simp <;> norm_num
  have hs : bent.skal ![-(1 / 10), -(1 / 10), 0] ![-(1 / 10), -(1 / 10), 0] = 1 / 50 := by rw [bent_skal]; norm_num [flat]
  have hd : bent.dskal ![-(1 / 10), -(1 / 10), 0] ![-(1 / 10), -(1 / 10), 0] (fun k => ![1 / 100, 1 / 100, 0] k + (0 : Fin 3 → ℝ) k)
      (fun k => ![1 / 100, 1 / 100, 0] k + (0 : Fin 3 → ℝ) k) = 1 / 250 := by
    rw [bent_dskal]
    norm_num [abs_mul, flat]
  have sp : (0 : ℝ) < √(1 / 50) := by positivity
  refine ⟨_, hb, ?_, ?_, ![-(1 / 10), -(1 / 10), 0], ?_⟩
  · show 0 < √(bent.skal _ _)
    rw [hm, hs]
    exact sp
  · unfold mkPair
    dsimp only
    rw [hm, hs, if_pos sp, hd]
    positivity
  · rw [hm]
    refine length bent_trusted (fun k => ?_) (by rw [hs]; exact sp) 1 2
    fin_cases k <;> simp <;> norm_num [abs_of_pos]

end Pdffit.C55
