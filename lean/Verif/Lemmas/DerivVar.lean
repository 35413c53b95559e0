import Verif.Lemmas.DerivPeak
import Mathlib.Tactic.FinCases

/-! # Derivative of one peak with respect to each variable -/

namespace Pdffit.Deriv
open Geom Parser Bonds Det Layout

section vals
variable (p : Pk) (is ip ia ja : ℕ)

theorem val_pos (q : ℕ) (k : Fin 3) : valOf (.pos ip q k) (p.adds is ip ia ja) =
    (if ia = q then p.dgx k else 0) - (if ja = q then p.dgx k else 0) := by
  by_cases h1 : ia = q <;> by_cases h2 : ja = q <;> fin_cases k <;> simp [valOf, Pk.adds, h1, h2]

theorem val_u (q : ℕ) (k : Fin 6) : valOf (.u ip q k) (p.adds is ip ia ja) =
    (if ia = q then p.dgu k else 0) + (if ja = q then p.dgu k else 0) := by
  by_cases h1 : ia = q <;> by_cases h2 : ja = q <;> fin_cases k <;> simp [valOf, Pk.adds, h1, h2]

theorem val_occ (q : ℕ) : valOf (.occ ip q) (p.adds is ip ia ja) =
    (if ia = q then p.T / p.a.occ else 0) + (if ja = q then p.T / p.b.occ else 0) := by
  by_cases h1 : ia = q <;> by_cases h2 : ja = q <;> simp [valOf, Pk.adds, h1, h2]

theorem val_a0 (k : Fin 3) : valOf (.a0 ip k) (p.adds is ip ia ja) = p.dga k := by
  fin_cases k <;> simp [valOf, Pk.adds]

theorem val_win (k : Fin 3) : valOf (.win ip k) (p.adds is ip ia ja) = p.dgw k := by
  fin_cases k <;> simp [valOf, Pk.adds]

theorem val_delta2 : valOf (.delta2 ip) (p.adds is ip ia ja) = -p.dTds * p.dsds2 / p.dist ^ 2 := by
  simp [valOf, Pk.adds]

theorem val_delta1 : valOf (.delta1 ip) (p.adds is ip ia ja) = -p.dTds * p.dsds2 / p.dist := by
  simp [valOf, Pk.adds]

theorem val_sratio : valOf (.sratio ip) (p.adds is ip ia ja) = p.dTds * p.dsdphi := by
  simp [valOf, Pk.adds]

theorem val_qbroad : valOf (.qbroad is) (p.adds is ip ia ja) = p.dTds * p.dsds2 * (2 * p.qbroad * p.dist ^ 2) := by
  simp [valOf, Pk.adds]

end vals

section sharp
variable (D : Data) (ph : PPhase) (is ip : ℕ) (δ : Dec) (F : Fact D ph δ)
include F

theorem delta2_peak : HasDerivAt (fun t => hgt D { ph with delta2 := t } δ) (dval D ph is ip (.delta2 ip) δ) ph.delta2 := by
  have h := hgt_deriv (fun _ => D) (fun t => { ph with delta2 := t }) ph.delta2 δ F (fun _ => ⟨rfl, rfl⟩) (fun _ => rfl)
    0 0 (-(1 / dist2 ph δ.1)) 0 (hasDerivAt_const _ (√(dist2 ph δ.1))) (hasDerivAt_const _ (msdOf ph δ.1))
    (by
      have : HasDerivAt (fun t : ℝ => 1 - t / dist2 ph δ.1 - ph.delta1 / √(dist2 ph δ.1) + D.qbroad ^ 2 * dist2 ph δ.1)
          (-(1 / dist2 ph δ.1)) ph.delta2 :=
        ((((hasDerivAt_id ph.delta2).div_const (dist2 ph δ.1)).const_sub 1).sub_const _).add_const _
      exact this)
    (hasDerivAt_const _ (phiB ph δ.2.2)) _ rfl
  refine h.congr_deriv ?_
  unfold dval
  rw [val_delta2]
  set p := pk D ph δ.1 (√(dist2 ph δ.1)) (sigB D ph δ.1 δ.2.2) δ.2.1 with hp
  have : p.dist ^ 2 = dist2 ph δ.1 := Real.sq_sqrt F.d2.le
  rw [this]
  show p.dTds * (p.dsdsp * (0 / (2 * p.sigmap)) + p.dsds2 * (-(1 / dist2 ph δ.1)) + p.sigma / p.phi * 0) + p.dTdr * 0 = _
  ring

theorem delta1_peak : HasDerivAt (fun t => hgt D { ph with delta1 := t } δ) (dval D ph is ip (.delta1 ip) δ) ph.delta1 := by
  have h := hgt_deriv (fun _ => D) (fun t => { ph with delta1 := t }) ph.delta1 δ F (fun _ => ⟨rfl, rfl⟩) (fun _ => rfl)
    0 0 (-(1 / √(dist2 ph δ.1))) 0 (hasDerivAt_const _ (√(dist2 ph δ.1))) (hasDerivAt_const _ (msdOf ph δ.1))
    (by
      have : HasDerivAt (fun t : ℝ => 1 - ph.delta2 / dist2 ph δ.1 - t / √(dist2 ph δ.1) + D.qbroad ^ 2 * dist2 ph δ.1)
          (-(1 / √(dist2 ph δ.1))) ph.delta1 :=
        (((hasDerivAt_id ph.delta1).div_const (√(dist2 ph δ.1))).const_sub _).add_const _
      exact this)
    (hasDerivAt_const _ (phiB ph δ.2.2)) _ rfl
  refine h.congr_deriv ?_
  unfold dval
  rw [val_delta1]
  set p := pk D ph δ.1 (√(dist2 ph δ.1)) (sigB D ph δ.1 δ.2.2) δ.2.1 with hp
  show p.dTds * (p.dsdsp * (0 / (2 * p.sigmap)) + p.dsds2 * (-(1 / p.dist)) + p.sigma / p.phi * 0) + p.dTdr * 0 = _
  ring

theorem sratio_peak : HasDerivAt (fun t => hgt D { ph with sratio := t } δ) (dval D ph is ip (.sratio ip) δ) ph.sratio := by
  have h := hgt_deriv (fun _ => D) (fun t => { ph with sratio := t }) ph.sratio δ F (fun _ => ⟨rfl, rfl⟩) (fun _ => rfl)
    0 0 0 (if δ.2.2 then 1 else 0) (hasDerivAt_const _ (√(dist2 ph δ.1))) (hasDerivAt_const _ (msdOf ph δ.1))
    (hasDerivAt_const _ (corfact D ph (dist2 ph δ.1)))
    (by
      unfold phiB
      cases δ.2.2
      · simpa using hasDerivAt_const ph.sratio (1 : ℝ)
      · simpa using hasDerivAt_id' ph.sratio) _ rfl
  refine h.congr_deriv ?_
  unfold dval
  rw [val_sratio]
  have hn := F.near
  set p := pk D ph δ.1 (√(dist2 ph δ.1)) (sigB D ph δ.1 δ.2.2) δ.2.1 with hp
  have e : p.dsdphi = p.sigma / p.phi * (if δ.2.2 then 1 else 0) := by
    unfold Pk.dsdphi
    rw [hn]
    by_cases hc : √(dist2 ph δ.1) < ph.rcut
    · rw [if_pos (show p.dist < p.ph.rcut from hc)]; simp [hc]
    · rw [if_neg (show ¬p.dist < p.ph.rcut from hc)]; simp [hc]
  rw [e]
  show p.dTds * (p.dsdsp * (0 / (2 * p.sigmap)) + p.dsds2 * 0 + p.sigma / p.phi * (if δ.2.2 then 1 else 0)) + p.dTdr * 0 = _
  ring

theorem qbroad_peak : HasDerivAt (fun t => hgt { D with qbroad := t } ph δ) (dval D ph is ip (.qbroad is) δ) D.qbroad := by
  have h := hgt_deriv (fun t => { D with qbroad := t }) (fun _ => ph) D.qbroad δ F (fun _ => ⟨rfl, rfl⟩) (fun _ => rfl)
    0 0 (2 * D.qbroad * dist2 ph δ.1) 0 (hasDerivAt_const _ _) (hasDerivAt_const _ _)
    (by
      have : HasDerivAt (fun t : ℝ => 1 - ph.delta2 / dist2 ph δ.1 - ph.delta1 / √(dist2 ph δ.1) + t ^ 2 * dist2 ph δ.1)
          (2 * D.qbroad * dist2 ph δ.1) D.qbroad := by
        refine (((hasDerivAt_id D.qbroad).fun_pow 2).mul_const (dist2 ph δ.1)).const_add _ |>.congr_deriv ?_
        simp
      exact this)
    (hasDerivAt_const _ (phiB ph δ.2.2)) _ rfl
  refine h.congr_deriv ?_
  unfold dval
  rw [val_qbroad]
  set p := pk D ph δ.1 (√(dist2 ph δ.1)) (sigB D ph δ.1 δ.2.2) δ.2.1 with hp
  have : p.dist ^ 2 = dist2 ph δ.1 := Real.sq_sqrt F.d2.le
  rw [this]
  show p.dTds * (p.dsdsp * (0 / (2 * p.sigmap)) + p.dsds2 * (2 * D.qbroad * dist2 ph δ.1) + p.sigma / p.phi * 0) + p.dTdr * 0 =
    p.dTds * p.dsds2 * (2 * D.qbroad * dist2 ph δ.1)
  ring

end sharp

/-! ## Orthogonal cells -/

/-- All angles are right angles, and no edge vanishes. -/
structure Orth (c : Cell) : Prop where
  cos : ∀ k, bcosd (c.win k) = 0
  sin : ∀ k, bsind (c.win k) = 1
  edge : ∀ k, c.a0 k ≠ 0

/-- The quadratic form of the displacement parameters. -/
def quad (u : Fin 6 → ℝ) (d : Fin 3 → ℝ) : ℝ :=
  u 0 * d 0 ^ 2 + u 1 * d 1 ^ 2 + u 2 * d 2 ^ 2 + 2 * u 3 * d 0 * d 1 + 2 * u 4 * d 0 * d 2 + 2 * u 5 * d 1 * d 2

/-- Cartesian difference of the positions. -/
noncomputable def cart (ph : PPhase) (x : (ℕ × ℕ) × (ℤ × ℤ × ℤ)) : Fin 3 → ℝ := fun k => vec ph x k * ph.cell.a0 k

/-- Squared length. -/
def sq3 (d : Fin 3 → ℝ) : ℝ := d 0 ^ 2 + d 1 ^ 2 + d 2 ^ 2

section orth
variable {ph : PPhase} (O : Orth ph.cell)
include O

theorem gten_orth (i j : Fin 3) : ph.toPhs.gten i j = if i = j then ph.cell.a0 i ^ 2 else 0 := by
  unfold Phs.gten tensor
  show (if i ≠ j then if |ph.cell.a0 i * ph.cell.a0 j * bcosd (ph.cell.win (third i j))| < eps then 0
    else ph.cell.a0 i * ph.cell.a0 j * bcosd (ph.cell.win (third i j)) else ph.cell.a0 i * ph.cell.a0 j) = _
  by_cases h : i = j
  · subst h; simp [sq]
  · simp [h, O.cos]

theorem skal_orth (v : Fin 3 → ℝ) : ph.toPhs.skal v v = sq3 fun k => v k * ph.cell.a0 k := by
  unfold Phs.skal skalpro sq3
  simp only [gten_orth O, Fin.sum_univ_three]
  simp
  ring

theorem vol_orth : vol ph.cell = ph.cell.a0 0 * ph.cell.a0 1 * ph.cell.a0 2 := by
  have : voll ph.cell = 1 := by simp [voll, O.cos]
  unfold vol
  rw [this, Real.sqrt_one, one_mul]

theorem rec_orth (k : Fin 3) : recEdge ph.cell k = 1 / ph.cell.a0 k := by
  have h0 := O.edge 0
  have h1 := O.edge 1
  have h2 := O.edge 2
  unfold recEdge
  rw [vol_orth O, O.sin]
  fin_cases k
  · show ph.cell.a0 1 * ph.cell.a0 2 * 1 / _ = 1 / ph.cell.a0 0
    field_simp
  · show ph.cell.a0 2 * ph.cell.a0 0 * 1 / _ = 1 / ph.cell.a0 1
    field_simp
  · show ph.cell.a0 0 * ph.cell.a0 1 * 1 / _ = 1 / ph.cell.a0 2
    field_simp

theorem dist2_orth (x : (ℕ × ℕ) × (ℤ × ℤ × ℤ)) : dist2 ph x = sq3 (cart ph x) := skal_orth O _

theorem msd_orth (x : (ℕ × ℕ) × (ℤ × ℤ × ℤ)) (h : 0 ≤ dist2 ph x) :
    msdOf ph x = quad (fun k => (ph.atm x.1.1).u k + (ph.atm x.1.2).u k) (cart ph x) / dist2 ph x := by
  have h0 := O.edge 0
  have h1 := O.edge 1
  have h2 := O.edge 2
  have e : ∀ i, ∑ j, ph.toPhs.gten i j * (vec ph x j / √(dist2 ph x)) = ph.cell.a0 i ^ 2 * (vec ph x i / √(dist2 ph x)) := by
    intro i
    simp only [gten_orth O, ite_mul, zero_mul]
    simp
  unfold msdOf PPhase.msd
  dsimp only
  simp only [rec_orth O]
  rw [show ph.toPhs.skal (vec ph x) (vec ph x) = dist2 ph x from rfl]
  simp only [e]
  have hs : dist2 ph x = √(dist2 ph x) ^ 2 := (Real.sq_sqrt h).symm
  by_cases hz : √(dist2 ph x) = 0
  · rw [hs, hz]
    simp
  · conv_rhs => rw [hs]
    unfold quad cart
    field_simp

end orth

end Pdffit.Deriv
