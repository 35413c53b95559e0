import Verif.Lemmas.DerivDec
import Mathlib.Analysis.SpecialFunctions.Sqrt
import Mathlib.Analysis.SpecialFunctions.ExpDeriv
import Mathlib.Analysis.Calculus.Deriv.Inv
import Mathlib.Analysis.Calculus.Deriv.Pow

/-! # Derivative of one peak -/

namespace Pdffit.Deriv
open Geom Parser Bonds Det Layout

/-- Derivative of a Gaussian with moving centre and width. -/
theorem gaus_deriv (D : Data) (ig : ℤ) (A : ℝ) (r σ : ℝ → ℝ) (r' σ' t₀ : ℝ) (hr : HasDerivAt r r' t₀) (hs : HasDerivAt σ σ' t₀)
    (h0 : σ t₀ ≠ 0) : HasDerivAt (fun t => A * gaus D (r t) (σ t) ig)
      (A * gaus D (r t₀) (σ t₀) ig / σ t₀ *
          ((D.rmin + ig * D.deltar - r t₀) / σ t₀ * ((D.rmin + ig * D.deltar - r t₀) / σ t₀) - 1) * σ' +
        (D.rmin + ig * D.deltar - r t₀) / σ t₀ ^ 2 * (A * gaus D (r t₀) (σ t₀) ig) * r') t₀ := by
  have hp : √(2 * Real.pi) ≠ 0 := (Real.sqrt_pos.2 (by positivity)).ne'
  set rk := D.rmin + ig * D.deltar with hrk
  have h1 : HasDerivAt (fun t => 1 / (√(2 * Real.pi) * σ t)) (-(√(2 * Real.pi) * σ') / (√(2 * Real.pi) * σ t₀) ^ 2) t₀ := by
    have := (hs.const_mul (√(2 * Real.pi))).fun_inv (mul_ne_zero hp h0)
    simpa only [one_div] using this
  have h2 : HasDerivAt (fun t => (rk - r t) / σ t) ((-r' * σ t₀ - (rk - r t₀) * σ') / σ t₀ ^ 2) t₀ :=
    (hr.const_sub rk).div hs h0
  have h3 : HasDerivAt (fun t => -(1 / 2) * ((rk - r t) / σ t) ^ 2)
      (-(1 / 2) * (((2 : ℕ) : ℝ) * ((rk - r t₀) / σ t₀) ^ (2 - 1) * ((-r' * σ t₀ - (rk - r t₀) * σ') / σ t₀ ^ 2))) t₀ :=
    (h2.pow 2).const_mul (-(1 / 2))
  have h4 := (h1.mul h3.exp).const_mul A
  refine HasDerivAt.congr_deriv (f := fun t => A * gaus D (r t) (σ t) ig) h4 ?_
  unfold gaus
  rw [← hrk]
  set E := Real.exp (-(1 / 2) * ((rk - r t₀) / σ t₀) ^ 2)
  push_cast
  field_simp
  ring

/-- Derivative of the width. -/
theorem width_deriv (m c φ : ℝ → ℝ) (m' c' φ' t₀ : ℝ) (hm : HasDerivAt m m' t₀) (hc : HasDerivAt c c' t₀)
    (hp : HasDerivAt φ φ' t₀) (m0 : 0 < m t₀) (c0 : 0 < c t₀) (p0 : φ t₀ ≠ 0) :
    HasDerivAt (fun t => √(m t) * √(c t) * φ t)
      (√(m t₀) * √(c t₀) * φ t₀ / √(m t₀) * (m' / (2 * √(m t₀))) +
        (φ t₀ * √(m t₀)) ^ 2 / (2 * (√(m t₀) * √(c t₀) * φ t₀)) * c' + √(m t₀) * √(c t₀) * φ t₀ / φ t₀ * φ') t₀ := by
  have a : √(m t₀) ≠ 0 := (Real.sqrt_pos.2 m0).ne'
  have b : √(c t₀) ≠ 0 := (Real.sqrt_pos.2 c0).ne'
  have h := ((hm.sqrt m0.ne').fun_mul (hc.sqrt c0.ne')).fun_mul hp
  refine HasDerivAt.congr_deriv (f := fun t => √(m t) * √(c t) * φ t) h ?_
  field_simp

/-- Derivative of the height of a decision along a path of data sets and phases with the same grid, and constant amplitude. -/
theorem hgt_deriv (Dt : ℝ → Data) (pt : ℝ → PPhase) (t₀ : ℝ) (δ : Dec) (F : Fact (Dt t₀) (pt t₀) δ)
    (hD : ∀ t, (Dt t).rmin = (Dt t₀).rmin ∧ (Dt t).deltar = (Dt t₀).deltar)
    (hA : ∀ t, ampl (pt t) δ.1.1.1 δ.1.1.2 = ampl (pt t₀) δ.1.1.1 δ.1.1.2) (r' m' c' φ' : ℝ)
    (hr : HasDerivAt (fun t => √(dist2 (pt t) δ.1)) r' t₀) (hm : HasDerivAt (fun t => msdOf (pt t) δ.1) m' t₀)
    (hc : HasDerivAt (fun t => corfact (Dt t) (pt t) (dist2 (pt t) δ.1)) c' t₀)
    (hp : HasDerivAt (fun t => phiB (pt t) δ.2.2) φ' t₀) (p : Pk)
    (e : p = pk (Dt t₀) (pt t₀) δ.1 (√(dist2 (pt t₀) δ.1)) (sigB (Dt t₀) (pt t₀) δ.1 δ.2.2) δ.2.1) :
    HasDerivAt (fun t => hgt (Dt t) (pt t) δ)
      (p.dTds * (p.dsdsp * (m' / (2 * p.sigmap)) + p.dsds2 * c' + p.sigma / p.phi * φ') + p.dTdr * r') t₀ := by
  have hphi : p.phi = phiB (pt t₀) δ.2.2 := by
    rw [e, F.near]
    unfold Pk.phi phiB pk
    by_cases h : √(dist2 (pt t₀) δ.1) < (pt t₀).rcut <;> simp [h]
  have p0 : phiB (pt t₀) δ.2.2 ≠ 0 := by
    intro h0
    apply F.sig
    unfold sigB
    rw [h0, mul_zero]
  have hs := width_deriv _ _ _ m' c' φ' t₀ hm hc hp F.msd F.cor p0
  have hg := gaus_deriv (Dt t₀) δ.2.1 (half δ.1.1.1 δ.1.1.2 * ampl (pt t₀) δ.1.1.1 δ.1.1.2) _ _ _ _ t₀ hr hs F.sig
  have e1 : (fun t => hgt (Dt t) (pt t) δ) = fun t => half δ.1.1.1 δ.1.1.2 * ampl (pt t₀) δ.1.1.1 δ.1.1.2 *
      gaus (Dt t₀) (√(dist2 (pt t) δ.1)) (√(msdOf (pt t) δ.1) * √(corfact (Dt t) (pt t) (dist2 (pt t) δ.1)) * phiB (pt t) δ.2.2)
        δ.2.1 := by
    funext t
    unfold hgt gaus sigB
    rw [hA t, (hD t).1, (hD t).2]
  rw [e1]
  refine hg.congr_deriv ?_
  have hT : p.T = half δ.1.1.1 δ.1.1.2 * ampl (pt t₀) δ.1.1.1 δ.1.1.2 *
      gaus (Dt t₀) (√(dist2 (pt t₀) δ.1)) (sigB (Dt t₀) (pt t₀) δ.1 δ.2.2) δ.2.1 := by
    rw [e]
    unfold Pk.T pk
    dsimp only
    congr 1
    unfold half
    by_cases h : δ.1.1.1 = δ.1.1.2
    · simp [h]
    · simp [h]; ring
  have hsg : p.sigma = sigB (Dt t₀) (pt t₀) δ.1 δ.2.2 := by rw [e]; rfl
  have hsp : p.sigmap = √(msdOf (pt t₀) δ.1) := by rw [e]; rfl
  have hds : p.dist = √(dist2 (pt t₀) δ.1) := by rw [e]; rfl
  have hrk : p.rk = (Dt t₀).rmin + δ.2.1 * (Dt t₀).deltar := by rw [e]; rfl
  unfold Pk.dTds Pk.dsdsp Pk.dsds2 Pk.dTdr Pk.rd
  rw [hphi, hT, hsg, hsp, hds, hrk]
  unfold sigB
  rfl

/-- Derivative of the sharpening factor when only the distance moves. -/
theorem corfact_deriv (D : Data) (ph : PPhase) (q : ℝ → ℝ) (r' t₀ : ℝ) (h0 : 0 < q t₀)
    (h : HasDerivAt (fun t => √(q t)) r' t₀) (hq : ∀ᶠ t in nhds t₀, 0 < q t) :
    HasDerivAt (fun t => corfact D ph (q t))
      ((2 * ph.delta2 / √(q t₀) ^ 3 + ph.delta1 / √(q t₀) ^ 2 + 2 * D.qbroad ^ 2 * √(q t₀)) * r') t₀ := by
  have hs : √(q t₀) ≠ 0 := (Real.sqrt_pos.2 h0).ne'
  have e : (fun t => corfact D ph (q t)) =ᶠ[nhds t₀] fun t =>
      1 - ph.delta2 / √(q t) ^ 2 - ph.delta1 / √(q t) + D.qbroad ^ 2 * √(q t) ^ 2 := by
    filter_upwards [hq] with t ht
    unfold corfact
    rw [Real.sq_sqrt ht.le]
  refine HasDerivAt.congr_of_eventuallyEq ?_ e
  have h2 := h.fun_pow 2
  have a := ((h2.fun_inv (pow_ne_zero 2 hs)).const_mul ph.delta2).const_sub 1
  have b := (h.fun_inv hs).const_mul ph.delta1
  have c := h2.const_mul (D.qbroad ^ 2)
  have := (a.fun_sub b).fun_add c
  refine HasDerivAt.congr_deriv (f := fun t => 1 - ph.delta2 / √(q t) ^ 2 - ph.delta1 / √(q t) + D.qbroad ^ 2 * √(q t) ^ 2)
    (by simpa only [div_eq_mul_inv] using this) ?_
  push_cast
  field_simp
  ring

end Pdffit.Deriv
