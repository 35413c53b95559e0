import Verif.Props.C44
import Verif.Lemmas.DerivWit
import Mathlib.Analysis.SpecialFunctions.Trigonometric.Deriv

/-!
# C44, angles

The column of an angle of the cell holds the change of the peaks that comes from the change of the distances. Violated: the change of
the widths through the metric tensor is not in it (`win_violated`).
-/

namespace Pdffit.C44
open Geom Bonds Det Layout Deriv Filter
open Pdffit.Parser (bcosd bsind rad)

theorem bcosd_deriv (x : ℝ) : HasDerivAt bcosd (-rad * bsind x) x := by
  have h0 : HasDerivAt (fun t : ℝ => rad * t) rad x := by simpa using (hasDerivAt_id' x).const_mul rad
  refine HasDerivAt.congr_deriv (f := bcosd) h0.cos ?_
  unfold bsind
  ring

/-- The law of cosines for a pair. -/
theorem dist2_law (ph : PPhase) (x : (ℕ × ℕ) × (ℤ × ℤ × ℤ)) (h : C45.NoSmall ph.cell.a0 ph.cell.win) :
    dist2 ph x = cart ph x 0 ^ 2 + cart ph x 1 ^ 2 + cart ph x 2 ^ 2 + 2 * cart ph x 0 * cart ph x 1 * bcosd (ph.cell.win 2) +
      2 * cart ph x 0 * cart ph x 2 * bcosd (ph.cell.win 1) + 2 * cart ph x 1 * cart ph x 2 * bcosd (ph.cell.win 0) := by
  unfold dist2 Phs.skal
  rw [skalpro_exp]
  have e : ∀ i j, ph.toPhs.gten i j = _ := fun i j => C45.tensor_eq h i j
  simp only [e]
  simp [C45.t01, C45.t10, C45.t02, C45.t20, C45.t12, C45.t21, cart]
  ring

/-- The phase with another angle. -/
def withWin (ph : PPhase) (k : Fin 3) (t : ℝ) : PPhase := { ph with cell := { ph.cell with win := Function.update ph.cell.win k t } }

theorem third_ne (i j : Fin 3) (k : Fin 3) (hij : i ≠ j) (h : third i j = k) :
    (i = k + 1 ∧ j = k + 2) ∨ (i = k + 2 ∧ j = k + 1) := by
  subst h
  revert i j
  decide

/-- An angle whose element of the metric tensor is not suppressed can be moved. -/
theorem noSmall_near (ph : PPhase) (k : Fin 3) (h : C45.NoSmall ph.cell.a0 ph.cell.win)
    (hk : eps < |ph.cell.a0 (k + 1) * ph.cell.a0 (k + 2) * bcosd (ph.cell.win k)|) :
    ∀ᶠ t in nhds (ph.cell.win k), C45.NoSmall (withWin ph k t).cell.a0 (withWin ph k t).cell.win := by
  have hc : ContinuousAt (fun t => |ph.cell.a0 (k + 1) * ph.cell.a0 (k + 2) * bcosd t|) (ph.cell.win k) :=
    (continuousAt_const.mul (bcosd_deriv _).continuousAt).abs
  filter_upwards [hc.eventually (lt_mem_nhds hk)] with t ht i j hij
  show ph.cell.a0 i * ph.cell.a0 j * bcosd (Function.update ph.cell.win k t (third i j)) = 0 ∨
    eps ≤ |ph.cell.a0 i * ph.cell.a0 j * bcosd (Function.update ph.cell.win k t (third i j))|
  by_cases hc : third i j = k
  · right
    rw [hc, Function.update_self]
    rcases third_ne i j k hij hc with ⟨rfl, rfl⟩ | ⟨rfl, rfl⟩
    · exact ht.le
    · rw [mul_comm (ph.cell.a0 (k + 2))]; exact ht.le
  · rw [Function.update_of_ne hc]
    exact h i j hij

/-- The factor `drda` of the code is the derivative of the distance. -/
theorem win_dist (ph : PPhase) (x : (ℕ × ℕ) × (ℤ × ℤ × ℤ)) (k : Fin 3) (h : C45.NoSmall ph.cell.a0 ph.cell.win)
    (hk : eps < |ph.cell.a0 (k + 1) * ph.cell.a0 (k + 2) * bcosd (ph.cell.win k)|) (hd : 0 < dist2 ph x) :
    HasDerivAt (fun t => √(dist2 (withWin ph k t) x))
      (-rad * bsind (ph.cell.win k) * cart ph x (k + 1) * cart ph x (k + 2) / √(dist2 ph x)) (ph.cell.win k) := by
  have e0 : withWin ph k (ph.cell.win k) = ph := by unfold withWin; rw [Function.update_eq_self]
  have hcart : ∀ t, cart (withWin ph k t) x = cart ph x := fun _ => rfl
  have hwin : ∀ t j, (withWin ph k t).cell.win j = if j = k then t else ph.cell.win j := fun t j => Function.update_apply ..
  have hb : ∀ j, HasDerivAt (fun t => bcosd (if j = k then t else ph.cell.win j))
      (if j = k then -rad * bsind (ph.cell.win k) else 0) (ph.cell.win k) := by
    intro j
    by_cases hj : j = k
    · simp only [hj, if_true]; exact bcosd_deriv _
    · simp only [hj, if_false]; exact hasDerivAt_const _ _
  have h2 : HasDerivAt (fun t => dist2 (withWin ph k t) x) (2 * (-rad * bsind (ph.cell.win k) * cart ph x (k + 1) * cart ph x (k + 2)))
      (ph.cell.win k) := by
    have hs := (((((hb 2).const_mul (2 * cart ph x 0 * cart ph x 1)).const_add
      (cart ph x 0 ^ 2 + cart ph x 1 ^ 2 + cart ph x 2 ^ 2)).fun_add ((hb 1).const_mul (2 * cart ph x 0 * cart ph x 2))).fun_add
      ((hb 0).const_mul (2 * cart ph x 1 * cart ph x 2)))
    refine (hs.congr_of_eventuallyEq ?_).congr_deriv ?_
    · filter_upwards [noSmall_near ph k h hk] with t ht
      rw [dist2_law _ _ ht, hcart]
      simp only [hwin]
    · fin_cases k <;> simp <;> ring
  refine (h2.sqrt (by rw [e0]; exact hd.ne')).congr_deriv ?_
  rw [e0]
  have := (Real.sqrt_pos.2 hd).ne'
  field_simp

/-- Partial result for the angles: for every grid point of every peak, what is added to the column of an angle is the derivative of the
peak with respect to the distance, times the derivative of the distance with respect to the angle. Missing: the change of the mean square displacement
with the angle, which the code leaves out, and angles whose element of the metric tensor is suppressed. -/
theorem win_partial (D : Data) (ph : PPhase) (is ip : ℕ) (x : (ℕ × ℕ) × (ℤ × ℤ × ℤ)) (sig : ℝ) (ig : ℤ) (k : Fin 3)
    (h : C45.NoSmall ph.cell.a0 ph.cell.win)
    (hk : eps < |ph.cell.a0 (k + 1) * ph.cell.a0 (k + 2) * bcosd (ph.cell.win k)|) (hd : 0 < dist2 ph x) (p : Pk)
    (hp : p = pk D ph x (√(dist2 ph x)) sig ig) :
    ∃ r', HasDerivAt (fun t => √(dist2 (updPhase (.win ip k) t ip ph) x)) r' (ph.cell.win k) ∧
      valOf (.win ip k) (p.adds is ip x.1.1 x.1.2) = (p.dTds * (p.dsdsp * p.dspdr + p.dsdr) + p.dTdr) * r' := by
  refine ⟨-rad * bsind (ph.cell.win k) * cart ph x (k + 1) * cart ph x (k + 2) / √(dist2 ph x), ?_, ?_⟩
  · simpa [updPhase, withWin] using win_dist ph x k h hk hd
  · rw [val_win, hp]
    rfl

/-- How far the column of an angle is from the derivative of a peak: when the mean square displacement along the pair has the derivative `m'`,
the derivative of the peak is what is added to the column plus the effect of `m' + 2 * m * r' / r`, the change of the mean square displacement
that is not due to the distance. -/
theorem win_peak (D : Data) (ph : PPhase) (is ip : ℕ) (k : Fin 3) (δ : Dec) (F : Deriv.Fact D ph δ)
    (h : C45.NoSmall ph.cell.a0 ph.cell.win)
    (hk : eps < |ph.cell.a0 (k + 1) * ph.cell.a0 (k + 2) * bcosd (ph.cell.win k)|) (m' r' : ℝ)
    (hm : HasDerivAt (fun t => msdOf (withWin ph k t) δ.1) m' (ph.cell.win k))
    (hr' : HasDerivAt (fun t => √(dist2 (withWin ph k t) δ.1)) r' (ph.cell.win k)) (p : Pk)
    (hp : p = pk D ph δ.1 (√(dist2 ph δ.1)) (sigB D ph δ.1 δ.2.2) δ.2.1) :
    HasDerivAt (fun t => hgt D (withWin ph k t) δ)
      (dval D ph is ip (.win ip k) δ + p.dTds * p.dsdsp * ((m' + 2 * msdOf ph δ.1 * r' / √(dist2 ph δ.1)) / (2 * √(msdOf ph δ.1))))
      (ph.cell.win k) := by
  have e0 : withWin ph k (ph.cell.win k) = ph := by unfold withWin; rw [Function.update_eq_self]
  have hd := F.d2
  have hr := win_dist ph δ.1 k h hk hd
  have er : r' = _ := hr'.unique hr
  have hpos : ∀ᶠ t in nhds (ph.cell.win k), 0 < dist2 (withWin ph k t) δ.1 := by
    have h1 : ContinuousAt (fun t => √(dist2 (withWin ph k t) δ.1)) (ph.cell.win k) := hr.continuousAt
    have h2 : 0 < √(dist2 (withWin ph k (ph.cell.win k)) δ.1) := by rw [e0]; exact Real.sqrt_pos.2 hd
    filter_upwards [h1.eventually (lt_mem_nhds h2)] with t ht
    exact Real.sqrt_pos.1 ht
  have hc := corfact_deriv D ph (fun t => dist2 (withWin ph k t) δ.1) r' (ph.cell.win k) (by rw [e0]; exact hd) hr' hpos
  have := hgt_deriv (fun _ => D) (withWin ph k) (ph.cell.win k) δ (by rw [e0]; exact F) (fun _ => ⟨rfl, rfl⟩) (fun _ => rfl) r' m' _ 0
    hr' hm hc (hasDerivAt_const (ph.cell.win k) (phiB ph δ.2.2)) p (by rw [e0]; exact hp)
  refine this.congr_deriv ?_
  simp only [e0]
  have ev : dval D ph is ip (.win ip k) δ = (p.dTds * (p.dsdsp * p.dspdr + p.dsdr) + p.dTdr) * r' := by
    unfold dval
    rw [val_win, ← hp, er, hp]
    rfl
  have hsp : p.sigmap = √(msdOf ph δ.1) := by rw [hp]; rfl
  have hds : p.dist = √(dist2 ph δ.1) := by rw [hp]; rfl
  have hph : p.ph = ph := by rw [hp]; rfl
  have hqb : p.qbroad = D.qbroad := by rw [hp]; rfl
  rw [ev]
  unfold Pk.dspdr Pk.dsdr
  rw [hsp, hds, hph, hqb]
  have s0 : √(msdOf ph δ.1) ≠ 0 := (Real.sqrt_pos.2 F.msd).ne'
  have d0 : √(dist2 ph δ.1) ≠ 0 := (Real.sqrt_pos.2 hd).ne'
  have ms : msdOf ph δ.1 = √(msdOf ph δ.1) ^ 2 := (Real.sq_sqrt F.msd.le).symm
  generalize √(msdOf ph δ.1) = q at *
  rw [ms]
  field_simp
  ring

/-- In a cell with an angle of 120 degrees, the distance of two atoms that are not on one axis changes with the angle. -/
example : ∃ r', r' ≠ 0 ∧
    HasDerivAt (fun t => √(dist2 (withWin (wit (33 / 10) 120 0 (1 / 200)) 2 t) ((0, 1), (0, 1, 0)))) r' 120 := by
  have hw : (wit (33 / 10) 120 0 (1 / 200)).cell.a0 = ![33 / 10, 4, 10] := rfl
  have hn : (wit (33 / 10) 120 0 (1 / 200)).cell.win = ![90, 90, 120] := rfl
  have hs : C45.NoSmall (wit (33 / 10) 120 0 (1 / 200)).cell.a0 (wit (33 / 10) 120 0 (1 / 200)).cell.win := by
    rw [hw, hn]
    intro i j hij
    fin_cases i <;> fin_cases j <;>
      first
        | exact absurd rfl hij
        | (left; show _ * _ * bcosd 90 = 0; rw [C45.cosd90, mul_zero])
        | (right; show eps ≤ |_ * _ * bcosd 120|; rw [C45.cosd120]; simp [eps]; norm_num [abs_of_nonneg])
  have hv : ∀ k, cart (wit (33 / 10) 120 0 (1 / 200)) ((0, 1), (0, 1, 0)) k = ![-(11 / 10), -4, 0] k := by
    intro k
    show ((wit (33 / 10) 120 0 (1 / 200) |>.atm 0).pos k - (wit (33 / 10) 120 0 (1 / 200) |>.atm 1).pos k - _ * _) * _ = _
    fin_cases k <;> simp [wit, PPhase.atm]; norm_num
  have hd : 0 < dist2 (wit (33 / 10) 120 0 (1 / 200)) ((0, 1), (0, 1, 0)) := by
    rw [dist2_law _ _ hs, hv, hv, hv, hn]
    show 0 < _ + 2 * _ * _ * bcosd 120 + 2 * _ * _ * bcosd 90 + 2 * _ * _ * bcosd 90
    rw [C45.cosd90, C45.cosd120]
    simp
    norm_num
  have hsin : bsind 120 ≠ 0 := by
    intro e
    have := C45.sind_sq 120
    rw [e, C45.cosd120] at this
    norm_num at this
  refine ⟨_, ?_, win_dist (wit (33 / 10) 120 0 (1 / 200)) ((0, 1), (0, 1, 0)) 2 hs ?_ hd⟩
  · rw [hv, hv]
    show -rad * bsind 120 * -(11 / 10) * -4 / _ ≠ 0
    have : rad ≠ 0 := by unfold rad; positivity
    have h2 := (Real.sqrt_pos.2 hd).ne'
    exact div_ne_zero (mul_ne_zero (mul_ne_zero (mul_ne_zero (neg_ne_zero.2 this) hsin) (by norm_num)) (by norm_num)) h2
  · rw [hw, hn]
    show eps < |33 / 10 * 4 * bcosd 120|
    rw [C45.cosd120]
    unfold eps
    norm_num [abs_of_nonneg]

end Pdffit.C44
