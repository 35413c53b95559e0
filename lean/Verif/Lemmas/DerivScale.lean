import Verif.Lemmas.DerivAsm
import Verif.Props.C43

/-! # Derivatives of the curve with respect to scale factors, envelopes and occupancies -/

namespace Pdffit.Deriv
open Geom Parser Bonds Det Layout

/-! ## Occupancies -/

section occ
variable (ph : PPhase) (q : ℕ)

/-- The phase with another occupancy. -/
def occAt (t : ℝ) : PPhase := onAtom ph q fun a => { a with occ := t }

variable (hq : q < ph.atom.length)
include hq

theorem occ_atm (t : ℝ) (j : ℕ) : (occAt ph q t).atm j = if j = q then { ph.atm j with occ := t } else ph.atm j :=
  atm_on ph q j _ hq

theorem occ_occ (t : ℝ) (j : ℕ) : ((occAt ph q t).atm j).occ = if j = q then t else (ph.atm j).occ := by
  rw [occ_atm ph q hq]; split <;> rfl

theorem occ_sf (t : ℝ) (j : ℕ) : ((occAt ph q t).atm j).sf = (ph.atm j).sf := by
  rw [occ_atm ph q hq]; split <;> rfl

theorem occ_vec (t : ℝ) (x : (ℕ × ℕ) × (ℤ × ℤ × ℤ)) : vec (occAt ph q t) x = vec ph x := by
  unfold vec dd
  rw [occ_atm ph q hq, occ_atm ph q hq]
  funext k
  split <;> split <;> rfl

omit hq in
theorem occ_toPhs (t : ℝ) : (occAt ph q t).toPhs = ph.toPhs := by
  unfold PPhase.toPhs occAt onAtom
  dsimp only
  rw [map_on]
  intro a
  rfl

omit hq in
theorem event_congr (D : Data) (a a' b b' : PAtom) (T : ℤ × ℤ × ℤ) (h1 : a.pos = a'.pos) (h2 : a.u = a'.u) (h3 : b.pos = b'.pos)
    (h4 : b.u = b'.u) : event D ph a b T = event D ph a' b' T := by
  unfold event PPhase.msd dd
  rw [h1, h2, h3, h4]

theorem occ_event (D : Data) (t : ℝ) (x : (ℕ × ℕ) × (ℤ × ℤ × ℤ)) : eventOf D (occAt ph q t) x = eventOf D ph x := by
  have e1 : ∀ a b, event D (occAt ph q t) a b x.2 = event D ph a b x.2 := by
    intro a b
    unfold event PPhase.msd
    rw [occ_toPhs]
    rfl
  unfold eventOf
  rw [e1, occ_atm ph q hq, occ_atm ph q hq]
  apply event_congr <;> split <;> rfl

omit hq in
theorem occ_visited (D : Data) (t : ℝ) (s : Sel) : visited D (occAt ph q t) s = visited D ph s := by
  have e := occ_toPhs ph q t
  have l : (occAt ph q t).atom.length = ph.atom.length := by unfold occAt onAtom; simp
  have sp : sphere D (occAt ph q t) = sphere D ph := by
    unfold sphere
    rw [e]
    rfl
  unfold visited
  rw [l, sp]

theorem occ_decisions (D : Data) (t : ℝ) (s : Sel) : decisions D (occAt ph q t) s = decisions D ph s := by
  unfold decisions
  rw [occ_visited ph q]
  congr 1
  funext x
  rw [occ_event ph q hq]
  rfl

theorem occ_sum (t : ℝ) (f : ℝ → ℝ) : ((occAt ph q t).atom.map fun a => a.occ * f a.sf).sum =
    (ph.atom.map fun a => a.occ * f a.sf).sum + (t - (ph.atm q).occ) * f (ph.atm q).sf := by
  unfold occAt onAtom PPhase.atm
  dsimp only
  generalize ph.atom = l at hq
  induction l generalizing q with
  | nil => simp at hq
  | cons a l ih =>
    cases q with
    | zero => simp; ring
    | succ q =>
      simp only [List.length_cons, Nat.add_lt_add_iff_right] at hq
      have := ih q hq
      simp only [List.modify_succ_cons, List.map_cons, List.sum_cons, List.getD_cons_succ]
      rw [this]
      ring

theorem occ_np (t : ℝ) : (occAt ph q t).np = ph.np + (t - (ph.atm q).occ) := by
  have := occ_sum ph q hq t fun _ => 1
  simpa [PPhase.np] using this

/-- `np` times the average scattering factor. -/
noncomputable def bsum (ph : PPhase) : ℝ := (ph.atom.map fun a => a.occ * a.sf).sum

theorem occ_bsum (t : ℝ) : bsum (occAt ph q t) = bsum ph + (t - (ph.atm q).occ) * (ph.atm q).sf :=
  occ_sum ph q hq t fun x => x

theorem occ_self : occAt ph q (ph.atm q).occ = ph := onAtom_self ph q _ hq rfl

omit hq in
/-- The sums of products of weights are those of the scattering factors divided by the square of the average. -/
theorem weight_sum (l : List (ℕ × ℕ)) : (l.map fun x => half x.1 x.2 * ph.weight x.1 * ph.weight x.2).sum =
    (l.map fun x => half x.1 x.2 * (ph.atm x.1).sf * (ph.atm x.2).sf).sum / ph.bavg ^ 2 := by
  induction l with
  | nil => simp
  | cons a l ih =>
    rw [List.map_cons, List.sum_cons, ih, List.map_cons, List.sum_cons, add_div]
    congr 1
    unfold PPhase.weight
    rw [sq]
    simp only [div_eq_mul_inv, mul_inv]
    ring

theorem occ_dnorm (t : ℝ) (s : Sel) (h : ph.bavg ≠ 0) (ht : (occAt ph q t).bavg ≠ 0) : dnorm (occAt ph q t) s = dnorm ph s := by
  unfold dnorm ract rtot
  rw [weight_sum, weight_sum, weight_sum, weight_sum]
  have l : (occAt ph q t).atom.length = ph.atom.length := by unfold occAt onAtom; simp
  rw [l]
  simp only [occ_sf ph q hq]
  rw [div_div_div_cancel_right₀ (pow_ne_zero 2 ht), div_div_div_cancel_right₀ (pow_ne_zero 2 h)]

theorem occ_rtot (t : ℝ) (h : rtot ph ≠ 0) (ht : (occAt ph q t).bavg ≠ 0) : rtot (occAt ph q t) ≠ 0 := by
  unfold rtot at h ⊢
  rw [weight_sum] at h ⊢
  have l : (occAt ph q t).atom.length = ph.atom.length := by unfold occAt onAtom; simp
  rw [l]
  simp only [occ_sf ph q hq]
  exact div_ne_zero (fun e => h (by rw [e, zero_div])) (pow_ne_zero 2 ht)

theorem occ_good (D : Data) (s : Sel) (h : ¬Bad D ph s) : ∀ᶠ t in nhds (ph.atm q).occ, ¬Bad D (occAt ph q t) s := by
  unfold Bad at h
  push Not at h
  obtain ⟨h1, h2, h3, h4, h5, h6⟩ := h
  have hb : bsum ph ≠ 0 := by
    intro e
    apply h4
    unfold PPhase.bavg
    rw [show (ph.atom.map fun a => a.occ * a.sf).sum = bsum ph from rfl, e, zero_div]
  have c1 : ∀ᶠ t in nhds (ph.atm q).occ, ph.np + (t - (ph.atm q).occ) ≠ 0 := by
    have : ContinuousAt (fun t : ℝ => ph.np + (t - (ph.atm q).occ)) (ph.atm q).occ := by fun_prop
    exact this.eventually_ne (by simpa using h2)
  have c2 : ∀ᶠ t in nhds (ph.atm q).occ, bsum ph + (t - (ph.atm q).occ) * (ph.atm q).sf ≠ 0 := by
    have : ContinuousAt (fun t : ℝ => bsum ph + (t - (ph.atm q).occ) * (ph.atm q).sf) (ph.atm q).occ := by fun_prop
    exact this.eventually_ne (by simpa using hb)
  filter_upwards [c1, c2] with t t1 t2
  rw [← occ_np ph q hq] at t1
  rw [← occ_bsum ph q hq] at t2
  have t3 : (occAt ph q t).bavg ≠ 0 := div_ne_zero t2 t1
  rintro (⟨x, hx, e⟩ | e | e | e | e | ⟨i, i1, i2, e⟩)
  · rw [occ_visited ph q] at hx
    rw [occ_event ph q hq] at e
    exact h1 x hx e
  · exact t1 e
  · exact h3 e
  · exact t3 e
  · exact occ_rtot ph q hq t h5 t3 e
  · exact h6 i i1 i2 e

/-- Peak heights without the average scattering factor. -/
noncomputable def bare (D : Data) (t : ℝ) (δ : Dec) : ℝ :=
  half δ.1.1.1 δ.1.1.2 * ((if δ.1.1.1 = q then t else (ph.atm δ.1.1.1).occ) * (ph.atm δ.1.1.1).sf *
    (if δ.1.1.2 = q then t else (ph.atm δ.1.1.2).occ) * (ph.atm δ.1.1.2).sf) *
    gaus D (√(dist2 ph δ.1)) (sigB D ph δ.1 δ.2.2) δ.2.1

theorem occ_hgt (D : Data) (t : ℝ) (δ : Dec) : hgt D (occAt ph q t) δ = bare ph q D t δ / (occAt ph q t).bavg ^ 2 := by
  have e := occ_toPhs ph q t
  have d : dist2 (occAt ph q t) δ.1 = dist2 ph δ.1 := by
    unfold dist2
    rw [occ_vec ph q hq, e]
  have m : msdOf (occAt ph q t) δ.1 = msdOf ph δ.1 := by
    unfold msdOf PPhase.msd
    rw [occ_vec ph q hq, e, occ_atm ph q hq, occ_atm ph q hq]
    split <;> split <;> rfl
  have sg : sigB D (occAt ph q t) δ.1 δ.2.2 = sigB D ph δ.1 δ.2.2 := by
    unfold sigB
    rw [d, m]
    rfl
  unfold hgt bare ampl PPhase.weight
  rw [d, sg, occ_occ ph q hq, occ_occ ph q hq, occ_sf ph q hq, occ_sf ph q hq]
  simp only [div_eq_mul_inv, sq, mul_inv]
  ring

/-- The derivative of the curve with respect to an occupancy. -/
theorem occ_curve (D : Data) (s : Sel) (is ip : ℕ) (i : ℤ) (h0 : (ph.atm q).occ ≠ 0) (h : ¬Bad D ph s) :
    HasDerivAt (fun t => D.dscale * (occAt ph q t).pscale * curve D (occAt ph q t) s i)
      (facp D ph (D.r i) * (facs ph (D.r i) * decSum D ph s (dval D ph is ip (.occ ip q)) i -
        4 * Real.pi * D.r i * ph.rho0 * dnorm ph s / ph.np) +
      ph.pscale * D.dscale * (1 - 2 * ph.weight q) / ph.np *
        (curve D ph s i + 4 * Real.pi * D.r i * ph.rho0 * dnorm ph s * bk D (D.r i) * shapeEnv ph (D.r i))) (ph.atm q).occ := by
  have good := occ_good ph q hq D s h
  have h' := h
  unfold Bad at h'
  push Not at h'
  obtain ⟨-, hn, hv, hb, ht, -⟩ := h'
  have hB : bsum ph ≠ 0 := by
    intro e
    apply hb
    unfold PPhase.bavg
    rw [show (ph.atom.map fun a => a.occ * a.sf).sum = bsum ph from rfl, e, zero_div]
  have hbv : ph.bavg = bsum ph / ph.np := rfl
  -- the sum over the peaks without weights
  have dS : HasDerivAt (fun t => ((decisions D ph s).map fun δ => if δ.2.1 = i then bare ph q D t δ else 0).sum)
      ((decisions D ph s).map fun δ => if δ.2.1 = i then dval D ph is ip (.occ ip q) δ * ph.bavg ^ 2 else 0).sum (ph.atm q).occ := by
    apply hasDerivAt_list
    intro δ hδ
    by_cases hi : δ.2.1 = i
    · simp only [hi, if_true]
      have one : ∀ j : ℕ, HasDerivAt (fun t : ℝ => if j = q then t else (ph.atm j).occ) (if j = q then 1 else 0) (ph.atm q).occ := by
        intro j
        by_cases hj : j = q <;> simp only [hj, if_true, if_false]
        · exact hasDerivAt_id' _
        · exact hasDerivAt_const _ _
      have := ((((((one δ.1.1.1).mul_const (ph.atm δ.1.1.1).sf).fun_mul (one δ.1.1.2)).mul_const (ph.atm δ.1.1.2).sf).const_mul
        (half δ.1.1.1 δ.1.1.2)).mul_const (gaus D (√(dist2 ph δ.1)) (sigB D ph δ.1 δ.2.2) δ.2.1))
      refine HasDerivAt.congr_deriv (f := fun t => bare ph q D t δ) this ?_
      unfold dval
      rw [val_occ]
      have hT : (pk D ph δ.1 (√(dist2 ph δ.1)) (sigB D ph δ.1 δ.2.2) δ.2.1).T = hgt D ph δ := by
        unfold Pk.T pk hgt half
        dsimp only
        by_cases e : δ.1.1.1 = δ.1.1.2
        · simp [e]
        · simp only [ne_eq, e, not_false_eq_true, if_true, if_false]
          ring
      have hg : hgt D ph δ * ph.bavg ^ 2 = half δ.1.1.1 δ.1.1.2 * ((ph.atm δ.1.1.1).occ * (ph.atm δ.1.1.1).sf *
          (ph.atm δ.1.1.2).occ * (ph.atm δ.1.1.2).sf) * gaus D (√(dist2 ph δ.1)) (sigB D ph δ.1 δ.2.2) δ.2.1 := by
        unfold hgt ampl PPhase.weight
        field_simp
      have ha : (pk D ph δ.1 (√(dist2 ph δ.1)) (sigB D ph δ.1 δ.2.2) δ.2.1).a.occ = (ph.atm δ.1.1.1).occ := rfl
      have hbb : (pk D ph δ.1 (√(dist2 ph δ.1)) (sigB D ph δ.1 δ.2.2) δ.2.1).b.occ = (ph.atm δ.1.1.2).occ := rfl
      rw [hT, ha, hbb]
      have k : ∀ c : ℝ, hgt D ph δ / c * ph.bavg ^ 2 = half δ.1.1.1 δ.1.1.2 * ((ph.atm δ.1.1.1).occ * (ph.atm δ.1.1.1).sf *
          (ph.atm δ.1.1.2).occ * (ph.atm δ.1.1.2).sf) * gaus D (√(dist2 ph δ.1)) (sigB D ph δ.1 δ.2.2) δ.2.1 / c := by
        intro c
        rw [div_mul_eq_mul_div, hg]
      by_cases e1 : δ.1.1.1 = q <;> by_cases e2 : δ.1.1.2 = q <;> simp only [e1, e2, if_true, if_false, zero_mul] at k ⊢ <;>
        simp only [add_mul, k] <;> field_simp <;> ring
    · simp only [hi, if_false]
      exact hasDerivAt_const _ _
  -- np and the sum of the scattering factors
  have dn : HasDerivAt (fun t => ph.np + (t - (ph.atm q).occ)) 1 (ph.atm q).occ := by
    simpa using ((hasDerivAt_id' (ph.atm q).occ).sub_const (ph.atm q).occ).const_add ph.np
  have dB : HasDerivAt (fun t => bsum ph + (t - (ph.atm q).occ) * (ph.atm q).sf) (ph.atm q).sf (ph.atm q).occ := by
    simpa using (((hasDerivAt_id' (ph.atm q).occ).sub_const (ph.atm q).occ).mul_const (ph.atm q).sf).const_add (bsum ph)
  set S : ℝ → ℝ := fun t => ((decisions D ph s).map fun δ => if δ.2.1 = i then bare ph q D t δ else 0).sum with hS
  have e : (fun t => D.dscale * (occAt ph q t).pscale * curve D (occAt ph q t) s i) =ᶠ[nhds (ph.atm q).occ] fun t =>
      D.dscale * ph.pscale * ((S t * (ph.np + (t - (ph.atm q).occ)) / (bsum ph + (t - (ph.atm q).occ) * (ph.atm q).sf) ^ 2 / D.r i -
        4 * Real.pi * D.r i * ((ph.np + (t - (ph.atm q).occ)) / ph.ncv) * dnorm ph s) * envelope D ph (D.r i)) := by
    filter_upwards [good] with t gt
    have g' := gt
    unfold Bad at g'
    push Not at g'
    obtain ⟨-, gn, -, gb, -, -⟩ := g'
    have e1 : pairSum D (occAt ph q t) s i = S t / (occAt ph q t).bavg ^ 2 := by
      rw [pairSum_dec]
      unfold decSum
      rw [occ_decisions ph q hq, hS]
      simp only [occ_hgt ph q hq]
      generalize decisions D ph s = l
      induction l with
      | nil => simp
      | cons a l ih =>
        rw [List.map_cons, List.sum_cons, ih, List.map_cons, List.sum_cons, add_div]
        congr 1
        split
        · rfl
        · rw [zero_div]
    have e2 : (occAt ph q t).bavg = bsum (occAt ph q t) / (occAt ph q t).np := rfl
    have e3 : (occAt ph q t).rho0 = (occAt ph q t).np / ph.ncv := rfl
    have e4 : envelope D (occAt ph q t) (D.r i) = envelope D ph (D.r i) := rfl
    have e5 : ract (occAt ph q t) s / rtot (occAt ph q t) = dnorm ph s := occ_dnorm ph q hq t s hb gb
    have e6 : (occAt ph q t).pscale = ph.pscale := rfl
    have gB : bsum (occAt ph q t) ≠ 0 := by
      intro e
      apply gb
      rw [e2, e, zero_div]
    unfold curve
    rw [e1, e3, e4, e5, e6, e2, ← occ_np ph q hq, ← occ_bsum ph q hq]
    congr 4
    field_simp
  have d := ((((((dS.fun_mul dn).fun_div (dB.fun_pow 2) (by simpa using hB)).div_const (D.r i)).fun_sub
    (((dn.div_const ph.ncv).const_mul (4 * Real.pi * D.r i)).mul_const (dnorm ph s))).mul_const
    (envelope D ph (D.r i))).const_mul (D.dscale * ph.pscale))
  refine (d.congr_of_eventuallyEq e).congr_deriv ?_
  have f1 : ((decisions D ph s).map fun δ => if δ.2.1 = i then dval D ph is ip (.occ ip q) δ * ph.bavg ^ 2 else 0).sum =
      decSum D ph s (dval D ph is ip (.occ ip q)) i * ph.bavg ^ 2 := by
    unfold decSum
    generalize decisions D ph s = l
    induction l with
    | nil => simp
    | cons a l ih =>
      rw [List.map_cons, List.sum_cons, ih, List.map_cons, List.sum_cons, add_mul, ite_mul, zero_mul]
  have f2 : S (ph.atm q).occ = pairSum D ph s i * ph.bavg ^ 2 := by
    rw [pairSum_dec]
    unfold decSum
    rw [hS]
    dsimp only
    have : ∀ δ, bare ph q D (ph.atm q).occ δ = hgt D ph δ * ph.bavg ^ 2 := by
      intro δ
      have := occ_hgt ph q hq D (ph.atm q).occ δ
      rw [occ_self ph q hq] at this
      rw [this]
      field_simp
    simp only [this]
    generalize decisions D ph s = l
    induction l with
    | nil => simp
    | cons a l ih =>
      rw [List.map_cons, List.sum_cons, ih, List.map_cons, List.sum_cons, add_mul, ite_mul, zero_mul]
  have f3 : ract ph s / rtot ph = dnorm ph s := rfl
  have f4 : ph.rho0 = ph.np / ph.ncv := rfl
  rw [f1]
  simp only [sub_self, add_zero, zero_mul]
  rw [f2]
  unfold curve facp facs PPhase.weight
  rw [f3, f4, envelope_eq, hbv]
  by_cases hr : D.r i = 0
  · rw [hr]
    simp
  · field_simp
    ring

end occ

end Pdffit.Deriv
