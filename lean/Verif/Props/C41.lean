import Verif.Lemmas.DetDemo

/-! # C41: scattering weights are normalised -/

namespace Pdffit.C41
open Det

/-- The occupancy-weighted mean of the weights is one. -/
theorem mean_one (ph : PPhase) (hn : ph.np ≠ 0) (hb : ph.bavg ≠ 0) :
    ((List.range ph.atom.length).map fun i => (ph.atm i).occ * ph.weight i).sum / ph.np = 1 := by
  have e : (List.range ph.atom.length).map (fun i => (ph.atm i).occ * ph.weight i) =
      (ph.atom.map fun a => a.occ * (a.sf / ph.bavg)) := by
    apply List.ext_getElem
    · simp
    · intro i h1 h2
      have hi : i < ph.atom.length := by simpa using h2
      simp [PPhase.weight, PPhase.atm, List.getD, hi]
  rw [e]
  have : (ph.atom.map fun a => a.occ * (a.sf / ph.bavg)).sum = (ph.atom.map fun a => a.occ * a.sf).sum / ph.bavg := by
    rw [div_eq_mul_inv, ← List.sum_map_mul_right]
    congr 1
    apply List.map_congr_left
    intro a _
    ring
  rw [this]
  have h2 : (ph.atom.map fun a => a.occ * a.sf).sum = ph.bavg * ph.np := by
    unfold PPhase.bavg
    field_simp
  rw [h2]
  field_simp

/-- The phase with all scattering factors multiplied by `c`. -/
def scaleSf (c : ℝ) (ph : PPhase) : PPhase := { ph with atom := ph.atom.map fun a => { a with sf := c * a.sf } }

section
variable (c : ℝ) (ph : PPhase)

theorem len : (scaleSf c ph).atom.length = ph.atom.length := by simp [scaleSf]

theorem np : (scaleSf c ph).np = ph.np := by
  unfold PPhase.np scaleSf
  rw [List.map_map]
  rfl

theorem bavg : (scaleSf c ph).bavg = c * ph.bavg := by
  unfold PPhase.bavg
  rw [np, ← mul_div_assoc, ← List.sum_map_mul_left]
  congr 2
  unfold scaleSf
  rw [List.map_map]
  apply List.map_congr_left
  intro a _
  simp only [Function.comp]
  ring

theorem atm (i : ℕ) : (scaleSf c ph).atm i = { ph.atm i with sf := c * (ph.atm i).sf } := by
  unfold PPhase.atm scaleSf
  by_cases h : i < ph.atom.length
  · simp [List.getD, h]
  · have h' : ph.atom.length ≤ i := not_lt.1 h
    have e : ph.atom[i]? = none := List.getElem?_eq_none h'
    simp only [List.getD, List.getElem?_map, e, Option.map_none, Option.getD_none]
    show (⟨0, 0, 0, 0⟩ : PAtom) = ⟨0, 0, 0, c * 0⟩
    rw [mul_zero]

theorem weight (hc : c ≠ 0) (i : ℕ) : (scaleSf c ph).weight i = ph.weight i := by
  unfold PPhase.weight
  rw [bavg, atm]
  exact mul_div_mul_left _ _ hc

theorem toPhs : (scaleSf c ph).toPhs = ph.toPhs := by
  unfold PPhase.toPhs scaleSf
  simp only [List.map_map]
  rfl

theorem sphere_eq (D : Data) : sphere D (scaleSf c ph) = sphere D ph := by
  unfold sphere
  rw [toPhs]
  rfl

theorem visited_eq (D : Data) (s : Sel) : visited D (scaleSf c ph) s = visited D ph s := by
  unfold visited
  rw [sphere_eq, len]

theorem event_eq (D : Data) (x : (ℕ × ℕ) × (ℤ × ℤ × ℤ)) : eventOf D (scaleSf c ph) x = eventOf D ph x := by
  unfold eventOf
  rw [atm, atm]
  unfold event PPhase.msd
  rw [toPhs]
  rfl

theorem ampl_eq (hc : c ≠ 0) (i j : ℕ) : ampl (scaleSf c ph) i j = ampl ph i j := by
  unfold ampl
  rw [weight c ph hc, weight c ph hc, atm, atm]

theorem rtot_eq (hc : c ≠ 0) : rtot (scaleSf c ph) = rtot ph := by
  unfold rtot
  rw [len]
  simp only [weight c ph hc]

theorem ract_eq (hc : c ≠ 0) (s : Sel) : ract (scaleSf c ph) s = ract ph s := by
  unfold ract
  rw [len]
  simp only [weight c ph hc]

theorem incs_eq (hc : c ≠ 0) (D : Data) (i j : ℕ) (e : Ev) : incs D (scaleSf c ph) i j e = incs D ph i j e := by
  cases e with
  | skip => rfl
  | nan => rfl
  | peak d g =>
    unfold incs
    dsimp only
    rw [ampl_eq c ph hc]
    rfl

theorem ncv : (scaleSf c ph).ncv = ph.ncv := rfl

theorem bad_eq (hc : c ≠ 0) (D : Data) (s : Sel) : Bad D (scaleSf c ph) s ↔ Bad D ph s := by
  unfold Bad
  rw [visited_eq, np, ncv, bavg, rtot_eq c ph hc]
  simp only [event_eq, mul_eq_zero, hc, false_or]

theorem rho0 : (scaleSf c ph).rho0 = ph.rho0 := by
  unfold PPhase.rho0
  rw [np]
  rfl

/-- The contribution of a phase does not change when all its scattering factors are multiplied by the same number. -/
theorem phase_scale (hc : c ≠ 0) (D : Data) (s : Sel) : phaseCalc D (scaleSf c ph) s = phaseCalc D ph s := by
  classical
  unfold phaseCalc ppp
  rw [visited_eq]
  simp only [event_eq, incs_eq c ph hc, bad_eq c ph hc]
  have : calcAt D (scaleSf c ph) s = calcAt D ph s := by
    funext p i
    unfold calcAt
    rw [np, rho0, ract_eq c ph hc, rtot_eq c ph hc]
    rfl
  rw [this]

end

/-- The curve of a data set with any number of phases does not change either, each phase having its own number. -/
theorem scale (D : Data) (c : PPhase → ℝ) (hc : ∀ ph, c ph ≠ 0) (psel : List (Option (PPhase × Sel))) :
    determine D (psel.map (Option.map fun x => (scaleSf (c x.1) x.1, x.2))) = determine D psel := by
  have : total D (psel.map (Option.map fun x => (scaleSf (c x.1) x.1, x.2))) = total D psel := by
    induction psel with
    | nil => rfl
    | cons a l ih =>
      cases a with
      | none => exact ih
      | some x =>
        rw [List.map_cons, Option.map_some, total, total, phase_scale _ _ (hc _), ih]
        rfl
  unfold determine
  rw [this]

example : ((List.range 2).map fun i => (demo.atm i).occ * demo.weight i).sum / demo.np = 1 :=
  mean_one demo (by rw [demo_np]; norm_num) (by rw [demo_bavg]; norm_num)

example (s : Sel) : determine (demoD 20) [some (scaleSf (-7) demo, s)] = determine (demoD 20) [some (demo, s)] :=
  scale (demoD 20) (fun _ => -7) (fun _ => by norm_num) [some (demo, s)]

end Pdffit.C41
