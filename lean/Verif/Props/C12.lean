import Verif.Model.Builtins
import Mathlib.Analysis.SpecialFunctions.Trigonometric.InverseDeriv
import Mathlib.Analysis.SpecialFunctions.Trigonometric.ArctanDeriv
import Mathlib.Analysis.SpecialFunctions.Log.Deriv
import Mathlib.Analysis.SpecialFunctions.Sqrt

/-!
# C12 The derivative table of the built-in functions is right
-/

namespace Pdffit.C12
open Parser
noncomputable section

/-- Open domain of each function. -/
def Dom (name : String) (x : ℝ) : Prop :=
  match name with
  | "tan" => Real.cos x ≠ 0
  | "tand" => Real.cos (Real.pi * x / 180) ≠ 0
  | "asin" | "acos" | "asind" | "acosd" => -1 < x ∧ x < 1
  | "log" | "sqrt" => 0 < x
  | _ => True

/-- The mathematical functions. -/
def mathFun : String → Option (ℝ → ℝ)
  | "-" => some fun x => -x
  | "sin" => some Real.sin
  | "cos" => some Real.cos
  | "tan" => some Real.tan
  | "sind" => some fun x => Real.sin (Real.pi * x / 180)
  | "cosd" => some fun x => Real.cos (Real.pi * x / 180)
  | "tand" => some fun x => Real.tan (Real.pi * x / 180)
  | "asin" => some Real.arcsin
  | "acos" => some Real.arccos
  | "atan" => some Real.arctan
  | "asind" => some fun x => 180 * Real.arcsin x / Real.pi
  | "acosd" => some fun x => 180 * Real.arccos x / Real.pi
  | "atand" => some fun x => 180 * Real.arctan x / Real.pi
  | "exp" => some Real.exp
  | "log" => some Real.log
  | "sqr" => some fun x => x ^ 2
  | "cube" => some fun x => x ^ 3
  | "sqrt" => some Real.sqrt
  | _ => none

/-- Names of the functions. -/
def names : List String := ["-", "sin", "cos", "tan", "sind", "cosd", "tand", "asin", "acos", "atan", "asind",
  "acosd", "atand", "exp", "log", "sqr", "cube", "sqrt"]

theorem rad_ne : rad ≠ 0 := div_ne_zero Real.pi_ne_zero (by norm_num)

theorem rad_mul (x : ℝ) : rad * x = Real.pi * x / 180 := by unfold rad; ring

theorem hasDeriv_rad (x : ℝ) : HasDerivAt (fun x => rad * x) rad x := by
  simpa using (hasDerivAt_id x).const_mul rad

theorem d_asin {x : ℝ} (h : -1 < x ∧ x < 1) : HasDerivAt Real.arcsin (bdasin x) x := by
  have := Real.hasDerivAt_arcsin (x := x) (by linarith [h.1]) (by linarith [h.2])
  unfold bdasin
  rwa [← pow_two]

theorem d_acos {x : ℝ} (h : -1 < x ∧ x < 1) : HasDerivAt Real.arccos (bdacos x) x := by
  have := Real.hasDerivAt_arccos (x := x) (by linarith [h.1]) (by linarith [h.2])
  unfold bdacos
  rw [← pow_two, neg_div]
  exact this

theorem d_atan (x : ℝ) : HasDerivAt Real.arctan (bdatan x) x := by
  have := Real.hasDerivAt_arctan x
  unfold bdatan bsqr
  rwa [← pow_two]

theorem d_tan {x : ℝ} (h : Real.cos x ≠ 0) : HasDerivAt Real.tan (bdtan x) x := by
  have := Real.hasDerivAt_tan h
  unfold bdtan bsqr
  rwa [← pow_two]

/-- Each registered function is the mathematical function of that name, and the registered derivative is its
derivative at each point of the open domain. -/
theorem table (name : String) (hname : name ∈ names) : ∃ f df, builtinTab name.toList = some (f, df) ∧
    mathFun name = some f ∧ ∀ x, Dom name x → HasDerivAt f (df x) x := by
  unfold names at hname
  simp only [List.mem_cons, List.not_mem_nil, or_false] at hname
  rcases hname with rfl | rfl | rfl | rfl | rfl | rfl | rfl | rfl | rfl | rfl | rfl | rfl | rfl | rfl | rfl | rfl |
    rfl | rfl
  · exact ⟨_, _, rfl, rfl, fun x _ => (hasDerivAt_id x).neg⟩
  · exact ⟨_, _, rfl, rfl, fun x _ => Real.hasDerivAt_sin x⟩
  · exact ⟨_, _, rfl, rfl, fun x _ => Real.hasDerivAt_cos x⟩
  · exact ⟨_, _, rfl, rfl, fun x h => d_tan h⟩
  · refine ⟨_, _, rfl, ?_, fun x _ => ?_⟩
    · exact congrArg some (funext fun x => by rw [bsind, rad_mul])
    · have := (Real.hasDerivAt_sin (rad * x)).comp x (hasDeriv_rad x)
      unfold bdsind
      rw [mul_comm]; exact this
  · refine ⟨_, _, rfl, ?_, fun x _ => ?_⟩
    · exact congrArg some (funext fun x => by rw [bcosd, rad_mul])
    · have := (Real.hasDerivAt_cos (rad * x)).comp x (hasDeriv_rad x)
      unfold bdcosd
      rw [show -rad * Real.sin (rad * x) = -Real.sin (rad * x) * rad by ring]; exact this
  · refine ⟨_, _, rfl, ?_, fun x h => ?_⟩
    · exact congrArg some (funext fun x => by rw [btand, rad_mul])
    · have hc : Real.cos (rad * x) ≠ 0 := by rw [rad_mul]; exact h
      have := (d_tan hc).comp x (hasDeriv_rad x)
      unfold bdtand bcosd
      rw [show rad / bsqr (Real.cos (rad * x)) = bdtan (rad * x) * rad by unfold bdtan; ring]; exact this
  · exact ⟨_, _, rfl, rfl, fun x h => d_asin h⟩
  · exact ⟨_, _, rfl, rfl, fun x h => d_acos h⟩
  · exact ⟨_, _, rfl, rfl, fun x _ => d_atan x⟩
  · refine ⟨_, _, rfl, ?_, fun x h => (d_asin h).div_const rad⟩
    exact congrArg some (funext fun x => by unfold basind rad; field_simp)
  · refine ⟨_, _, rfl, ?_, fun x h => (d_acos h).div_const rad⟩
    exact congrArg some (funext fun x => by unfold bacosd rad; field_simp)
  · refine ⟨_, _, rfl, ?_, fun x _ => (d_atan x).div_const rad⟩
    exact congrArg some (funext fun x => by unfold batand rad; field_simp)
  · exact ⟨_, _, rfl, rfl, fun x _ => Real.hasDerivAt_exp x⟩
  · refine ⟨_, _, rfl, rfl, fun x h => ?_⟩
    have := Real.hasDerivAt_log (x := x) (ne_of_gt h)
    unfold bdlog
    rwa [one_div]
  · refine ⟨_, _, rfl, ?_, fun x _ => ?_⟩
    · exact congrArg some (funext fun x => by unfold bsqr; ring)
    · have : HasDerivAt bsqr (1 * x + x * 1) x := (hasDerivAt_id x).mul (hasDerivAt_id x)
      rw [show bdsqr x = 1 * x + x * 1 by unfold bdsqr; ring]
      exact this
  · refine ⟨_, _, rfl, ?_, fun x _ => ?_⟩
    · exact congrArg some (funext fun x => by unfold bcube; ring)
    · have : HasDerivAt bcube ((1 * x + x * 1) * x + x * x * 1) x :=
        ((hasDerivAt_id x).mul (hasDerivAt_id x)).mul (hasDerivAt_id x)
      rw [show bdcube x = (1 * x + x * 1) * x + x * x * 1 by unfold bdcube bsqr; ring]
      exact this
  · refine ⟨_, _, rfl, rfl, fun x h => ?_⟩
    have := Real.hasDerivAt_sqrt (x := x) (ne_of_gt h)
    unfold bdsqrt
    convert this using 1
    rw [one_div, mul_inv]; norm_num [div_eq_mul_inv]

/-- No other function is registered. -/
theorem table_complete (name : List Char) (h : builtinTab name ≠ none) : ∃ n ∈ names, name = n.toList := by
  unfold builtinTab at h
  have : ∃ e ∈ builtins, e.1 = name := by
    by_contra hc
    apply h
    rw [List.lookup_eq_none_iff]
    intro p hp
    have : name ≠ p.1 := fun e => hc ⟨p, hp, e.symm⟩
    simpa using this
  obtain ⟨e, he, rfl⟩ := this
  have hm : ∀ e ∈ builtins.map Prod.fst, e ∈ names.map String.toList := by
    have : builtins.map Prod.fst = names.map String.toList := rfl
    rw [this]; exact fun e h => h
  obtain ⟨n, h1, h2⟩ := List.mem_map.1 (hm _ (List.mem_map_of_mem he))
  exact ⟨n, h1, h2.symm⟩

/-- The domains are not empty: a point for the restricted functions. -/
example : Dom "tan" 0 ∧ Dom "acosd" (1 / 2) ∧ Dom "log" 2 ∧ ¬ Dom "sqrt" 0 := by
  refine ⟨by simp [Dom], ?_, ?_, ?_⟩
  · constructor <;> norm_num
  · show (0 : ℝ) < 2; norm_num
  · show ¬ (0 : ℝ) < 0; norm_num

/-- A value of the derivative table. -/
example : ∃ f df, builtinTab "sind".toList = some (f, df) ∧ df 60 = Real.pi / 360 := by
  refine ⟨_, _, rfl, ?_⟩
  unfold bdsind
  rw [show rad * 60 = Real.pi / 3 by unfold rad; ring, Real.cos_pi_div_three]
  unfold rad; ring

end
end Pdffit.C12
