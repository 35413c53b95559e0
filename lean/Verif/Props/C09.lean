import Verif.Lemmas.ParserVal
import Verif.Props.C12
import Mathlib.Algebra.Order.Ring.Rat

/-!
# C09 Formula values follow the usual arithmetic

The meaning of formulas is given by `Formula.Ex.val` on formula trees, their texts by `Formula.IsFormula`
(Model/Formula.lean); neither uses the evaluator.
-/

namespace Pdffit.C09
open Parser Formula

/-- A formula that has a value evaluates to this value: for all formula trees, all texts of them, all parameter
values, and all tables of functions that agree with the mathematical functions. -/
theorem value {K : Type} [Field K] [CharZero K] [DecidableEq K] (tab : BTab K)
    (fns : List Char → Option (K → Option K))
    (htab : ∀ name g, fns name = some g → ∃ f df, tab name = some (f, df) ∧ ∀ x y, g x = some y → f x = y)
    (par : ParStore K) (hw : par.Wf) (e : Ex) (line : List Char) (hline : IsFormula e line) (x : K)
    (hx : e.val (parVal par) fns = some x) :
    ∃ d used, parse tab par line = some (.ok ((x, d), used)) := by
  obtain ⟨hp, hn⟩ := known_of_val hx
  obtain ⟨used, h1, -⟩ := parse_formula tab par (fun n i h => by
      obtain ⟨hi, -⟩ := ParStore.parfind_some h
      rw [hw.lp]; exact hi) e line hline
    (fun n h => by
      obtain ⟨y, hy⟩ := hp n h
      obtain ⟨i, hi, -⟩ := parVal_some hy []
      exact ⟨i, hi⟩)
    (fun nm h => by
      obtain ⟨g, hg⟩ := hn nm h
      obtain ⟨f, df, ht, -⟩ := htab nm g hg
      exact ⟨_, ht⟩)
  refine ⟨(dual (envOf tab par used) (lookup par used) e).2, used, ?_⟩
  rw [h1, ← dual_val htab used e hx]

/-- Domain of each built-in function. -/
def ClosedDom (name : String) (x : ℝ) : Prop :=
  match name with
  | "tan" => Real.cos x ≠ 0
  | "tand" => Real.cos (Real.pi * x / 180) ≠ 0
  | "asin" | "acos" | "asind" | "acosd" => -1 ≤ x ∧ x ≤ 1
  | "log" => 0 < x
  | "sqrt" => 0 ≤ x
  | _ => True

open Classical in
/-- The mathematical functions as partial functions. -/
noncomputable def mathPartial (name : List Char) : Option (ℝ → Option ℝ) :=
  (C12.mathFun (String.ofList name)).map fun f x =>
    if ClosedDom (String.ofList name) x then some (f x) else none

theorem mathFun_names {s : String} {f : ℝ → ℝ} (h : C12.mathFun s = some f) : s ∈ C12.names := by
  unfold C12.mathFun at h
  split at h <;> first | (cases h; done) | simp [C12.names]

theorem mathPartial_agrees : Agrees builtinTab mathPartial := by
  intro name g hg
  simp only [mathPartial, Option.map_eq_some_iff] at hg
  obtain ⟨f, hf, rfl⟩ := hg
  obtain ⟨f', df, h1, h2, -⟩ := C12.table _ (mathFun_names hf)
  rw [hf] at h2
  cases h2
  refine ⟨f, df, by simpa using h1, ?_⟩
  intro x y h
  dsimp only at h
  split at h
  · cases h; rfl
  · cases h

/-- With the built-in functions: a formula that has a value evaluates to this value. -/
theorem value_builtin (par : ParStore ℝ) (hw : par.Wf) (e : Ex) (line : List Char) (hline : IsFormula e line) (x : ℝ)
    (hx : e.val (parVal par) mathPartial = some x) :
    ∃ d used, parse builtinTab par line = some (.ok ((x, d), used)) :=
  value builtinTab mathPartial mathPartial_agrees par hw e line hline x hx

/-! ### Examples -/

/-- Integer literal. -/
def lit (d : Fin 10) : Lit := ⟨[d], none, none⟩

/-- `6 - 3 - 8/@1 * sqr(1+1)`. -/
def demo : Ex :=
  .bin .sub (.bin .sub (.num (lit 6)) (.num (lit 3)))
    (.bin .mul (.bin .div (.num (lit 8)) (.par 1)) (.fn "sqr".toList (.bin .add (.num (lit 1)) (.num (lit 1)))))

theorem lit_txt (d : Fin 10) : Txt .fac (.num (lit d)) [digitChar d] :=
  .num ⟨Or.inl (by simp [lit]), by simp [lit]⟩ ⟨[], rfl, rfl⟩

/-- Its text. -/
theorem demo_txt : IsFormula demo "6 - 3-8/@1 *sqr(1+1 )".toList := by
  refine ⟨_, [], (List.append_nil _).symm, ?_, by simp⟩
  have sp1 : ∀ c ∈ [' '], Blank c := by simp [Blank]
  have sp0 : ∀ c ∈ ([] : List Char), Blank c := by simp
  have p1 : Txt .fac (.par 1) "@1".toList := Txt.par (ds := [1]) (by simp) (by decide)
  have inner := Txt.add (o := .add) (Or.inl rfl) (.expr (.term (lit_txt 1))) sp0 (.term (lit_txt 1))
  have f := Txt.fn (name := "sqr".toList) (by simp) (by decide) inner sp1
  have t := Txt.mul (o := .mul) (Or.inl rfl)
    (Txt.mul (o := .div) (Or.inr rfl) (.term (lit_txt 8)) sp0 p1) sp1 f
  exact Txt.add (o := .sub) (Or.inr rfl) (Txt.add (o := .sub) (Or.inr rfl) (.expr (.term (lit_txt 6))) sp1
    (.term (.sp (Or.inl rfl) (lit_txt 3)))) sp0 t

/-- Square as a partial function. -/
def demoFns : List Char → Option (Rat → Option Rat) := fun n => if n = "sqr".toList then some (fun x => some (x * x)) else none

/-- Square in the table. -/
def demoTab : BTab Rat := fun n => if n = "sqr".toList then some (fun x => x * x, fun x => 2 * x) else none

/-- The value of the example for `@1 = 5` is `6 - 3 - (8/5)*4`; the hypotheses of `value` hold, and the evaluator gives
this number. -/
example : demo.val (parVal ⟨[5], [true], [1]⟩) demoFns = some (-17 / 5) ∧
    (∀ name g, demoFns name = some g → ∃ f df, demoTab name = some (f, df) ∧ ∀ x y, g x = some y → f x = y) ∧
    (ParStore.mk [(5 : Rat)] [true] [1]).Wf ∧
    parse demoTab ⟨[5], [true], [1]⟩ "6 - 3-8/@1 *sqr(1+1 )".toList = some (.ok ((-17 / 5, [32 / 25]), [0])) := by
  refine ⟨by decide +kernel, ?_, ⟨rfl, rfl, by decide⟩, by decide +kernel⟩
  intro name g h
  unfold demoFns at h
  split at h
  · rename_i hn
    cases h
    exact ⟨_, _, by rw [demoTab, if_pos hn], fun x y h => by simpa using h⟩
  · cases h

end Pdffit.C09
