import Verif.Lemmas.FParse
import Verif.Props.C05
import Verif.Props.C07
import Verif.Props.C08
import Verif.Props.C10

/-!
# The constraint results C05, C07, C08 with the real formula evaluator

The results in `C05.lean`, `C07.lean`, `C08.lean` are for every formula evaluator with two properties.  Here these properties are
shown for the evaluator of parser.cc, and the results are stated for formula texts.
-/

namespace Pdffit
open Parser Formula C09 C10

theorem fparse_parserUses {K : Type} [Field K] (tab : BTab K) : C08.ParserUses (fparse tab) textIds := by
  intro f par x ders _ h
  obtain ⟨d, used, h1, rfl⟩ := fparse_ok h
  rw [map_fst_mapIdx]
  exact ⟨(parse_used h1).1, (parse_used h1).2.2⟩

theorem val_congr {v v' : Nat → Option ℝ} (fns) (e : Ex) (h : ∀ n ∈ e.pars, v n = v' n) :
    e.val v fns = e.val v' fns := by
  induction e with
  | num l => rfl
  | par n => simpa [Ex.val] using h n (by simp [Ex.pars])
  | neg e ih => simp only [Ex.val, ih h]
  | bin o a b i1 i2 =>
    simp only [Ex.pars, List.mem_append] at h
    simp only [Ex.val, i1 fun n hn => h n (Or.inl hn), i2 fun n hn => h n (Or.inr hn)]
  | fn name e ih => simp only [Ex.val, ih h]

namespace C08

/-- **C08 for formula texts** (no replacement, free parameters) After any history of calls without replaced constraints
followed by a successful evaluation, take a constraint given by a formula and a point inside the domains of its functions.
The stored derivative with respect to each free parameter is the partial derivative of the formula with respect to it. -/
theorem C08_text_partial (ops : List (COp (List Char) ℝ)) (hn : NoRepl (fparse builtinTab) {} ops) (v : Nat → ℝ)
    (s s' : CState (List Char) ℝ) (hs : CState.run (fparse builtinTab) {} ops = s)
    (hs' : CState.exec (fparse builtinTab) s (.eval v) = s')
    (hok : (fillVariables (fparse builtinTab) s.par s.cons v s.dvdp).2.2.2 = none)
    (i j : Nat) (c : Constr (List Char)) (hc : s'.cons[i]? = some c)
    (line : List Char) (hl : c.form = some line) (e : Ex) (he : IsFormula e line) (hin : Inside (parVal s'.par) e)
    (n : Nat) (p : ℝ) (hid : s'.par.id[j]? = some n) (hp : s'.par.p[j]? = some p)
    (hfree : s'.par.ip[j]? = some true) :
    ∃ d, s'.dvdp.get i j = .ok d ∧
      HasPDeriv (fun t => e.val (Function.update (parVal s'.par) n (some t)) mathPartial) d p := by
  have hw : s'.par.Wf := by
    have hi := run_inv (fparse_parserOK builtinTab) (fparse_parserUses builtinTab) ops {} ⟨ParStore.wf_empty,
      by simp [Mat.WF, Mat.empty], by simp [Mat.empty], by simp [Mat.empty], by intro i j x h; simp [Mat.empty] at h⟩ hn
    rw [hs] at hi
    rw [← hs']
    exact (exec_inv (fparse_parserOK _) (fparse_parserUses _) hi (.eval v) (by simp) (by simp)).wf
  have hjl : j < s'.par.p.length := (List.getElem?_eq_some_iff.1 hp).1
  obtain ⟨h1, -⟩ := C08_derivatives_partial (fparse builtinTab) textIds (fparse_parserOK _) (fparse_parserUses _) ops hn v
    s s' hs hs' hok i j c hc (by simp [Constr.assigns, hl]) hjl hfree
  refine ⟨_, h1, ?_⟩
  obtain ⟨x, d, used, g1, gnd, g2, g3⟩ := gradient s'.par hw e line he hin
  have hder : deriv (fparse builtinTab) s'.par c j = ((used.mapIdx fun i j => (j, d.getD i 0)).lookup j).getD 0 := by
    simp [deriv, hl, fparse, g1]
  rw [hder]
  by_cases hm : j ∈ used
  · obtain ⟨k, hk, rfl⟩ := List.getElem_of_mem hm
    rw [lookup_of_mem (d := d.getD k 0)]
    · exact ((g3 k hk n p hid hp).1 hfree).2
    · rw [map_fst_mapIdx]; exact gnd
    · rw [List.mem_mapIdx]
      exact ⟨k, hk, rfl⟩
  · rw [lookup_none (by rw [map_fst_mapIdx]; exact hm)]
    obtain ⟨y, hy⟩ := inside_val e hin
    refine ⟨fun _ => y, Filter.Eventually.of_forall fun t => ?_, hasDerivAt_const _ _⟩
    rw [← hy]
    refine val_congr _ e fun m hm' => ?_
    by_cases hmn : m = n
    · subst hmn
      exact absurd ((g2 j).2 ⟨m, hm', hid⟩) hm
    · simp [hmn]

end C08

namespace C07

/-- **C07 for formula texts** (clean histories). -/
theorem C07_text_partial (ops : List (COp (List Char) ℝ)) (hc : Clean (fparse builtinTab) {} ops) (b : Nat) :
    held (CState.run (fparse builtinTab) {} ops).cons b = (latest b ops none).toList :=
  C07_replaces_partial (fparse builtinTab) (fparse_parserOK _) ops hc b

end C07

namespace C05

/-- The value of a constraint given by a formula text is the mathematical value of the formula at the
parameters (to be used with `C05_variables_agree_partial`). -/
theorem C05_text_value (par : ParStore ℝ) (hw : par.Wf) (c : Constr (List Char)) (line : List Char)
    (hl : c.form = some line) (e : Ex) (he : IsFormula e line) (y : ℝ)
    (hy : e.val (parVal par) mathPartial = some y) : c.value (fparse builtinTab) par = some y := by
  obtain ⟨d, used, h⟩ := value_builtin par hw e line he y hy
  simp [Constr.value, hl, fparse, h]

end C05
end Pdffit
