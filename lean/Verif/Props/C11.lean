import Verif.Lemmas.ParserRefs
import Verif.Lemmas.Params
import Mathlib.Algebra.Order.Ring.Rat

/-!
# C11 Malformed formulas are rejected with an exception

`parse` gives `none` only when the fuel of one of its loops is used up, and `some .ub` when the program reads
outside `vstack`/`dstack` or `p`.

* Termination holds for every text (`terminates`).
* The claim that no read is outside is false: `(1)2` reads element 2 of a stack of one number (`reads_outside`),
  because the bracket is replaced by `#0` and the digit then belongs to the index.  For the same reason the
  malformed text `(7)2+(1)+(5)` is accepted with the value 11 (`accepts_malformed`).
* For every text in which no `)` is directly followed by a digit the claim holds (`outcome_partial`).
-/

namespace Pdffit.C11
open Parser

variable {K : Type} [Field K]

/-- Evaluation terminates for every text, every parameter table and every table of functions. -/
theorem terminates (tab : BTab K) (par : ParStore K) (line : List Char) : parse tab par line ≠ none := by
  unfold parse
  split
  · simp
  · split
    · rename_i h; exact absurd h (substLoop_total par _ _ _ (Nat.lt_succ_self _))
    · simp
    · simp
    · split
      · rename_i h; exact absurd h (brackets_total _ _ _ _ (bmeas_le _))
      · simp
      · simp
      · simp

/-- A text in which no `)` is directly followed by a digit gives a number or an error, whatever else it contains;
no read is outside the stacks or the parameter vectors.  (Missing: texts with `)` followed by a digit, for which
this is false, see `reads_outside`.) -/
theorem outcome_partial (tab : BTab K) (par : ParStore K) (hw : par.Wf) (line : List Char)
    (hline : ∀ u v c, line = u ++ ')' :: c :: v → ¬ ('0' ≤ c ∧ c ≤ '9')) :
    (∃ r, parse tab par line = some (.ok r)) ∨ (∃ e, parse tab par line = some (.err e)) := by
  have hcl : CloseOK line := by
    intro u v e c t hv
    subst hv
    have := hline u t c e
    simp only [isDig, Bool.and_eq_false_iff, decide_eq_false_iff_not]
    by_contra hc
    rw [not_or, not_not, not_not] at hc
    exact this hc
  have hub : parse tab par line ≠ some .ub := by
    unfold parse
    split
    · simp
    · rename_i hh
      obtain ⟨h1, h2⟩ := substLoop_no_ub par (fun n i h => by
        obtain ⟨hi, -⟩ := ParStore.parfind_some h
        rw [hw.lp]; exact hi) (line.count '@' + 1) [] line (RefsOK.of_no_hash hh) hcl
      split
      · simp
      · simp
      · rename_i h; exact absurd h h1
      · rename_i used line' h
        obtain ⟨g1, g2⟩ := h2 _ _ h
        have := brackets_no_ub (envOf tab par used)
          (2 * line'.length + 2) (initStack par used) line' (by rw [initStack_length]; exact g1) g2
        split
        · simp
        · simp
        · rename_i h; exact absurd h this
        · simp
  cases h : parse tab par line with
  | none => exact absurd h (terminates tab par line)
  | some r =>
    cases r with
    | ok a => exact Or.inl ⟨a, rfl⟩
    | err e => exact Or.inr ⟨e, rfl⟩
    | ub => exact absurd h hub

/-- An error of the evaluation is a parse error or a constraint error (undefined parameter). -/
theorem error_kind (tab : BTab K) (par : ParStore K) (line : List Char) (e : Exc)
    (h : parse tab par line = some (.err e)) : e = .parse ∨ e = .constraint := by
  unfold parse at h
  split at h
  · cases h; exact Or.inl rfl
  · split at h
    · cases h
    · rename_i hs; cases h; exact substLoop_err _ _ _ _ _ hs
    · cases h
    · split at h
      · cases h
      · rename_i hb; cases h; exact Or.inl (brackets_err _ _ _ _ _ hb)
      · cases h
      · cases h

/-- `error_kind` is about both kinds. -/
example : parse (fun _ => none) (⟨[3], [true], [1]⟩ : ParStore Rat) "@1+".toList = some (.err .parse) ∧
    parse (fun _ => none) (⟨[3], [true], [1]⟩ : ParStore Rat) "@1+@2".toList = some (.err .constraint) :=
  ⟨by decide +kernel, by decide +kernel⟩

/-- Empty parameter table. -/
def noPar : ParStore Rat := ⟨[], [], []⟩

/-- Two parameters: `@1 = 3` (free) and `@7 = 5` (fixed). -/
def twoPar : ParStore Rat := ⟨[3, 5], [true, false], [1, 7]⟩

/-- The square function. -/
def sqrTab : BTab Rat := fun n => if n = "sqr".toList then some (fun x => x * x, fun x => 2 * x) else none

/-- The claim is false: for `(1)2` element 2 of a stack with one number is read. -/
theorem reads_outside : parse sqrTab noPar "(1)2".toList = some .ub := by decide +kernel

/-- The malformed text `(7)2+(1)+(5)` is accepted: `(7)2` is read as element 2 of the stack. -/
theorem accepts_malformed : parse sqrTab noPar "(7)2+(1)+(5)".toList = some (.ok ((11, []), [])) := by
  decide +kernel

/-- `outcome_partial` is about accepted and rejected texts. -/
example : twoPar.Wf ∧
    parse sqrTab twoPar "2*sqr(@1-@7)".toList = some (.ok ((8, [-8, 0]), [0, 1])) ∧
    parse sqrTab twoPar "2*cub(@1-@7)".toList = some (.err .parse) ∧
    parse sqrTab twoPar "2*(@1".toList = some (.err .parse) ∧
    parse sqrTab twoPar ")(5".toList = some (.err .parse) ∧
    parse sqrTab twoPar "@2".toList = some (.err .constraint) :=
  ⟨⟨rfl, rfl, by decide⟩, by decide +kernel, by decide +kernel, by decide +kernel, by decide +kernel,
    by decide +kernel⟩

end Pdffit.C11
