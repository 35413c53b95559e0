import Verif.Model.Stru
import Mathlib.Data.List.DropRight
import Mathlib.Data.List.TakeWhile

/-! # Lemmas about reading of structures: the header line by line -/

namespace Pdffit.Stru
open DataRead

theorem cut_line (l t : List Char) (hl : '\n' ∉ l) : cut (l ++ '\n' :: t) = (l, some t) := by
  induction l with
  | nil => simp [cut]
  | cons c l ih =>
    simp only [List.mem_cons, not_or] at hl
    simp only [List.cons_append, cut]
    rw [if_neg fun h => hl.1 h.symm, ih hl.2]

theorem getline_line (l t line : List Char) (hl : '\n' ∉ l) : getline (.good (l ++ '\n' :: t)) line = (.good t, l) := by
  simp only [getline, cut_line l t hl, afterCut]

/-- The lines with their ends. -/
def unlines (ls : List (List Char)) : List Char := ls.flatMap fun l => l ++ ['\n']

theorem unlines_cons (l : List Char) (ls : List (List Char)) (t : List Char) :
    unlines (l :: ls) ++ t = l ++ '\n' :: (unlines ls ++ t) := by simp [unlines]

theorem unlines_append (a b : List (List Char)) : unlines (a ++ b) = unlines a ++ unlines b := by simp [unlines]

section
variable {α σ : Type} (E : Env α σ)

theorem header_indep (h : Hdr α) (b : List Char) (st : IS) (l1 l2 : List Char) : header E h b st l1 = header E h b st l2 := by
  cases st with
  | good r => rw [header, header]; rfl
  | eof => rw [header, header]; simp [getline]
  | failed => rw [header, header]; simp [getline]

/-- One line. -/
theorem header_line (h : Hdr α) (b l t line : List Char) (hl : '\n' ∉ l) (ha : (command b l).1 ≠ "atoms".toList) :
    header E h b (.good (l ++ '\n' :: t)) line =
      exec E h (command b l).1 (command b l).2 >>= fun h' => header E h' (command b l).1 (.good t) [] := by
  rw [header]
  simp only [getline_line l t line hl]
  rw [dif_neg (by simp), if_neg ha]
  cases exec E h (command b l).1 (command b l).2 with
  | ok h' => simp only [Res.bind_ok]; exact header_indep E _ _ _ _ _
  | err e => rfl
  | ub => rfl

/-- The line that ends the header. -/
theorem header_atoms (h : Hdr α) (b l t line : List Char) (hl : '\n' ∉ l) (ha : (command b l).1 = "atoms".toList) :
    header E h b (.good (l ++ '\n' :: t)) line = .ok (h, .good t) := by
  rw [header]
  simp only [getline_line l t line hl]
  rw [dif_neg (by simp), if_pos ha]

/-- The last command after some lines. -/
def lastCmd (b : List Char) (ls : List (List Char)) : List Char := ls.foldl (fun b l => (command b l).1) b

/-- Header lines: complete lines before the line "atoms". -/
def HdrLines : List Char → List (List Char) → Prop
  | _, [] => True
  | b, l :: ls => '\n' ∉ l ∧ (command b l).1 ≠ "atoms".toList ∧ HdrLines (command b l).1 ls

/-- The commands of header lines. -/
def runLines : Hdr α → List Char → List (List Char) → Res (Hdr α)
  | h, _, [] => .ok h
  | h, b, l :: ls => exec E h (command b l).1 (command b l).2 >>= fun h' => runLines h' (command b l).1 ls

theorem header_lines (ls : List (List Char)) : ∀ (h : Hdr α) (b t line : List Char), HdrLines b ls →
    header E h b (.good (unlines ls ++ t)) line =
      runLines E h b ls >>= fun h' => header E h' (lastCmd b ls) (.good t) [] := by
  induction ls with
  | nil => intro h b t line _; exact header_indep E _ _ _ _ _
  | cons l ls ih =>
    intro h b t line hh
    rw [unlines_cons, header_line E h b l _ line hh.1 hh.2.1]
    simp only [runLines]
    cases exec E h (command b l).1 (command b l).2 with
    | ok h' => simp only [Res.bind_ok]; rw [ih _ _ _ _ hh.2.2]; rfl
    | err e => rfl
    | ub => rfl

theorem hdrLines_append (a c : List (List Char)) : ∀ b, HdrLines b (a ++ c) ↔ HdrLines b a ∧ HdrLines (lastCmd b a) c := by
  induction a with
  | nil => intro b; simp [HdrLines, lastCmd]
  | cons l a ih =>
    intro b
    simp only [List.cons_append, HdrLines, ih, and_assoc]
    rfl

theorem runLines_append (a c : List (List Char)) : ∀ h b, runLines E h b (a ++ c) =
    runLines E h b a >>= fun h' => runLines E h' (lastCmd b a) c := by
  induction a with
  | nil => intro h b; rfl
  | cons l a ih =>
    intro h b
    simp only [List.cons_append, runLines]
    cases exec E h (command b l).1 (command b l).2 with
    | ok h' => simp only [Res.bind_ok]; rw [ih]; rfl
    | err e => rfl
    | ub => rfl

theorem scan_nil {β : Type} (S : Scan β) : S.f [] = none := by
  cases h : S.f [] with
  | none => rfl
  | some x => exact absurd (S.lt _ _ _ h) (by simp)

theorem vget_nil {β : Type} (S : Scan β) : vget S [] = none := by simp [vget, scan_nil]

theorem vgets_nil {β : Type} (S : Scan β) (n : ℕ) : vgets S (n + 1) [] = none := by simp [vgets, vget_nil]

theorem lstrip_idem (s : List Char) : lstrip (lstrip s) = lstrip s := List.dropWhile_idempotent _ _

theorem lstrip_nil_or (s : List Char) : ∀ c, (lstrip s).head? = some c → c ≠ ' ' ∧ c ≠ '\t' := by
  intro c h
  have := List.head?_dropWhile_not (fun c => c = ' ' || c = '\t') s
  unfold lstrip at h
  rw [h] at this
  simpa using this

theorem blank_word (w : List Char) (hw : ∀ c ∈ w, isSpace c = true) : (word w).1 = [] := by
  have : w.dropWhile isSpace = [] := List.dropWhile_eq_nil_iff.2 hw
  simp [word, this]

theorem blank_command (b w : List Char) (hw : ∀ c ∈ w, isSpace c = true) : command b w = (b, []) := by
  simp [command, blank_word w hw]

end
end Pdffit.Stru
