import Verif.Model.Release
import Mathlib.Tactic.IntervalCases

/-!
# C108: the release date seen by `import diffpy.pdffit2`

Observable content: the date noted in the installed package is what every import gives (`__date__`, and the banner of `intro()`), whatever the
network does, and the import leaves the package as it is (`C108_noted`). A date obtained from the network is noted, so that all later imports give the
same date (`C108_kept_partial`). An import never fails because of the network (`C108_imports_partial`).

The last part is not true: only two kinds of exceptions are caught (`C108_imports_violated`). The date obtained is replaced by the time of the last
change of the file when the package can not be written to (`C108_fetched_violated`), and a date which is written only in part is what all later imports
give (`C108_kept_violated`).
-/

namespace Pdffit.C108
open Release

/-- Characters counted as blank. -/
def blanks : List Char := [' ', '\t', '\r', '\x0b', '\x0c']

/-- The last line of the file that begins with the mark has the text `t` behind it, apart from blanks. -/
def Noted (file t : List Char) : Prop :=
  ∃ pre a b post, file = pre ++ (mark ++ (a ++ t ++ b)) ++ post ∧ (pre = [] ∨ ∃ q, pre = q ++ ['\n']) ∧ '\n' ∉ t ∧
    (∀ c ∈ a, c ∈ blanks) ∧ (∀ c ∈ b, c ∈ blanks) ∧ (∀ c ∈ t.head?, c ∉ blanks) ∧ (∀ c ∈ t.getLast?, c ∉ blanks) ∧
    (post = [] ∨ ∃ q, post = '\n' :: q) ∧ ¬ ('\n' :: mark) <:+: post

/-- No line of the file begins with the mark. -/
def Unnoted (file : List Char) : Prop := ¬ mark <+: file ∧ ¬ ('\n' :: mark) <:+: file

/-- A line appended to a file is its last line. -/
theorem lines_append (a b : List Char) : ∃ L, L ≠ [] ∧ lines (a ++ '\n' :: b) = L ++ lines b := by
  induction a with
  | nil => exact ⟨[[]], by simp, by simp [lines]⟩
  | cons c cs ih =>
    obtain ⟨L, h0, hL⟩ := ih
    obtain ⟨x, xs, rfl⟩ := List.exists_cons_of_ne_nil h0
    by_cases hc : c = '\n'
    · exact ⟨[] :: x :: xs, by simp, by simp [lines, hc, hL]⟩
    · exact ⟨(c :: x) :: xs, by simp, by simp [lines, hc, hL]⟩

theorem lines_single (b : List Char) (h0 : b ≠ []) (hb : '\n' ∉ b) : lines b = [b] := by
  induction b with
  | nil => exact absurd rfl h0
  | cons c cs ih =>
    have hc : c ≠ '\n' := fun h => hb (by simp [h])
    have hcs : '\n' ∉ cs := fun h => hb (List.mem_cons_of_mem _ h)
    by_cases h : cs = []
    · subst h
      simp [lines, hc]
    · simp [lines, hc, ih h hcs]

theorem lines_first (b p : List Char) (hb : '\n' ∉ b) : lines (b ++ '\n' :: p) = b :: lines p := by
  induction b with
  | nil => simp [lines]
  | cons c cs ih =>
    have hc : c ≠ '\n' := fun h => hb (by simp [h])
    have hcs : '\n' ∉ cs := fun h => hb (List.mem_cons_of_mem _ h)
    simp [lines, hc, ih hcs]

theorem lines_cons (c : Char) (cs : List Char) (hc : c ≠ '\n') :
    lines (c :: cs) = (c :: (lines cs).headD []) :: (lines cs).tail := by
  rw [lines.eq_2, if_neg hc]
  cases lines cs <;> rfl

theorem lines_head (m f : List Char) (hm : '\n' ∉ m) : m <+: (lines f).headD [] ↔ m <+: f := by
  induction f generalizing m with
  | nil => simp [lines]
  | cons c cs ih =>
    cases m with
    | nil => simp
    | cons x m =>
      have hx : x ≠ '\n' := fun h => hm (by simp [h])
      have hm' : '\n' ∉ m := fun h => hm (List.mem_cons_of_mem _ h)
      by_cases hc : c = '\n'
      · subst hc
        simp [lines, List.cons_prefix_cons, hx]
      · have hl : (lines (c :: cs)).headD [] = c :: (lines cs).headD [] := by
          rw [lines_cons c cs hc]
          rfl
        rw [hl, List.cons_prefix_cons, List.cons_prefix_cons, ih m hm']

theorem lines_any (m f : List Char) (hm : '\n' ∉ m) (h0 : m ≠ []) (h : ∀ f', f'.length ≤ f.length →
    ((∃ r ∈ (lines f').tail, m <+: r) ↔ ('\n' :: m) <:+: f')) : (∃ r ∈ lines f, m <+: r) ↔ m <+: f ∨ ('\n' :: m) <:+: f := by
  rw [← lines_head m f hm, ← h f le_rfl]
  cases lines f <;> simp [h0]

theorem lines_tail (m f : List Char) (hm : '\n' ∉ m) (h0 : m ≠ []) : (∃ r ∈ (lines f).tail, m <+: r) ↔ ('\n' :: m) <:+: f := by
  induction hn : f.length using Nat.strong_induction_on generalizing f with
  | _ n ih =>
    cases f with
    | nil => simp [lines]
    | cons c cs =>
      rw [List.infix_cons_iff]
      by_cases hc : c = '\n'
      · subst hc
        have hl : (lines ('\n' :: cs)).tail = lines cs := by simp [lines]
        rw [hl, lines_any m cs hm h0 (fun f' hf' => ih f'.length (by simp only [List.length_cons] at hn; omega) f' rfl)]
        simp [List.cons_prefix_cons]
      · have hl : (lines (c :: cs)).tail = (lines cs).tail := by
          rw [lines_cons c cs hc]
          rfl
        rw [hl, ih cs.length (by simp only [List.length_cons] at hn; omega) cs rfl]
        simp [List.cons_prefix_cons, Ne.symm hc]

theorem mark_line : '\n' ∉ mark := by decide

theorem unnoted_iff {file : List Char} : stored file = none ↔ Unnoted file := by
  have h := lines_any mark file mark_line (by decide) (fun f' _ => lines_tail mark f' mark_line (by decide))
  unfold stored Unnoted
  rw [Option.map_eq_none_iff, List.find?_eq_none, ← not_or, ← h]
  simp only [List.mem_reverse, List.isPrefixOf_iff_prefix, not_exists, not_and]

theorem stored_of_unnoted {file : List Char} (h : Unnoted file) : stored file = none := unnoted_iff.mpr h

theorem after_mark (l : List Char) : after (mark ++ l) = l := by
  simp [after, mark]

theorem blank_of_mem {c : Char} (h : c ∈ blanks) : blank c = true := by
  simp only [blanks, List.mem_cons, List.not_mem_nil, or_false] at h
  rcases h with h | h | h | h | h <;> subst h <;> decide

theorem blank_false {c : Char} (h : c ∉ blanks) (hn : c ≠ '\n') : blank c = false := by
  simp only [blanks, List.mem_cons, List.not_mem_nil, or_false, not_or] at h
  simp [blank, h, hn]

theorem strip_eq (a t b : List Char) (ha : ∀ c ∈ a, c ∈ blanks) (hb : ∀ c ∈ b, c ∈ blanks) (hn : '\n' ∉ t)
    (h1 : ∀ c ∈ t.head?, c ∉ blanks) (h2 : ∀ c ∈ t.getLast?, c ∉ blanks) : strip (a ++ t ++ b) = t := by
  unfold strip
  rw [List.append_assoc, List.dropWhile_append_of_pos (fun c hc => blank_of_mem (ha c hc))]
  cases t with
  | nil =>
    have : b.dropWhile blank = [] := by
      simpa using List.dropWhile_append_of_pos (l₂ := []) (fun c hc => blank_of_mem (hb c hc))
    simp [this]
  | cons c t =>
    have hc : blank c = false := blank_false (h1 c rfl) (fun h => hn (by simp [h]))
    have hd : (c :: t ++ b).dropWhile blank = c :: t ++ b := by simp [hc]
    rw [hd, List.reverse_append, List.dropWhile_append_of_pos (fun c hc => blank_of_mem (hb c (List.mem_reverse.mp hc)))]
    obtain ⟨s, x, hs⟩ : ∃ s x, c :: t = s ++ [x] := 
      ⟨_, _, (List.dropLast_append_getLast (List.cons_ne_nil c t)).symm⟩
    rw [hs] at h2 hn ⊢
    have hx : blank x = false := blank_false (h2 x (by simp)) (fun h => hn (by simp [h]))
    simp [hx]

theorem stored_of_noted {file t : List Char} (h : Noted file t) : stored file = some t := by
  obtain ⟨pre, a, b, post, rfl, hpre, hn, ha, hb, h1, h2, hpost, hm⟩ := h
  have hx : '\n' ∉ mark ++ (a ++ t ++ b) := by
    simp only [List.mem_append, not_or]
    exact ⟨mark_line, ⟨fun h => absurd (ha _ h) (by decide), hn⟩, fun h => absurd (hb _ h) (by decide)⟩
  have hl : ∃ L R, lines (pre ++ (mark ++ (a ++ t ++ b)) ++ post) = L ++ (mark ++ (a ++ t ++ b)) :: R ∧ ∀ r ∈ R, ¬ mark <+: r := by
    have e2 : ∃ R, lines ((mark ++ (a ++ t ++ b)) ++ post) = (mark ++ (a ++ t ++ b)) :: R ∧ ∀ r ∈ R, ¬ mark <+: r := by
      rcases hpost with rfl | ⟨p, rfl⟩
      · exact ⟨[], by rw [List.append_nil, lines_single _ (by simp [mark]) hx], by simp⟩
      · refine ⟨lines p, lines_first _ p hx, fun r hr hp => hm ?_⟩
        rw [← lines_tail mark _ mark_line (by decide)]
        exact ⟨r, by simpa [lines] using hr, hp⟩
    obtain ⟨R, hR, hr⟩ := e2
    rcases hpre with rfl | ⟨q, rfl⟩
    · exact ⟨[], R, by rw [List.nil_append, List.nil_append, hR], hr⟩
    · obtain ⟨L, -, hL⟩ := lines_append q ((mark ++ (a ++ t ++ b)) ++ post)
      refine ⟨L, R, ?_, hr⟩
      rw [← hR, ← hL]
      congr 1
      simp only [List.append_assoc, List.cons_append, List.nil_append]
  obtain ⟨L, R, hl, hR⟩ := hl
  have hn : R.reverse.find? (fun l => mark.isPrefixOf l) = none := by
    rw [List.find?_eq_none]
    intro r hr hp
    exact hR r (List.mem_reverse.mp hr) (List.isPrefixOf_iff_prefix.mp hp)
  have hp : mark.isPrefixOf (mark ++ (a ++ t ++ b)) = true :=
    List.isPrefixOf_iff_prefix.mpr (List.prefix_append _ _)
  unfold stored
  rw [hl, List.reverse_append, List.reverse_cons, List.append_assoc, List.find?_append, hn, Option.none_or, List.singleton_append,
    List.find?_cons_of_pos hp, Option.map_some, after_mark, strip_eq a t b ha hb ‹_› h1 h2]

theorem digit_mem (n k : ℕ) : digit n k ∈ ['0', '1', '2', '3', '4', '5', '6', '7', '8', '9'] := by
  unfold digit
  have h : n / 10 ^ k % 10 < 10 := Nat.mod_lt _ (by norm_num)
  generalize n / 10 ^ k % 10 = m at h
  interval_cases m <;> decide

theorem digit_blank (n k : ℕ) : digit n k ∉ blanks := by
  have h := digit_mem n k
  generalize digit n k = c at h
  simp only [List.mem_cons, List.not_mem_nil, or_false] at h
  rcases h with h | h | h | h | h | h | h | h | h | h <;> subst h <;> decide

theorem digit_line (n k : ℕ) : '\n' ≠ digit n k := by
  intro h
  exact absurd (h ▸ digit_mem n k) (by decide)

/-- The line written is the one found. -/
theorem noted_note (file : List Char) (d : Date) : Noted (file ++ note d) d.text := by
  refine ⟨file ++ ['\n'], [' '], [], [], ?_, .inr ⟨file, rfl⟩, ?_, by decide, by simp, ?_, ?_, .inl rfl, by simp⟩
  · simp [note]
  · simp [Date.text, digit_line]
  · simp [Date.text, digit_blank]
  · simp [Date.text, digit_blank]

/-- **C108.** A date noted in the package is what every import gives, in any world in which the package can be read, and the package is not changed. -/
theorem C108_noted {file t : List Char} (h : Noted file t) (es : List Env) (hr : ∀ e ∈ es, e.readable = true) :
    imports es file = (es.map fun _ => .date t, file) := by
  induction es with
  | nil => rfl
  | cons e es ih =>
    have h1 : getDate e file = (.date t, file) := by
      unfold getDate
      rw [if_pos (hr e List.mem_cons_self), stored_of_noted h]
    have h2 := ih (fun e he => hr e (List.mem_cons_of_mem _ he))
    simp only [imports, h1, h2, List.map_cons]

/-- **C108.** A date obtained from the network and written to the package is the result of this import and of all later ones. The text of the package
before it is kept. Missing: a write that fails, see `C108_fetched_violated` and `C108_kept_violated`. -/
theorem C108_kept_partial (file : List Char) (hn : Unnoted file) (e : Env) (d : Date) (he : e.readable = true)
    (hnet : e.net = .release d) (hw : e.wr = .done) (es : List Env) (hr : ∀ e ∈ es, e.readable = true) :
    (imports (e :: es) file).1 = (e :: es).map (fun _ => .date d.text) ∧ file <+: (imports (e :: es) file).2 := by
  have h1 : getDate e file = (.date d.text, file ++ note d) := by
    unfold getDate
    rw [if_pos he, stored_of_unnoted hn]
    simp only [hnet, hw]
  have h2 := C108_noted (noted_note file d) es hr
  simp only [imports, h1, h2, List.map_cons, true_and]
  exact List.prefix_append _ _

/-- **C108.** When neither a date is noted nor one can be obtained, for one of the two reasons that are foreseen, the import gives the time of the file
and changes nothing; so does an import for which the package can not be read. Missing: the other reasons, see `C108_imports_violated`. -/
theorem C108_imports_partial (file : List Char) (e : Env) (t : List Char) (ht : e.ctime = some t)
    (h : e.readable = false ∨ Unnoted file ∧ (e.net = .osError ∨ e.net = .valueError)) : getDate e file = (.date t, file) := by
  unfold getDate
  rcases h with h | ⟨h, hn | hn⟩
  · rw [h, if_neg (by decide)]
    simp only [handler, ht]
  · cases hr : e.readable <;> simp [stored_of_unnoted h, hn, handler, ht]
  · cases hr : e.readable <;> simp [stored_of_unnoted h, hn, handler, ht]

/-- An import fails exactly when `stat` fails where it is needed, or when no date is noted and the reply from the network causes an exception of another
kind than the two foreseen. -/
theorem C108_fails_iff (file : List Char) (e : Env) (ht : e.ctime ≠ none) :
    (getDate e file).1 = .raises ↔ e.readable = true ∧ Unnoted file ∧ e.net = .other := by
  obtain ⟨t, ht⟩ := Option.ne_none_iff_exists'.mp ht
  rw [← unnoted_iff]
  unfold getDate
  cases hr : e.readable
  · simp [handler, ht]
  · cases hs : stored file with
    | some s => simp
    | none =>
      cases hn : e.net with
      | osError => simp [handler, ht]
      | valueError => simp [handler, ht]
      | other => simp
      | release d => cases hw : e.wr <;> simp [handler, ht]

/-- 6 May 2024. -/
def day : Date := ⟨2024, 5, 6⟩

/-- Text of a package without a note, and the time of the file. -/
def plain : List Char := "# End of file\n".toList

def time : List Char := "2026-11-17T16:40:00".toList

/-- **C108 fails**: a reply of another shape, or one that is cut off, makes the import fail, though the package can be read and written. -/
theorem C108_imports_violated : ∃ e file, e.readable = true ∧ e.wr = .done ∧ e.ctime = some time ∧ (getDate e file).1 = .raises :=
  ⟨⟨true, .other, .done, some time⟩, plain, rfl, rfl, rfl, by decide +kernel⟩

/-- **C108 fails**: the date has been obtained, but the result is another one, because the package can not be written to. -/
theorem C108_fetched_violated : ∃ e file, e.readable = true ∧ e.net = .release day ∧ getDate e file = (.date time, file) ∧
    time.take 10 ≠ day.text :=
  ⟨⟨true, .release day, .fails 0, some time⟩, plain, rfl, rfl, by decide +kernel, by decide +kernel⟩

/-- **C108 fails**: a note that is written in part only (full disk) is what all later imports give. -/
theorem C108_kept_violated (es : List Env) (hr : ∀ e ∈ es, e.readable = true) :
    (imports (⟨true, .release day, .fails 22, some time⟩ :: es) plain).1 = .date time :: es.map fun _ => .date "2024-".toList := by
  have h1 : getDate ⟨true, .release day, .fails 22, some time⟩ plain = (.date time, plain ++ (note day).take 22) := by decide +kernel
  have h2 : Noted (plain ++ (note day).take 22) "2024-".toList :=
    ⟨"# End of file\n\n".toList, " ".toList, [], [], by decide +kernel, .inr ⟨"# End of file\n".toList, by decide +kernel⟩, by decide +kernel,
      by decide +kernel, by simp, by decide +kernel, by decide +kernel, .inl rfl, by simp⟩
  have h3 := C108_noted h2 es hr
  simp only [imports, h1, h3]

/-- A note with a colon in it and blanks around it, followed by another line. -/
example : Noted "x\n# Release date: 2024-05-06 12:30 \n#".toList "2024-05-06 12:30".toList :=
  ⟨"x\n".toList, " ".toList, " ".toList, "\n#".toList, by decide +kernel, .inr ⟨"x".toList, by decide +kernel⟩, by decide +kernel,
    by decide +kernel, by decide +kernel, by decide +kernel, by decide +kernel, .inr ⟨"#".toList, by decide +kernel⟩, by decide +kernel⟩

example : Unnoted plain := by unfold Unnoted; decide +kernel

/-- Three imports: without network, with it, and with a broken one. -/
example : (imports [⟨true, .osError, .done, some time⟩, ⟨true, .release day, .done, some time⟩, ⟨true, .other, .fails 3, none⟩] plain).1 =
    [.date time, .date "2024-05-06".toList, .date "2024-05-06".toList] := by decide +kernel

end Pdffit.C108
