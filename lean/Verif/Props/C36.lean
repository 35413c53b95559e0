import Verif.Lemmas.Stru
import Verif.Model.StruNum

/-!
# C36: blank lines in a structure header are insignificant

The claim is false (`not_claim`): `befehl` keeps the command of the previous line, so a blank line executes that command again with no arguments.
The effect of a blank line (also one that contains only blanks, tabs or a carriage return) is determined for every command:

* `blank_ok_partial`: none if the last command is not one of the seven below, for instance at the beginning, after comments, after `title` and `spcgr`;
* `blank_error`: after `scale`, `sharp`, `shape`, `cell`, `dcell` and `ncell` the structure cannot be read;
* `blank_format`: after `format` the file is taken for a DISCUS file, as if `format` had been given no value.

What is missing for C36: the last two cases.
-/

namespace Pdffit.C36
open Stru DataRead

variable {α σ : Type}

/-- A blank line. -/
def Blank (w : List Char) : Prop := '\n' ∉ w ∧ ∀ c ∈ w, isSpace c = true

/-- The text with and without a line after the first lines give the same outcome. -/
def Insignificant (E : Env α σ) (lat : Hdr α → Res Unit) (pre post : List (List Char)) (w t : List Char) : Prop :=
  read E lat (unlines (pre ++ w :: post) ++ t) = read E lat (unlines (pre ++ post) ++ t)

/-- **C36** as stated. -/
def Claim (E : Env α σ) : Prop :=
  ∀ (lat : Hdr α → Res Unit) (pre post : List (List Char)) (w t : List Char), HdrLines [] (pre ++ post) → Blank w →
    Insignificant E lat pre post w t

/-- The commands that read something that has to be there. -/
def needy : List (List Char) :=
  ["scale".toList, "sharp".toList, "shape".toList, "cell".toList, "dcell".toList, "ncell".toList]

theorem lastCmd_append (b : List Char) (a c : List (List Char)) : lastCmd b (a ++ c) = lastCmd (lastCmd b a) c := by
  simp [lastCmd]

/-- The header with the blank line: the last command is executed once more. -/
theorem header_blank (E : Env α σ) (pre : List (List Char)) (w t : List Char) (hp : HdrLines [] pre) (hw : Blank w)
    (ha : lastCmd [] pre ≠ "atoms".toList) (h : Hdr α) :
    header E h [] (.good (unlines pre ++ (w ++ '\n' :: t))) [] =
      runLines E h [] pre >>= fun h1 => exec E h1 (lastCmd [] pre) [] >>= fun h2 => header E h2 (lastCmd [] pre) (.good t) [] := by
  rw [header_lines E pre h [] _ [] hp]
  congr 1
  funext h1
  have hc := blank_command (lastCmd [] pre) w hw.2
  rw [header_line E h1 _ w t [] hw.1 (by rw [hc]; exact ha), hc]

theorem last_ne_atoms : ∀ (pre : List (List Char)) (b : List Char), b ≠ "atoms".toList → HdrLines b pre →
    lastCmd b pre ≠ "atoms".toList
  | [], _, hb, _ => hb
  | l :: ls, b, _, h => last_ne_atoms ls (command b l).1 h.2.1 h.2.2

/-- `exec` of a command without arguments. -/
theorem exec_nil (E : Env α σ) (h : Hdr α) (c : List Char) (hf : c ≠ "format".toList) (hn : c ∉ needy)
    (ht : c = "title".toList → lstrip h.name = h.name) : exec E h c [] = .ok h := by
  simp only [needy, List.mem_cons, not_or] at hn
  unfold exec
  by_cases h1 : c.head? = some '#'
  · rw [if_pos h1]
  rw [if_neg h1, if_neg hf, if_neg hn.1, if_neg hn.2.1]
  by_cases h2 : c = "spcgr".toList
  · rw [if_pos h2]
    have : (word []).1 = [] := rfl
    rw [if_pos this]
  rw [if_neg h2, if_neg hn.2.2.1]
  by_cases h3 : c = "title".toList
  · rw [if_pos h3, if_pos rfl, ht h3]
  rw [if_neg h3, if_neg hn.2.2.2.1, if_neg hn.2.2.2.2.1, if_neg hn.2.2.2.2.2.1]

/-- After a `title` line the name has no leading blanks. -/
theorem name_stripped (E : Env α σ) (pre : List (List Char)) : ∀ (h : Hdr α) (b : List Char) (h1 : Hdr α),
    (b = "title".toList → lstrip h.name = h.name) → runLines E h b pre = .ok h1 → lastCmd b pre = "title".toList →
    lstrip h1.name = h1.name := by
  induction pre with
  | nil =>
    intro h b h1 hb hr hl
    simp only [runLines, Res.ok.injEq] at hr
    subst hr
    exact hb hl
  | cons l ls ih =>
    intro h b h1 hb hr hl
    simp only [runLines, Res.bind_eq_ok] at hr
    obtain ⟨h2, he, hr⟩ := hr
    refine ih h2 (command b l).1 h1 ?_ hr hl
    intro hc
    rw [hc] at he
    unfold exec at he
    rw [if_neg (by decide), if_neg (by decide), if_neg (by decide), if_neg (by decide), if_neg (by decide), if_neg (by decide),
      if_pos rfl] at he
    injection he with he
    subst he
    exact lstrip_idem _

/-- **C36**, the part that holds: a blank line after any command but the seven that take values is insignificant. -/
theorem blank_ok_partial (E : Env α σ) (lat : Hdr α → Res Unit) (pre post : List (List Char)) (w t : List Char)
    (hp : HdrLines [] pre) (hw : Blank w) (hf : lastCmd [] pre ≠ "format".toList) (hn : lastCmd [] pre ∉ needy) :
    Insignificant E lat pre post w t := by
  have key : header E (Hdr.init E) [] (.good (unlines (pre ++ w :: post) ++ t)) [] =
      header E (Hdr.init E) [] (.good (unlines (pre ++ post) ++ t)) [] := by
    rw [unlines_append, List.append_assoc, unlines_cons, unlines_append, List.append_assoc,
      header_blank E pre w _ hp hw (last_ne_atoms pre [] (by decide) hp), header_lines E pre _ [] _ [] hp]
    cases hr : runLines E (Hdr.init E) [] pre with
    | ok h1 =>
      simp only [Res.bind_ok]
      rw [exec_nil E h1 _ hf hn (name_stripped E pre _ [] h1 (fun h => absurd h (by decide)) hr)]
      rfl
    | err e => rfl
    | ub => rfl
  unfold Insignificant Stru.read
  rw [key]

/-- A blank line after a command that takes numbers or a shape: the structure cannot be read. If the lines before it are read without error,
the error is `structureError`. -/
theorem blank_error (E : Env α σ) (lat : Hdr α → Res Unit) (pre post : List (List Char)) (w t : List Char)
    (hp : HdrLines [] pre) (hw : Blank w) (hn : lastCmd [] pre ∈ needy) :
    (∀ s, read E lat (unlines (pre ++ w :: post) ++ t) ≠ .ok s) ∧
      ∀ h1, runLines E (Hdr.init E) [] pre = .ok h1 → read E lat (unlines (pre ++ w :: post) ++ t) = .err .structure := by
  have hx : ∀ h1 : Hdr α, exec E h1 (lastCmd [] pre) [] = .err .structure := by
    intro h1
    simp only [needy, List.mem_cons, List.not_mem_nil, or_false] at hn
    rcases hn with h | h | h | h | h | h <;> rw [h] <;>
      simp [exec, readShape, readSharp, vget_nil, vgets_nil, orErr, word]
  have key : header E (Hdr.init E) [] (.good (unlines (pre ++ w :: post) ++ t)) [] =
      runLines E (Hdr.init E) [] pre >>= fun _ => .err .structure := by
    rw [unlines_append, List.append_assoc, unlines_cons,
      header_blank E pre w _ hp hw (last_ne_atoms pre [] (by decide) hp)]
    congr 1
    funext h1
    rw [hx]
    rfl
  unfold Stru.read
  rw [key]
  constructor
  · intro s
    cases runLines E (Hdr.init E) [] pre <;> simp
  · intro h1 hr
    rw [hr]
    rfl

/-- A blank line after `format` acts like the line `format` without a value: the format becomes DISCUS. -/
theorem blank_format (E : Env α σ) (pre : List (List Char)) (w t : List Char) (hp : HdrLines [] pre) (hw : Blank w)
    (hf : lastCmd [] pre = "format".toList) :
    header E (Hdr.init E) [] (.good (unlines pre ++ (w ++ '\n' :: t))) [] =
      runLines E (Hdr.init E) [] pre >>= fun h1 => header E { h1 with discus := true } "format".toList (.good t) [] := by
  rw [header_blank E pre w t hp hw (last_ne_atoms pre [] (by decide) hp), hf]
  congr 1

/-! ### Witnesses -/

/-- "cell 1 1 1 90 90 90" followed by a blank line. -/
theorem not_claim (p : Scat.PT) (eight : ℚ) : ¬ Claim (env p eight) := by
  intro hc
  let pre : List (List Char) := ["cell 1 1 1 90 90 90".toList]
  have hp : HdrLines [] pre := by
    refine ⟨by decide, by decide, trivial⟩
  have hw : Blank [' '] := by
    refine ⟨by decide, by decide⟩
  have h := hc (fun _ => .ok ()) pre [] [' '] [] (by simpa using hp) hw
  have he := (blank_error (env p eight) (fun _ => .ok ()) pre [] [' '] [] hp hw (by decide)).1
  unfold Insignificant at h
  have hr : ∃ h1, runLines (env p eight) (Hdr.init (env p eight)) [] pre = .ok h1 ∧ h1.ncell = [0, 0, 0, 0] := ⟨_, rfl, rfl⟩
  obtain ⟨h1, hr, hnc⟩ := hr
  refine he ⟨h1, []⟩ ?_
  rw [h]
  unfold Stru.read
  rw [show pre ++ [] = pre by simp, header_lines _ pre _ [] _ [] hp, hr, Res.bind_ok]
  have : header (env p eight) h1 (lastCmd [] pre) (.good []) [] = .ok (h1, .failed) := by
    rw [Stru.header]
    simp [getline, cut, afterCut]
  rw [this, Res.bind_ok]
  have h0 : readAtoms (env p eight) h1.discus (rest .failed) = .ok [] := by
    rw [readAtoms]
    simp [rest, word]
  simp only [h0, Res.bind_ok, hnc]
  rfl

/-- "format pdffit" is read as the PDFFIT format, with a blank line after it as DISCUS format. -/
example (p : Scat.PT) (eight : ℚ) :
    (∃ h, runLines (env p eight) (Hdr.init (env p eight)) [] ["format pdffit".toList] = .ok h ∧ h.discus = false) ∧
      ∃ h, runLines (env p eight) (Hdr.init (env p eight)) [] ["format pdffit".toList, []] = .ok h ∧ h.discus = true :=
  ⟨⟨_, rfl, rfl⟩, ⟨_, rfl, rfl⟩⟩

/-- A blank line after a title and after a comment. -/
example (p : Scat.PT) (eight : ℚ) (lat : Hdr Num → Res Unit) (post : List (List Char)) (t : List Char) :
    Insignificant (env p eight) lat ["title  nickel".toList] post "\t\r".toList t ∧
      Insignificant (env p eight) lat ["format pdffit".toList, "# comment".toList] post [] t :=
  ⟨blank_ok_partial _ _ _ _ _ _ ⟨by decide, by decide, trivial⟩ ⟨by decide, by decide⟩ (by decide) (by decide),
    blank_ok_partial _ _ _ _ _ _ ⟨by decide, by decide, by decide, by decide, trivial⟩ ⟨by decide, by decide⟩ (by decide) (by decide)⟩

end Pdffit.C36
