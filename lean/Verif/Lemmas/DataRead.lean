import Verif.Model.DataRead
import Mathlib.Data.List.Basic

/-! # Lemmas on reading data: texts as lists of lines -/

namespace Pdffit.DataRead

/-- The text with the given lines, without a final end of line. -/
def text : List (List Char) → List Char
  | [] => []
  | [l] => l
  | l :: m :: ls => l ++ '\n' :: text (m :: ls)

/-- Every text consists of lines. -/
theorem exists_lines (t : List Char) : ∃ ls, ls ≠ [] ∧ (∀ l ∈ ls, '\n' ∉ l) ∧ t = text ls := by
  induction t with
  | nil => exact ⟨[[]], by simp, by simp, rfl⟩
  | cons c t ih =>
    obtain ⟨ls, h0, h1, h2⟩ := ih
    by_cases hc : c = '\n'
    · refine ⟨[] :: ls, by simp, by simpa using h1, ?_⟩
      cases ls with
      | nil => exact absurd rfl h0
      | cons m ls => subst hc h2; rfl
    · cases ls with
      | nil => exact absurd rfl h0
      | cons m ls =>
        refine ⟨(c :: m) :: ls, by simp, ?_, ?_⟩
        · intro l hl
          rcases List.mem_cons.1 hl with rfl | hl
          · have := h1 m (by simp)
            simp only [List.mem_cons, not_or]
            exact ⟨fun e => hc e.symm, this⟩
          · exact h1 l (by simp [hl])
        · cases ls with
          | nil => rw [h2]; rfl
          | cons p ls => rw [h2]; rfl

theorem cut_nl {a b : List Char} (h : '\n' ∉ a) : cut (a ++ '\n' :: b) = (a, some b) := by
  induction a with
  | nil => simp [cut]
  | cons c a ih =>
    simp only [List.mem_cons, not_or] at h
    have e := ih h.2
    simp only [List.cons_append, cut, e]
    rw [if_neg fun e => h.1 e.symm]

theorem cut_end {a : List Char} (h : '\n' ∉ a) : cut a = (a, none) := by
  induction a with
  | nil => rfl
  | cons c a ih =>
    simp only [List.mem_cons, not_or] at h
    simp only [cut, ih h.2]
    rw [if_neg fun e => h.1 e.symm]

theorem getline_more {a m : List Char} {ls : List (List Char)} (line : List Char) (h : '\n' ∉ a) :
    getline (.good (text (a :: m :: ls))) line = (.good (text (m :: ls)), a) := by
  change afterCut (cut (a ++ '\n' :: text (m :: ls))) = _
  rw [cut_nl h]
  rfl

theorem getline_last {a : List Char} (line : List Char) (h : '\n' ∉ a) :
    getline (.good (text [a])) line = (if a = [] then .failed else .eof, a) := by
  change afterCut (cut a) = _
  rw [cut_end h]
  cases a <;> rfl

/-- The state of the stream after the line before the lines `ls` has been read. -/
def Before (st : IS) (line : List Char) (ls : List (List Char)) : Prop :=
  (∀ l ∈ ls, '\n' ∉ l) ∧ match ls with
    | [] => st = if line = [] then .failed else .eof
    | m :: ls => st = .good (text (m :: ls))

theorem before_step {st : IS} {line m : List Char} {ls : List (List Char)} (h : Before st line (m :: ls)) :
    (getline st line).2 = m ∧ Before (getline st line).1 m ls := by
  obtain ⟨h1, h2⟩ := h
  dsimp only at h2
  subst h2
  have hm := h1 m (by simp)
  have hls : ∀ l ∈ ls, '\n' ∉ l := fun l hl => h1 l (by simp [hl])
  cases ls with
  | nil =>
    rw [getline_last _ hm]
    exact ⟨rfl, hls, rfl⟩
  | cons p ls =>
    rw [getline_more _ hm]
    exact ⟨rfl, hls, rfl⟩

theorem before_first {l : List Char} {ls : List (List Char)} (h : ∀ x ∈ l :: ls, '\n' ∉ x) :
    (getline (.good (text (l :: ls))) []).2 = l ∧ Before (getline (.good (text (l :: ls))) []).1 l ls :=
  before_step (st := .good (text (l :: ls))) (line := []) ⟨h, rfl⟩

theorem skip_end (n : ℕ) {st : IS} {line : List Char} (h : hashLine line = true) (hst : st = .eof ∨ st = .failed) :
    skipHash n st line = none := by
  induction n generalizing st with
  | zero => rfl
  | succ n ih =>
    unfold skipHash
    rw [if_pos h]
    rcases hst with rfl | rfl
    · exact ih (.inr rfl)
    · exact ih (.inr rfl)

/-- The loop does not end if all remaining lines begin with `#`. -/
theorem skip_hang (ls : List (List Char)) (n : ℕ) {st : IS} {line : List Char} (hb : Before st line ls)
    (h : ∀ l ∈ line :: ls, hashLine l = true) : skipHash n st line = none := by
  induction ls generalizing n st line with
  | nil =>
    refine skip_end n (h line (by simp)) ?_
    have := hb.2
    dsimp only at this
    rw [this]
    split <;> simp
  | cons m ls ih =>
    cases n with
    | zero => rfl
    | succ n =>
      unfold skipHash
      rw [if_pos (h line (by simp))]
      obtain ⟨e, hb'⟩ := before_step hb
      rw [e]
      exact ih n hb' fun l hl => h l (by simp [List.mem_cons.1 hl])

/-- The loop ends at the first line that does not begin with `#`. -/
theorem skip_found (hs : List (List Char)) (l : List Char) (ls : List (List Char)) (hs_hash : ∀ x ∈ hs, hashLine x = true)
    (hl : hashLine l = false) :
    ∀ {st : IS} {line m : List Char} {rest : List (List Char)}, hs ++ l :: ls = m :: rest → line = m →
      Before st line rest → ∀ n, hs.length < n → ∃ st', skipHash n st line = some (st', l) ∧ Before st' l ls := by
  induction hs with
  | nil =>
    intro st line m rest e hm hb n hn
    injection e with e1 e2
    subst e1 e2 hm
    obtain ⟨n, rfl⟩ : ∃ k, n = k + 1 := ⟨n - 1, by simp at hn; omega⟩
    exact ⟨st, by unfold skipHash; simp [hl], hb⟩
  | cons a hs ih =>
    intro st line m rest e hm hb n hn
    injection e with e1 e2
    subst e1 hm
    obtain ⟨n, rfl⟩ : ∃ k, n = k + 1 := ⟨n - 1, by simp at hn; omega⟩
    unfold skipHash
    rw [if_pos (hs_hash line (by simp))]
    cases rest with
    | nil => simp at e2
    | cons p rest =>
      obtain ⟨e', hb'⟩ := before_step hb
      exact ih (fun x hx => hs_hash x (by simp [hx])) e2 e' (by rw [e']; exact hb') n (by simp at hn; omega)

/-- The state during the loop over a "History" header. -/
theorem history_before (ls : List (List Char)) : ∀ {st : IS} {line : List Char}, Before st line ls →
    ∃ ms l, Before (history st line).1 l ms ∧ (history st line).2 = l ∧ (l :: ms).getLast? = (line :: ls).getLast? ∧
      (l :: ms) <:+ (line :: ls) := by
  induction ls with
  | nil =>
    intro st line hb
    have : st.isEof = true := by
      have := hb.2
      dsimp only at this
      rw [this]
      split <;> rfl
    unfold history
    rw [if_pos this]
    exact ⟨[], line, hb, rfl, rfl, List.suffix_refl _⟩
  | cons m ls ih =>
    intro st line hb
    unfold history
    split_ifs
    · exact ⟨m :: ls, line, hb, rfl, rfl, List.suffix_refl _⟩
    · exact ⟨m :: ls, line, hb, rfl, rfl, List.suffix_refl _⟩
    · obtain ⟨e, hb'⟩ := before_step hb
      rw [e]
      obtain ⟨ms, l, h1, h2, h3, h4⟩ := ih hb'
      exact ⟨ms, l, h1, h2, by simpa using h3, h4.trans (List.suffix_cons _ _)⟩

section
variable {K : Type} [Field K] [LinearOrder K]

omit [Field K] [LinearOrder K] in
theorem nums_nil (S : Scan K) : nums S [] = [] := by
  unfold nums
  split
  · rfl
  · rename_i x h
    have := S.lt [] x.1 x.2 h
    simp at this

omit [Field K] [LinearOrder K] in
/-- The data loop reads the lines up to the first one with less than two numbers. -/
theorem rows_before (S : Scan K) (ls : List (List Char)) : ∀ {st : IS} {line : List Char}, Before st line ls →
    rows S st line = ((line :: ls).map (nums S)).takeWhile fun r => decide (2 ≤ r.length) := by
  induction ls with
  | nil =>
    intro st line hb
    have e : (getline st line).1 = .failed := by
      have := hb.2
      dsimp only at this
      rw [this]
      split <;> rfl
    unfold rows
    rw [if_pos e]
    by_cases h : (nums S line).length < 2
    · simp [h]
    · rw [if_neg h]; simp [not_lt.1 h]
  | cons m ls ih =>
    intro st line hb
    unfold rows
    by_cases h : (nums S line).length < 2
    · simp [h]
    · rw [if_neg h]
      obtain ⟨e, hb'⟩ := before_step hb
      rw [e, ih hb']
      have h2 : 2 ≤ (nums S line).length := not_lt.1 h
      by_cases hf : (getline st line).1 = .failed
      · -- the last line is empty
        rw [if_pos hf]
        have : m = [] := by
          have hx := hb'.2
          rw [hf] at hx
          cases ls with
          | nil =>
            dsimp only at hx
            by_contra hm
            rw [if_neg hm] at hx
            cases hx
          | cons p ls => cases hx
        subst this
        simp [h2, nums_nil]
      · rw [if_neg hf]
        rw [List.map_cons (l := m :: ls), List.takeWhile_cons, if_pos (by simpa using h2)]

/-- What is read from a text with `#` lines followed by data lines. -/
theorem readStream_text (S : Scan K) (hs : List (List Char)) (l : List Char) (ls : List (List Char))
    (hn : ∀ x ∈ hs ++ l :: ls, '\n' ∉ x) (hh : ∀ x ∈ hs, hashLine x = true) (hl : hashLine l = false)
    (hH : ¬ "History".toList <+: l) (n : ℕ) (hn' : hs.length < n) :
    readStream S n (text (hs ++ l :: ls)) =
      some (readRows (nums S l).length (((l :: ls).map (nums S)).takeWhile fun r => decide (2 ≤ r.length))) := by
  obtain ⟨m, rest, e⟩ : ∃ m rest, hs ++ l :: ls = m :: rest := by
    cases hs with
    | nil => exact ⟨l, ls, rfl⟩
    | cons a hs => exact ⟨a, hs ++ l :: ls, rfl⟩
  have hm : ¬ "History".toList <+: m := by
    cases hs with
    | nil => injection e with e1; rw [← e1]; exact hH
    | cons a hs =>
      injection e with e1
      have := hh a (by simp)
      rw [e1] at this
      intro hp
      obtain ⟨t, ht⟩ := hp
      rw [← ht] at this
      simp [hashLine] at this
  rw [e] at hn ⊢
  obtain ⟨e1, hb⟩ := before_first hn
  obtain ⟨st', h1, h2⟩ := skip_found hs l ls hh hl e e1 (by rw [e1]; exact hb) n hn'
  unfold readStream header
  simp only [e1]
  have : "History".toList.isPrefixOf m = false := by
    rw [Bool.eq_false_iff]
    intro h
    exact hm (List.isPrefixOf_iff_prefix.1 h)
  rw [this, if_neg (by simp)]
  rw [e1] at h1
  simp only [e1, h1]
  rw [rows_before S ls h2]

end
/-- The loop over a "History" header ends at the first line that starts the data. -/
theorem history_found (pre : List (List Char)) (s : List Char) (tail : List (List Char)) (hpre : ∀ x ∈ pre, startData x = false)
    (hs : startData s = true) :
    ∀ {st : IS} {line : List Char} {rest : List (List Char)}, pre ++ s :: tail = line :: rest → Before st line rest →
      ∃ st', history st line = (st', s) ∧ Before st' s tail := by
  induction pre with
  | nil =>
    intro st line rest e hb
    injection e with e1 e2
    subst e1 e2
    unfold history
    split_ifs
    · exact ⟨st, rfl, hb⟩
    · exact ⟨st, rfl, hb⟩
  | cons a pre ih =>
    intro st line rest e hb
    injection e with e1 e2
    subst e1
    cases rest with
    | nil => simp at e2
    | cons m rest =>
      have hst : st = .good (text (m :: rest)) := hb.2
      unfold history
      rw [if_neg (by rw [hst]; simp [IS.isEof]), if_neg (by rw [hpre a (by simp)]; simp)]
      obtain ⟨e', hb'⟩ := before_step hb
      rw [e']
      exact ih (fun x hx => hpre x (by simp [hx])) e2 hb'

/-- Without such a line it ends with the last line. -/
theorem history_none (rest : List (List Char)) : ∀ {st : IS} {line : List Char}, Before st line rest →
    (∀ x ∈ line :: rest, startData x = false) →
    ∃ st' l, history st line = (st', l) ∧ Before st' l [] ∧ (line :: rest).getLast? = some l := by
  induction rest with
  | nil =>
    intro st line hb _
    have : st.isEof = true := by
      have := hb.2
      dsimp only at this
      rw [this]
      split <;> rfl
    unfold history
    rw [if_pos this]
    exact ⟨st, line, rfl, hb, rfl⟩
  | cons m rest ih =>
    intro st line hb h
    have hst : st = .good (text (m :: rest)) := hb.2
    unfold history
    rw [if_neg (by rw [hst]; simp [IS.isEof]), if_neg (by rw [h line (by simp)]; simp)]
    obtain ⟨e', hb'⟩ := before_step hb
    rw [e']
    obtain ⟨st', l, h1, h2, h3⟩ := ih hb' fun x hx => h x (by simp [List.mem_cons.1 hx])
    exact ⟨st', l, h1, h2, by simpa using h3⟩

theorem startData_hash {x : List Char} (h : startData x = true) : hashLine x = true := by
  unfold startData at h
  simp only [Bool.and_eq_true] at h
  exact h.1

theorem history_prefix {x : List Char} (h : "History".toList <+: x) : startData x = false ∧ hashLine x = false := by
  have e : hashLine x = false := by
    obtain ⟨t, rfl⟩ := h
    simp [hashLine]
  refine ⟨?_, e⟩
  cases hs : startData x with
  | false => rfl
  | true => rw [startData_hash hs] at e; cases e

section
variable {K : Type} [Field K] [LinearOrder K]

/-- What is read from a "History" file: the header up to the line `s`, `#` lines, data lines. -/
theorem readStream_history (S : Scan K) (h : List Char) (pre : List (List Char)) (s : List Char) (hs : List (List Char))
    (l : List Char) (ls : List (List Char)) (hn : ∀ x ∈ h :: pre ++ s :: hs ++ l :: ls, '\n' ∉ x) (hH : "History".toList <+: h)
    (hpre : ∀ x ∈ pre, startData x = false) (hst : startData s = true) (hh : ∀ x ∈ hs, hashLine x = true)
    (hl : hashLine l = false) (n : ℕ) (hn' : hs.length + 1 < n) :
    readStream S n (text (h :: pre ++ s :: hs ++ l :: ls)) =
      some (readRows (nums S l).length (((l :: ls).map (nums S)).takeWhile fun r => decide (2 ≤ r.length))) := by
  have e : h :: pre ++ s :: hs ++ l :: ls = h :: (pre ++ s :: hs ++ l :: ls) := rfl
  rw [e] at hn ⊢
  obtain ⟨e1, hb⟩ := before_first hn
  obtain ⟨st', h1, h2⟩ := history_found (h :: pre) s (hs ++ l :: ls) (by
    intro x hx
    rcases List.mem_cons.1 hx with rfl | hx
    · exact (history_prefix hH).1
    · exact hpre x hx) hst (line := h) (rest := pre ++ s :: hs ++ l :: ls) (by simp) hb
  obtain ⟨st'', h3, h4⟩ := skip_found (s :: hs) l ls (by
    intro x hx
    rcases List.mem_cons.1 hx with rfl | hx
    · exact startData_hash hst
    · exact hh x hx) hl rfl rfl h2 n (by simpa using hn')
  unfold readStream header
  simp only [e1]
  rw [if_pos (List.isPrefixOf_iff_prefix.2 hH), h1, h3]
  simp only
  rw [rows_before S ls h4]

end
end Pdffit.DataRead
