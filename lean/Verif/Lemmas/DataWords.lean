import Verif.Model.DataRead
import Mathlib.Data.List.Basic

/-! # Lemmas on the words of a line -/

namespace Pdffit.DataRead

/-- The text is empty or begins with a blank. -/
def Brk (t : List Char) : Prop := t = [] ∨ ∃ c u, t = c :: u ∧ isSpace c = true

theorem words_space {c : Char} {l : List Char} (h : isSpace c = true) : words (c :: l) = words l := by
  simp [words, wordsAux, h]

theorem wordsAux_split (x : List Char) : ∃ t, x = (wordsAux x).1 ++ t ∧ Brk t ∧ words t = (wordsAux x).2 ∧
    ∀ c ∈ (wordsAux x).1, isSpace c = false := by
  induction x with
  | nil => exact ⟨[], rfl, .inl rfl, rfl, by simp [wordsAux]⟩
  | cons c l ih =>
    obtain ⟨t, h1, h2, h3, h4⟩ := ih
    by_cases hc : isSpace c = true
    · refine ⟨c :: l, by simp [wordsAux, hc], .inr ⟨c, l, rfl, hc⟩, ?_, by simp [wordsAux, hc]⟩
      rw [words_space hc]
      simp [wordsAux, hc, words]
    · refine ⟨t, ?_, h2, ?_, ?_⟩
      · simp [wordsAux, hc, ← h1]
      · simp [wordsAux, hc, h3]
      · intro d hd
        simp only [wordsAux, hc, Bool.false_eq_true, if_false, List.mem_cons] at hd
        rcases hd with rfl | hd
        · simpa using hc
        · exact h4 d hd

theorem words_split (x : List Char) : ∀ w ws, words x = w :: ws → ∃ b t, x = b ++ (w ++ t) ∧ (∀ c ∈ b, isSpace c = true) ∧
    w ≠ [] ∧ (∀ c ∈ w, isSpace c = false) ∧ Brk t ∧ words t = ws := by
  induction x with
  | nil => intro w ws h; simp [words, wordsAux] at h
  | cons c l ih =>
    intro w ws h
    by_cases hc : isSpace c = true
    · rw [words_space hc] at h
      obtain ⟨b, t, h1, h2, h3, h4, h5, h6⟩ := ih w ws h
      refine ⟨c :: b, t, by rw [h1]; rfl, ?_, h3, h4, h5, h6⟩
      intro d hd
      rcases List.mem_cons.1 hd with rfl | hd
      · exact hc
      · exact h2 d hd
    · obtain ⟨t, h1, h2, h3, h4⟩ := wordsAux_split (c :: l)
      have hne : (wordsAux (c :: l)).1 ≠ [] := by simp [wordsAux, hc]
      unfold words at h
      rw [if_neg hne] at h
      injection h with e1 e2
      rw [← e1, ← e2]
      exact ⟨[], t, h1, by simp, hne, h4, h2, h3⟩

theorem wordsAux_brk {t : List Char} (h : Brk t) : wordsAux t = ([], words t) := by
  rcases h with rfl | ⟨c, u, rfl, hc⟩
  · rfl
  · rw [words_space hc]
    simp [wordsAux, hc, words]

theorem words_append (b w t : List Char) (hb : ∀ c ∈ b, isSpace c = true) (hw : w ≠ []) (hs : ∀ c ∈ w, isSpace c = false)
    (ht : Brk t) : words (b ++ (w ++ t)) = w :: words t := by
  induction b with
  | nil =>
    have key : ∀ w : List Char, (∀ c ∈ w, isSpace c = false) → wordsAux (w ++ t) = (w, words t) := by
      intro w
      induction w with
      | nil => intro _; exact wordsAux_brk ht
      | cons c w ih =>
        intro h
        have := ih fun d hd => h d (by simp [hd])
        simp [wordsAux, this, h c (by simp)]
    unfold words
    rw [List.nil_append, key w hs]
    simp [hw]
    rfl
  | cons c b ih =>
    rw [List.cons_append, words_space (hb c (by simp))]
    exact ih fun d hd => hb d (by simp [hd])

end Pdffit.DataRead
