import Verif.Lemmas.Stru

/-! # Lemmas about reading what has been saved -/

namespace Pdffit.Stru
open DataRead

/-- What may follow a number. -/
def Ends (t : List Char) : Prop := ∀ c, t.head? = some c → isSpace c = true ∨ c = ','

/-- Printing and extraction fit together: a printed number is extracted as `rnd`, and printing that gives the same text; labels
are words that are looked up as themselves. -/
structure Fmt {α σ : Type} (E : Env α σ) (rnd : ℕ → α → α) : Prop where
  num : ∀ (d : ℕ) (x : α) (w t : List Char), 0 < d → (∀ c ∈ w, isSpace c = true) → Ends t →
    E.S.f (w ++ (E.fix d x ++ t)) = some (rnd d x, t)
  again : ∀ (d : ℕ) (x : α), 0 < d → E.fix d (rnd d x) = E.fix d x
  chars : ∀ (d : ℕ) (x : α), ∀ c ∈ E.fix d x, isSpace c = false ∧ c ≠ ','
  int : ∀ (z : ℤ) (w t : List Char), (∀ c ∈ w, isSpace c = true) → Ends t → E.I.f (w ++ (E.int z ++ t)) = some (z, t)
  ints : ∀ (z : ℤ), ∀ c ∈ E.int z, isSpace c = false ∧ c ≠ ','
  look : ∀ e, E.look (E.symb e) = some e
  symb : ∀ e, E.symb e ≠ [] ∧ ∀ c ∈ E.symb e, isSpace c = false

theorem ends_nil : Ends [] := by intro c h; simp at h
theorem ends_space (c : Char) (t : List Char) (h : isSpace c = true) : Ends (c :: t) := by
  intro d hd; simp at hd; exact .inl (hd ▸ h)
theorem ends_comma (t : List Char) : Ends (',' :: t) := by
  intro d hd; simp at hd; exact .inr hd.symm

theorem pad_spaces (n : ℕ) (s : List Char) : ∃ w, pad n s = w ++ s ∧ ∀ c ∈ w, c = ' ' :=
  ⟨_, rfl, fun _ hc => List.eq_of_mem_replicate hc⟩

theorem space_blank : isSpace ' ' = true := by decide
theorem space_nl : isSpace '\n' = true := by decide

/-- A word after blanks, before a blank or the end. -/
theorem word_of (w x t : List Char) (hw : ∀ c ∈ w, isSpace c = true) (hx : x ≠ []) (hs : ∀ c ∈ x, isSpace c = false)
    (ht : ∀ c, t.head? = some c → isSpace c = true) : word (w ++ (x ++ t)) = (x, t) := by
  have h1 : (w ++ (x ++ t)).dropWhile isSpace = x ++ t := by
    rw [List.dropWhile_append_of_pos hw]
    cases x with
    | nil => exact absurd rfl hx
    | cons c x =>
      rw [List.cons_append, List.dropWhile_cons_of_neg]
      rw [hs c (by simp)]
      decide
  have h2 : t.takeWhile (fun c => !isSpace c) = [] ∧ t.dropWhile (fun c => !isSpace c) = t := by
    cases t with
    | nil => simp
    | cons c t => simp [ht c rfl]
  unfold word
  rw [h1, List.takeWhile_append_of_pos (by simpa using hs), List.dropWhile_append_of_pos (by simpa using hs), h2.1, h2.2]
  simp

/-- Numbers separated by ", ". -/
theorem vgets_commas {β : Type} (S : Scan β) (pr : β → List Char) (r : β → β) (hp : ∀ (x : β) (w t : List Char),
      (∀ c ∈ w, isSpace c = true) → Ends t → S.f (w ++ (pr x ++ t)) = some (r x, t)) :
    ∀ (l : List β) (w : List Char), (∀ c ∈ w, isSpace c = true) →
      vgets S l.length (w ++ commas (l.map fun x => pad 9 (pr x))) = some (l.map r, if l = [] then w else []) := by
  intro l
  induction l with
  | nil => intro w _; simp [vgets, commas]
  | cons x l ih =>
    intro w hw
    obtain ⟨v, hv, hvs⟩ := pad_spaces 9 (pr x)
    have hwv : ∀ c ∈ w ++ v, isSpace c = true := by
      intro c hc
      rcases List.mem_append.1 hc with h | h
      · exact hw c h
      · rw [hvs c h]; exact space_blank
    cases l with
    | nil =>
      have := hp x (w ++ v) [] hwv ends_nil
      simp only [List.append_nil] at this
      simp only [List.length_cons, List.length_nil, vgets, vget, List.map_cons, List.map_nil, commas, hv]
      rw [← List.append_assoc, this]
      simp [skipDelim]
    | cons y l =>
      have := hp x (w ++ v) (',' :: ' ' :: commas ((y :: l).map fun x => pad 9 (pr x))) hwv (ends_comma _)
      have ih' := ih [' '] (by simp [space_blank])
      rw [List.length_cons, vgets]
      simp only [List.map_cons, commas] at this ⊢
      rw [hv, vget]
      rw [show w ++ (v ++ pr x ++ ',' :: ' ' :: commas (pad 9 (pr y) :: List.map (fun x => pad 9 (pr x)) l)) =
        w ++ v ++ (pr x ++ ',' :: ' ' :: commas (pad 9 (pr y) :: List.map (fun x => pad 9 (pr x)) l)) by simp, this]
      have hsk : skipDelim (',' :: ' ' :: commas (pad 9 (pr y) :: List.map (fun x => pad 9 (pr x)) l)) =
          [' '] ++ commas ((y :: l).map fun x => pad 9 (pr x)) := by
        have : isSpace ',' = false := by decide
        simp [skipDelim, this]
      simp only [Option.map_some, Option.bind_some]
      rw [hsk, ih']
      simp

theorem isSpace_of_mem_pad {n : ℕ} {s : List Char} {c : Char} (h : c ∈ pad n s) : c = ' ' ∨ c ∈ s := by
  obtain ⟨w, hw, hs⟩ := pad_spaces n s
  rw [hw] at h
  rcases List.mem_append.1 h with h | h
  · exact .inl (hs c h)
  · exact .inr h

theorem nl_commas (l : List (List Char)) (h : ∀ x ∈ l, '\n' ∉ x) : '\n' ∉ commas l := by
  induction l with
  | nil => simp [commas]
  | cons x l ih =>
    cases l with
    | nil => simpa [commas] using h x (by simp)
    | cons y l =>
      have := ih fun z hz => h z (by simp at hz ⊢; tauto)
      have hx := h x (by simp)
      simp only [commas, List.mem_append, List.mem_cons]
      rintro (h | h | h | h)
      · exact hx h
      · exact absurd h (by decide)
      · exact absurd h (by decide)
      · exact this h

end Pdffit.Stru
