import Verif.Props.C32

/-!
# C33: reading data terminates

Violated: `while (line[0] == '#') getline(fdata,line)` (pdf.cc 1487) does not test the stream, and `getline` at the end of the
stream leaves the line as it is. `hangs_iff` says exactly for which texts (other than "History" files) this happens: all lines begin
with `#`, including the last one, which therefore has no end of line. `hangs_history_iff` says the same for "History" files. `terminates_partial` covers every text whose last line does not
begin with `#`, in particular every text that ends with an end of line.

All other loops (the "History" loop, the data loop, the count of columns) are total functions of the model, whose termination is part of their
definition.
-/

namespace Pdffit.C33
open DataRead

variable {K : Type} [Field K] [LinearOrder K]

/-- `read_data_string` does not end: however often the loop runs it is not finished. -/
def Hangs (S : Scan K) (t : List Char) : Prop := ∀ n, readStream S n t = none

/-- Any text whose last line does not begin with `#` is read in finitely many steps. -/
theorem terminates_partial (S : Scan K) (ls : List (List Char)) (hne : ls ≠ []) (hn : ∀ l ∈ ls, '\n' ∉ l)
    (hlast : ∀ l, ls.getLast? = some l → hashLine l = false) : ∃ n r, readStream S n (text ls) = some r := by
  cases ls with
  | nil => exact absurd rfl hne
  | cons l ls =>
    obtain ⟨e1, hb⟩ := before_first hn
    have fin : ∀ (ms : List (List Char)) {st : IS} {line : List Char}, Before st line ms →
        (line :: ms).getLast? = (l :: ls).getLast? → ∃ n x, skipHash n st line = some x := by
      intro ms st line hb' hg
      obtain ⟨y, hy⟩ : ∃ y, (line :: ms).getLast? = some y := by
        rw [List.getLast?_eq_some_getLast (List.cons_ne_nil _ _)]; exact ⟨_, rfl⟩
      have hyh : hashLine y = false := hlast y (by rw [← hg, hy])
      -- the first line that does not begin with #
      have key : ∀ L : List (List Char), L.getLast? = some y → ∃ hs z zs, L = hs ++ z :: zs ∧ (∀ x ∈ hs, hashLine x = true) ∧
          hashLine z = false := by
        intro L
        induction L with
        | nil => intro h; simp at h
        | cons a L ih =>
          intro h
          by_cases ha : hashLine a = false
          · exact ⟨[], a, L, rfl, by simp, ha⟩
          · cases L with
            | nil =>
              simp only [List.getLast?_singleton, Option.some.injEq] at h
              rw [h] at ha
              exact absurd hyh ha
            | cons b L =>
              obtain ⟨hs, z, zs, e, h1, h2⟩ := ih (by simpa [List.getLast?_cons_cons] using h)
              refine ⟨a :: hs, z, zs, by rw [e]; rfl, ?_, h2⟩
              intro x hx
              rcases List.mem_cons.1 hx with rfl | hx
              · simpa using ha
              · exact h1 x hx
      obtain ⟨hs, z, zs, e, h1, h2⟩ := key _ hy
      obtain ⟨st', h3, _⟩ := skip_found hs z zs h1 h2 e.symm rfl hb' (hs.length + 1) (by omega)
      exact ⟨_, _, h3⟩
    unfold readStream header
    simp only [e1]
    split_ifs
    · obtain ⟨ms, m, h1, h2, h3, _⟩ := history_before ls hb
      obtain ⟨n, x, hx⟩ := fin ms h1 h3
      refine ⟨n, readRows (nums S x.2).length (rows S x.1 x.2), ?_⟩
      rw [h2, hx]
    · obtain ⟨n, x, hx⟩ := fin ls hb rfl
      refine ⟨n, readRows (nums S x.2).length (rows S x.1 x.2), ?_⟩
      rw [e1, hx]

/-- Every text that ends with an end of line is read in finitely many steps. -/
theorem terminates_newline_partial (S : Scan K) (t : List Char) (h : t.getLast? = some '\n') :
    ∃ n r, readStream S n t = some r := by
  obtain ⟨ls, h0, h1, rfl⟩ := exists_lines t
  refine terminates_partial S ls h0 h1 ?_
  clear h0
  induction ls with
  | nil => simp [text] at h
  | cons a ls ih =>
    intro l hl
    cases ls with
    | nil =>
      have : '\n' ∈ a := List.mem_of_getLast? h
      exact absurd this (h1 a (by simp))
    | cons b ls =>
      by_cases hb : text (b :: ls) = []
      · have hl' : l ∈ b :: ls := List.mem_of_getLast? (by simpa [List.getLast?_cons_cons] using hl)
        cases ls with
        | nil =>
          simp only [List.mem_singleton] at hl'
          subst hl'
          have : l = [] := hb
          subst this
          rfl
        | cons c ls => simp [text] at hb
      · have e : (text (b :: ls)).getLast? = some '\n' := by
          have : (a ++ '\n' :: text (b :: ls)).getLast? = some '\n' := h
          rw [List.getLast?_append] at this
          obtain ⟨c, cs, hc⟩ := List.exists_cons_of_ne_nil hb
          rw [hc] at this ⊢
          simpa [List.getLast?_cons_cons] using this
        exact ih (fun x hx => h1 x (List.mem_cons_of_mem _ hx)) e l (by simpa [List.getLast?_cons_cons] using hl)

/-- **C33, violation**: exactly the texts in which every line, also the last one, begins with `#` are never finished (texts whose first
line begins with "History" aside). -/
theorem hangs_iff (S : Scan K) (l : List Char) (ls : List (List Char)) (hn : ∀ x ∈ l :: ls, '\n' ∉ x)
    (hH : ¬ "History".toList <+: l) : Hangs S (text (l :: ls)) ↔ ∀ x ∈ l :: ls, hashLine x = true := by
  constructor
  · intro h
    by_contra hc
    -- the first line that does not begin with #
    have key : ∀ L : List (List Char), (¬ ∀ x ∈ L, hashLine x = true) →
        ∃ hs z zs, L = hs ++ z :: zs ∧ (∀ x ∈ hs, hashLine x = true) ∧ hashLine z = false := by
      intro L
      induction L with
      | nil => intro h; simp at h
      | cons a L ih =>
        intro h
        by_cases ha : hashLine a = true
        · obtain ⟨hs, z, zs, e, h1, h2⟩ := ih fun h' => h fun x hx => by
            rcases List.mem_cons.1 hx with rfl | hx
            · exact ha
            · exact h' x hx
          refine ⟨a :: hs, z, zs, by rw [e]; rfl, ?_, h2⟩
          intro x hx
          rcases List.mem_cons.1 hx with rfl | hx
          · exact ha
          · exact h1 x hx
        · exact ⟨[], a, L, rfl, by simp, by simpa using ha⟩
    obtain ⟨hs, z, zs, e, h1, h2⟩ := key _ hc
    obtain ⟨e1, hb⟩ := before_first hn
    obtain ⟨st', h3, _⟩ := skip_found hs z zs h1 h2 e.symm e1 (by rw [e1]; exact hb) (hs.length + 1) (by omega)
    have := h (hs.length + 1)
    unfold readStream header at this
    simp only [e1] at this
    have hp : "History".toList.isPrefixOf l = false := by
      rw [Bool.eq_false_iff]
      intro h
      exact hH (List.isPrefixOf_iff_prefix.1 h)
    rw [e1] at h3
    rw [hp, if_neg (by simp)] at this
    simp only [e1, h3] at this
    cases this
  · intro h n
    obtain ⟨e1, hb⟩ := before_first hn
    unfold readStream header
    simp only [e1]
    have hp : "History".toList.isPrefixOf l = false := by
      rw [Bool.eq_false_iff]
      intro h
      exact hH (List.isPrefixOf_iff_prefix.1 h)
    rw [hp, if_neg (by simp)]
    simp only [e1]
    rw [skip_hang ls n hb h]

theorem first_not_hash : ∀ L : List (List Char), (¬ ∀ x ∈ L, hashLine x = true) →
    ∃ hs z zs, L = hs ++ z :: zs ∧ (∀ x ∈ hs, hashLine x = true) ∧ hashLine z = false := by
  intro L
  induction L with
  | nil => intro h; simp at h
  | cons a L ih =>
    intro h
    by_cases ha : hashLine a = true
    · obtain ⟨hs, z, zs, e, h1, h2⟩ := ih fun h' => h fun x hx => by
        rcases List.mem_cons.1 hx with rfl | hx
        · exact ha
        · exact h' x hx
      refine ⟨a :: hs, z, zs, by rw [e]; rfl, ?_, h2⟩
      intro x hx
      rcases List.mem_cons.1 hx with rfl | hx
      · exact ha
      · exact h1 x hx
    · exact ⟨[], a, L, rfl, by simp, by simpa using ha⟩

/-- The loop over `#` lines ends unless all lines that follow begin with `#`. -/
theorem skip_iff {st : IS} {line : List Char} {ls : List (List Char)} (hb : Before st line ls) :
    (∀ n, skipHash n st line = none) ↔ ∀ x ∈ line :: ls, hashLine x = true := by
  constructor
  · intro h
    by_contra hc
    obtain ⟨hs, z, zs, e, h1, h2⟩ := first_not_hash _ hc
    obtain ⟨st', h3, _⟩ := skip_found hs z zs h1 h2 e.symm rfl hb (hs.length + 1) (by omega)
    rw [h] at h3
    cases h3
  · exact fun h n => skip_hang ls n hb h

theorem first_start (L : List (List Char)) : (∀ x ∈ L, ¬ C32.IsStart x) ∨
    ∃ pre s tail, L = pre ++ s :: tail ∧ (∀ x ∈ pre, ¬ C32.IsStart x) ∧ C32.IsStart s := by
  induction L with
  | nil => exact .inl (by simp)
  | cons a L ih =>
    by_cases ha : C32.IsStart a
    · exact .inr ⟨[], a, L, rfl, by simp, ha⟩
    · rcases ih with h | ⟨pre, s, tail, rfl, h1, h2⟩
      · refine .inl fun x hx => ?_
        rcases List.mem_cons.1 hx with rfl | hx
        · exact ha
        · exact h x hx
      · refine .inr ⟨a :: pre, s, tail, rfl, fun x hx => ?_, h2⟩
        rcases List.mem_cons.1 hx with rfl | hx
        · exact ha
        · exact h1 x hx

/-- **C33, violation**: exactly the "History" files are never finished in which all lines after the line that starts the data begin
with `#`, or which have no such line and whose last line begins with `#`. -/
theorem hangs_history_iff (S : Scan K) (h : List Char) (ls : List (List Char)) (hn : ∀ x ∈ h :: ls, '\n' ∉ x)
    (hH : "History".toList <+: h) : Hangs S (text (h :: ls)) ↔
      (∃ pre s tail, ls = pre ++ s :: tail ∧ (∀ x ∈ pre, ¬ C32.IsStart x) ∧ C32.IsStart s ∧ ∀ x ∈ tail, hashLine x = true) ∨
      (∀ x ∈ ls, ¬ C32.IsStart x) ∧ ∃ l, ls.getLast? = some l ∧ hashLine l = true := by
  have red : ∀ {st : IS} {line : List Char}, history (getline (.good (text (h :: ls))) []).1 h = (st, line) →
      (Hangs S (text (h :: ls)) ↔ ∀ n, skipHash n st line = none) := by
    intro st line e
    have e1 := (before_first hn).1
    unfold Hangs readStream header
    simp only [e1, if_pos (List.isPrefixOf_iff_prefix.2 hH), e]
    constructor
    · intro h n
      have := h n
      cases hs : skipHash n st line with
      | none => rfl
      | some x => rw [hs] at this; cases this
    · intro h n
      rw [h n]
  obtain ⟨e1, hb⟩ := before_first hn
  have hh0 := history_prefix hH
  rcases first_start ls with hno | ⟨pre, s, tail, rfl, h1, h2⟩
  · obtain ⟨st', l, e2, hb', hl⟩ := history_none ls hb (by
      intro x hx
      rcases List.mem_cons.1 hx with rfl | hx
      · exact hh0.1
      · exact C32.not_start (hno x hx))
    rw [red e2, skip_iff hb']
    constructor
    · intro hx
      have hx := hx l (by simp)
      refine .inr ⟨hno, l, ?_, hx⟩
      cases ls with
      | nil =>
        simp only [List.getLast?_singleton, Option.some.injEq] at hl
        rw [← hl, hh0.2] at hx
        cases hx
      | cons m ls => simpa [List.getLast?_cons_cons] using hl
    · rintro (⟨pre, s, tail, rfl, -, hs, -⟩ | ⟨-, l', hl', hx⟩)
      · exact absurd hs (hno s (by simp))
      · cases ls with
        | nil => simp at hl'
        | cons m ls =>
          rw [List.getLast?_cons_cons, hl'] at hl
          injection hl with hl
          subst hl
          simpa using hx
  · obtain ⟨st', e2, hb'⟩ := history_found (h :: pre) s tail (by
      intro x hx
      rcases List.mem_cons.1 hx with rfl | hx
      · exact hh0.1
      · exact C32.not_start (h1 x hx)) ((C32.startData_iff s).2 h2) rfl hb
    rw [red e2, skip_iff hb']
    constructor
    · exact fun hx => .inl ⟨pre, s, tail, rfl, h1, h2, fun x hx' => hx x (by simp [hx'])⟩
    · rintro (⟨pre', s', tail', e, h1', h2', hx⟩ | ⟨hno, -⟩)
      · -- the first such line is unique
        have uniq : ∀ (p p' : List (List Char)), p ++ s :: tail = p' ++ s' :: tail' → (∀ x ∈ p, ¬ C32.IsStart x) →
            (∀ x ∈ p', ¬ C32.IsStart x) → tail = tail' := by
          intro p
          induction p with
          | nil =>
            intro p' e _ hp'
            cases p' with
            | nil => injection e
            | cons a p' =>
              injection e with e _
              exact absurd (e ▸ h2) (hp' a (by simp))
          | cons a p ih =>
            intro p' e hp hp'
            cases p' with
            | nil =>
              injection e with e _
              exact absurd (e ▸ h2') (hp a (by simp))
            | cons b p' =>
              injection e with _ e
              exact ih p' e (fun x hx => hp x (by simp [hx])) fun x hx => hp' x (by simp [hx])
        rw [uniq _ _ e h1 h1']
        intro x hx'
        rcases List.mem_cons.1 hx' with rfl | hx'
        · exact startData_hash ((C32.startData_iff _).2 h2)
        · exact hx x hx'
      · exact absurd h2 (hno s (by simp))

/-- The simplest text that is never finished. -/
theorem hangs (S : Scan K) : Hangs S "#".toList :=
  (hangs_iff S "#".toList [] (by simp) (by decide)).2 (by decide)

/-- A "History" file cut off in its header is never finished either. -/
theorem hangs_history (S : Scan K) : Hangs S "History\n# c".toList := by
  intro n
  have e1 : getline (.good "History\n# c".toList) [] = (.good "# c".toList, "History".toList) := by decide
  have e2 : getline (.good "# c".toList) "History".toList = (.eof, "# c".toList) := by decide
  unfold readStream header
  simp only [e1]
  rw [if_pos (by decide)]
  unfold history
  rw [if_neg (by decide), if_neg (by decide), e2]
  unfold history
  rw [if_pos (by decide), skip_end n (by decide) (.inl rfl)]

/-- `"#x\n1 2\n"` is read. -/
example (S : Scan K) : ∃ n r, readStream S n "#x\n1 2\n".toList = some r :=
  terminates_newline_partial S _ (by decide)

end Pdffit.C33
