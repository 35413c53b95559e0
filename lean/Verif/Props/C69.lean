import Verif.Model.BondText
import Verif.Props.C64
import Verif.Props.C19

/-!
# C69: the bonds and angles shown are those that were found

The text of `blen` and `bang` is read back by somebody who knows only its layout.

* `C69_listing`: `blen(a1, a2, lb, ub)` with symbols gives the symbols, the boundaries, and for every bond the atoms, the length and the standard
  deviation, in the order of `bond_length_types`; "No pairs found" is shown exactly when there are none. `C69_phase` is the same for the bonds
  computed from a phase, of which `C19.exact_partial` says that they are all bonds within the boundaries.
* `C69_pair`, `C69_phase_pair`, `C69_angle`, `C69_phase_angle`: the same for `blen(i, j)` and `bang(i, j, k)`, with ValueError for atoms that do
  not exist. The indexing of the list of symbols never fails.
* `C69_index_partial`: an index from 1 to the number of atom types stands for that type. Other indices violate the claim: an index beyond the last
  type shows nothing and raises nothing (`C69_index_beyond`), and 0 shows the bonds of the last type (`C69_index_zero`).
-/

namespace Pdffit.C69
open BText RText Stru
open DataRead (isSpace)

/-- A symbol is a word. -/
def Word (s : List Char) : Prop := s ≠ [] ∧ ∀ c ∈ s, isSpace c = false

theorem scanInt_text (z : ℤ) (t : List Char) (ht : ∀ c, t.head? = some c → isDig c = false) : scanInt (intStr z ++ t) = some (z, t) := by
  obtain ⟨h1, h2⟩ := drop_spaces [] (by simp) (z < 0) z.natAbs t
  obtain ⟨h3, h4⟩ := span_dig (natStr z.natAbs) t (natStr_dig _) ht
  rw [List.nil_append] at h1
  unfold scanInt intStr
  simp only [h1, h2, h3, h4, val_natStr]
  rw [if_neg (natStr_ne _)]
  congr 2
  by_cases hz : z < 0
  · simp only [hz, decide_true, if_true]; omega
  · simp only [hz, decide_false, Bool.false_eq_true, if_false]; omega

theorem drop_blanks (w t : List Char) (hw : ∀ c ∈ w, isSpace c = true) (ht : ∀ c, t.head? = some c → isSpace c = false) :
    (w ++ t).dropWhile isSpace = t := by
  rw [List.dropWhile_append_of_pos hw]
  cases t with
  | nil => rfl
  | cons c t => rw [List.dropWhile_cons_of_neg]; rw [ht c rfl]; decide

theorem readLabel_text (s : List Char) (hs : Word s) (z : ℤ) (w t : List Char) (hw : ∀ c ∈ w, isSpace c = true) :
    readLabel (w ++ (label s z ++ t)) = some ((s, z), t) := by
  obtain ⟨c, l, hl⟩ := List.exists_cons_of_ne_nil hs.1
  have h1 : (w ++ (label s z ++ t)).dropWhile isSpace = s ++ (" (#".toList ++ (intStr z ++ (')' :: t))) := by
    rw [drop_blanks _ _ hw]
    · simp [label]
    · intro d hd
      rw [hl] at hd
      simp [label] at hd
      exact hs.2 d (by rw [hl, hd]; simp)
  have hn : ∀ d ∈ s, (!isSpace d) = true := fun d hd => by rw [hs.2 d hd]; rfl
  unfold readLabel
  simp only [h1]
  rw [List.takeWhile_append_of_pos hn, List.dropWhile_append_of_pos hn]
  have h2 : ((" (#".toList ++ (intStr z ++ (')' :: t))).dropWhile fun c => !isSpace c) = " (#".toList ++ (intStr z ++ (')' :: t)) := by
    show (' ' :: _).dropWhile _ = ' ' :: _
    rw [List.dropWhile_cons_of_neg (by decide)]
  have h3 : ((" (#".toList ++ (intStr z ++ (')' :: t))).takeWhile fun c => !isSpace c) = [] := by
    show (' ' :: _).takeWhile _ = []
    rw [List.takeWhile_cons_of_neg (by decide)]
  rw [h2, h3]
  have h4 : (" (#".toList ++ (intStr z ++ (')' :: t))).take 3 = " (#".toList := rfl
  have h5 : (" (#".toList ++ (intStr z ++ (')' :: t))).drop 3 = intStr z ++ (')' :: t) := rfl
  rw [if_pos h4, h5, scanInt_text z (')' :: t) (by intro c hc; simp at hc; rw [← hc]; decide)]
  simp

theorem skipTo_text (c : Char) (w t : List Char) (hw : ∀ c ∈ w, isSpace c = true) (hc : isSpace c = false) :
    skipTo c (w ++ (c :: t)) = some t := by
  unfold skipTo
  rw [drop_blanks w (c :: t) hw (by intro d hd; simp at hd; rw [← hd]; exact hc)]
  simp

theorem blanks (n : ℕ) : ∀ c ∈ List.replicate n ' ', isSpace c = true := fun c hc => by
  rw [List.eq_of_mem_replicate hc]; decide

/-- The line of a bond gives back the atoms, and the value and standard deviation as printed. -/
theorem C69_line (d dd : Val) (hd : Ok d) (hdd : Ok dd) (i j : ℤ) (s0 s1 : List Char) (h0 : Word s0) (h1 : Word s1) :
    readBond (bondLine d dd i j s0 s1) = some ⟨(s0, i), (s1, j), rnd 6 d, seen 6 d dd⟩ := by
  obtain ⟨m, hm⟩ : ∃ m, padr 10 (label s0 i) = label s0 i ++ List.replicate m ' ' := ⟨_, rfl⟩
  obtain ⟨n, hn⟩ : ∃ n, padr 30 ("   ".toList ++ padr 10 (label s0 i) ++ " -   ".toList ++ label s1 j ++ [' ']) =
    ("   ".toList ++ padr 10 (label s0 i) ++ " -   ".toList ++ label s1 j ++ [' ']) ++ List.replicate n ' ' := ⟨_, rfl⟩
  have hc := C64.value_std_read_py d dd hd hdd " A".toList (after_blank (by decide))
  have e : bondLine d dd i j s0 s1 = "   ".toList ++ (label s0 i ++ ((List.replicate m ' ' ++ [' ']) ++ ('-' :: ("   ".toList ++ (label s1 j ++
      ((' ' :: List.replicate n ' ') ++ ('=' :: ("   ".toList ++ (pyCell d dd ++ " A".toList))))))))) := by
    unfold bondLine
    rw [hn, hm]
    simp
  have a1 := readLabel_text s0 h0 i "   ".toList ((List.replicate m ' ' ++ [' ']) ++ ('-' :: ("   ".toList ++ (label s1 j ++
      ((' ' :: List.replicate n ' ') ++ ('=' :: ("   ".toList ++ (pyCell d dd ++ " A".toList)))))))) (by decide)
  have a2 := skipTo_text '-' (List.replicate m ' ' ++ [' ']) ("   ".toList ++ (label s1 j ++
      ((' ' :: List.replicate n ' ') ++ ('=' :: ("   ".toList ++ (pyCell d dd ++ " A".toList)))))) (by
    rw [← List.replicate_succ']; exact blanks _) (by decide)
  have a3 := readLabel_text s1 h1 j "   ".toList ((' ' :: List.replicate n ' ') ++ ('=' :: ("   ".toList ++ (pyCell d dd ++ " A".toList))))
    (by decide)
  have a4 := skipTo_text '=' (' ' :: List.replicate n ' ') ("   ".toList ++ (pyCell d dd ++ " A".toList)) (by
    rw [← List.replicate_succ]; exact blanks _) (by decide)
  have a5 : readCell ("   ".toList ++ (pyCell d dd ++ " A".toList)) = some ((rnd 6 d, seen 6 d dd), " A".toList) := by
    have := readCell_text (p := 6) (q := 6) (by norm_num) (by norm_num) d dd hd hdd "   ".toList " A".toList (by decide) (after_blank (by decide))
    unfold pyCell
    rw [List.append_assoc (text 6 d)]
    exact this
  unfold readBond
  simp only [e, a1, a2, a3, a4, a5, Option.bind_eq_bind, Option.bind_some, if_true]

/-- What the lines show. -/
def shown (atoms : List (List Char)) (b : Bond) : Line :=
  ⟨(atoms.getD (b.i - 1).toNat [], b.i), (atoms.getD (b.j - 1).toNat [], b.j), rnd 6 b.d, seen 6 b.d b.dd⟩

theorem pyGet_in {α : Type} (l : List α) (k : ℤ) (d : α) (h1 : 1 ≤ k) (h2 : k ≤ l.length) : pyGet l (k - 1) = some (l.getD (k - 1).toNat d) := by
  unfold pyGet
  rw [if_pos (by omega), List.getD_eq_getElem?_getD, List.getElem?_eq_getElem (by omega)]
  rfl

/-- A bond between atoms that exist, with values that are doubles. -/
def OkBond (n : ℕ) (b : Bond) : Prop := (1 ≤ b.i ∧ b.i ≤ n) ∧ (1 ≤ b.j ∧ b.j ≤ n) ∧ Ok b.d ∧ Ok b.dd

theorem word_nl {s : List Char} (h : Word s) : '\n' ∉ s := fun hn => by
  have := h.2 _ hn
  revert this
  decide

theorem int_nl (z : ℤ) : '\n' ∉ intStr z := fun h => by
  have := (intStr_chars z _ h).1
  revert this
  decide

theorem label_nl {s : List Char} (h : Word s) (z : ℤ) : '\n' ∉ label s z := by
  have h1 := word_nl h
  have h2 := int_nl z
  simp [label, h1, h2]

theorem padr_nl (n : ℕ) {s : List Char} (h : '\n' ∉ s) : '\n' ∉ padr n s := by
  unfold padr
  rw [List.mem_append, not_or]
  exact ⟨h, fun hn => absurd (List.eq_of_mem_replicate hn) (by decide)⟩

theorem pyCell_nl (x dx : Val) : '\n' ∉ pyCell x dx := by
  have h1 := text_nl 6 x
  have h2 := std_nl 6 x dx
  simp [pyCell, h1, h2]

theorem bondLine_nl (d dd : Val) (i j : ℤ) {s0 s1 : List Char} (h0 : Word s0) (h1 : Word s1) : '\n' ∉ bondLine d dd i j s0 s1 := by
  have a0 := padr_nl 10 (label_nl h0 i)
  have a1 := label_nl h1 j
  have a2 := pyCell_nl d dd
  unfold bondLine
  have a3 : '\n' ∉ padr 30 ("   ".toList ++ padr 10 (label s0 i) ++ " -   ".toList ++ label s1 j ++ [' ']) := by
    apply padr_nl
    simp [a0, a1]
  generalize padr 30 _ = q at a3 ⊢
  simp [a2, a3]

theorem bondLine_ne (d dd : Val) (i j : ℤ) (s0 s1 : List Char) : bondLine d dd i j s0 s1 ≠ [] := by
  unfold bondLine
  simp

/-- The note below an empty list. -/
def note : List Char := "   *** No pairs found ***".toList

theorem note_nl : '\n' ∉ note := by decide

theorem note_bond : readBond note = none := by decide

/-- The lines of the bonds exist and are read one by one. -/
theorem bondLines_text (atoms : List (List Char)) (ha : ∀ s ∈ atoms, Word s) (l : List Bond) (hl : ∀ b ∈ l, OkBond atoms.length b) :
    ∃ r, bondLines atoms l = .ok r ∧ (∀ x ∈ r, '\n' ∉ x ∧ x ≠ note) ∧ ∀ t, readBonds (r ++ [] :: t) = some (l.map (shown atoms)) := by
  induction l with
  | nil => exact ⟨[], rfl, by simp, fun t => by simp [readBonds]⟩
  | cons b l ih =>
    obtain ⟨r, e1, e2, e3⟩ := ih fun b hb => hl b (by simp [hb])
    obtain ⟨hi, hj, hd, hdd⟩ := hl b (by simp)
    have w : ∀ k : ℤ, 1 ≤ k → k ≤ atoms.length → Word (atoms.getD (k - 1).toNat []) := by
      intro k h1 h2
      rw [List.getD_eq_getElem?_getD, List.getElem?_eq_getElem (by omega), Option.getD_some]
      exact ha _ (List.getElem_mem _)
    have w0 := w b.i hi.1 hi.2
    have w1 := w b.j hj.1 hj.2
    refine ⟨bondLine b.d b.dd b.i b.j (atoms.getD (b.i - 1).toNat []) (atoms.getD (b.j - 1).toNat []) :: r, ?_, ?_, fun t => ?_⟩
    · unfold bondLines
      rw [pyGet_in atoms b.i [] hi.1 hi.2, pyGet_in atoms b.j [] hj.1 hj.2, e1]
      rfl
    · intro x hx
      rw [List.mem_cons] at hx
      rcases hx with rfl | hx
      · refine ⟨bondLine_nl _ _ _ _ w0 w1, fun e => ?_⟩
        have := C69_line _ _ hd hdd b.i b.j _ _ w0 w1
        rw [e, note_bond] at this
        exact absurd this (by simp)
      · exact e2 x hx
    · rw [List.cons_append, readBonds, if_neg (bondLine_ne _ _ _ _ _ _), C69_line _ _ hd hdd _ _ _ _ w0 w1, Option.bind_eq_bind,
        Option.bind_some, e3 t]
      rfl

theorem readHeader_text (a1 a2 : List Char) (h1 : ',' ∉ a1) (h2 : ')' ∉ a2) (lb ub : Val) (hl : Ok lb) (hu : Ok ub) :
    readHeader (BText.header a1 a2 lb ub) = some ((a1, a2), rnd 6 lb, rnd 6 ub) := by
  have n1 : ∀ c ∈ a1, (c != ',') = true := fun c hc => by
    rw [bne_iff_ne]; rintro rfl; exact h1 hc
  have n2 : ∀ c ∈ a2, (c != ')') = true := fun c hc => by
    rw [bne_iff_ne]; rintro rfl; exact h2 hc
  obtain ⟨K, hK, hlen⟩ : ∃ K, ") bond lengths in [".toList = ')' :: K ∧ K.length = 18 := ⟨" bond lengths in [".toList, by decide, by decide⟩
  obtain ⟨M, hM⟩ : ∃ M, "A] for current phase :".toList = 'A' :: M := ⟨"] for current phase :".toList, by decide⟩
  have hA : "A,".toList = ['A', ','] := by decide
  have stop : ∀ t, RText.Stop ('A' :: t) := fun t c hc => by
    simp at hc
    rw [← hc]
    decide
  have b10 : readVal (text 6 ub ++ ('A' :: M)) = some (rnd 6 ub, 'A' :: M) := readVal_text (by norm_num) ub hu [] _ (by simp) (stop _)
  generalize hR : text 6 ub ++ ('A' :: M) = R at *
  have b8 : readVal (text 6 lb ++ ('A' :: ',' :: R)) = some (rnd 6 lb, 'A' :: ',' :: R) :=
    readVal_text (by norm_num) lb hl [] _ (by simp) (stop _)
  generalize hQ : text 6 lb ++ ('A' :: ',' :: R) = Q at *
  have e : BText.header a1 a2 lb ub = [] ++ ('(' :: (a1 ++ (',' :: (a2 ++ (')' :: (K ++ Q)))))) := by
    rw [← hQ, ← hR]
    unfold BText.header
    rw [hK, hM, hA]
    simp only [List.append_assoc, List.cons_append, List.nil_append]
  have b1 := skipTo_text '(' [] (a1 ++ (',' :: (a2 ++ (')' :: (K ++ Q))))) (by simp) (by decide)
  have b2 : (a1 ++ (',' :: (a2 ++ (')' :: (K ++ Q))))).dropWhile (· != ',') = [] ++ (',' :: (a2 ++ (')' :: (K ++ Q)))) := by
    rw [List.dropWhile_append_of_pos n1, List.dropWhile_cons_of_neg (by decide)]; rfl
  have b3 : (a1 ++ (',' :: (a2 ++ (')' :: (K ++ Q))))).takeWhile (· != ',') = a1 := by
    rw [List.takeWhile_append_of_pos n1, List.takeWhile_cons_of_neg (by decide), List.append_nil]
  have b4 := skipTo_text ',' [] (a2 ++ (')' :: (K ++ Q))) (by simp) (by decide)
  have b5 : (a2 ++ (')' :: (K ++ Q))).dropWhile (· != ')') = ')' :: (K ++ Q) := by
    rw [List.dropWhile_append_of_pos n2, List.dropWhile_cons_of_neg (by decide)]
  have b6 : (a2 ++ (')' :: (K ++ Q))).takeWhile (· != ')') = a2 := by
    rw [List.takeWhile_append_of_pos n2, List.takeWhile_cons_of_neg (by decide), List.append_nil]
  have b7 : (')' :: (K ++ Q)).drop 19 = Q := by
    rw [List.drop_succ_cons, List.drop_left' hlen]
  have b9 : ('A' :: ',' :: R).drop 2 = R := rfl
  unfold readHeader
  rw [e]
  simp only [b1, b2, b3, b4, b5, b6, b7, b8, b9, b10, Option.bind_eq_bind, Option.bind_some]

theorem header_nl {a1 a2 : List Char} (h1 : '\n' ∉ a1) (h2 : '\n' ∉ a2) (lb ub : Val) : '\n' ∉ BText.header a1 a2 lb ub := by
  have h3 := text_nl 6 lb
  have h4 := text_nl 6 ub
  simp [BText.header, h1, h2, h3, h4]

/-- Both symbols can be told apart in the first line. -/
def Plain (s : List Char) : Prop := ',' ∉ s ∧ ')' ∉ s ∧ '\n' ∉ s

/-- `blen(a1, a2, lb, ub)` with symbols: the text gives back the symbols, the boundaries, and every bond in the order found by the engine; and it
says that there are no pairs exactly when none were found. -/
theorem C69_listing (e : BText.Eng) (types atoms : List (List Char)) (a1 a2 : List Char) (lb ub : Val) (l : List Bond)
    (ht : e.types = .ok types) (hb : e.bonds a1 a2 = .ok l) (hs : e.atoms = .ok atoms)
    (h1 : Plain a1) (h2 : Plain a2) (hlb : Ok lb) (hub : Ok ub) (ha : ∀ s ∈ atoms, Word s) (hl : ∀ b ∈ l, OkBond atoms.length b) :
    ∃ t, blen4 e (.sym a1) (.sym a2) lb ub = .ok t ∧
      readListing t = some (((a1, a2), rnd 6 lb, rnd 6 ub), l.map (shown atoms)) ∧ (note ∈ lines t ↔ l = []) := by
  obtain ⟨r, e1, e2, e3⟩ := bondLines_text atoms ha l hl
  have hh := header_nl h1.2.2 h2.2.2 lb ub
  have hn : ∀ x ∈ BText.header a1 a2 lb ub :: r ++ [[]] ++ (if l = [] then [note] else []), '\n' ∉ x := by
    intro x hx
    simp only [List.cons_append, List.mem_cons, List.mem_append, List.not_mem_nil, or_false] at hx
    rcases hx with rfl | (hx | rfl) | hx
    · exact hh
    · exact (e2 x hx).1
    · simp
    · split at hx
      · rw [List.mem_singleton] at hx; rw [hx]; exact note_nl
      · simp at hx
  refine ⟨RText.unlines (BText.header a1 a2 lb ub :: r ++ [[]] ++ if l = [] then [note] else []), ?_, ?_, ?_⟩
  · unfold blen4
    rw [ht, Res.bind_ok]
    simp only [Arg.symbol]
    rw [hb, Res.bind_ok, hs, Res.bind_ok, e1, Res.bind_ok]
    rfl
  · unfold readListing
    rw [lines_unlines _ hn]
    simp only [List.cons_append, List.append_assoc, List.nil_append]
    rw [readHeader_text a1 a2 h1.1 h2.2.1 lb ub hlb hub, Option.bind_eq_bind, Option.bind_some, e3]
    rfl
  · rw [lines_unlines _ hn]
    constructor
    · intro h
      by_contra hne
      rw [if_neg hne] at h
      simp only [List.cons_append, List.mem_cons, List.mem_append, List.not_mem_nil, or_false] at h
      rcases h with h | h | h
      · have : note.head? = some '(' := by rw [h]; rfl
        exact absurd this (by decide)
      · exact (e2 _ h).2 rfl
      · exact absurd h (by decide)
    · intro h
      simp [h]

/-- An error of the engine is raised, and nothing is shown. -/
theorem C69_error (e : BText.Eng) (types : List (List Char)) (a1 a2 : List Char) (lb ub : Val) (x : Exc)
    (h : e.types = .err x ∨ e.types = .ok types ∧ e.bonds a1 a2 = .err x) : blen4 e (.sym a1) (.sym a2) lb ub = .err x := by
  unfold blen4
  rcases h with h | ⟨h, h'⟩
  · rw [h]; rfl
  · rw [h, Res.bind_ok]
    simp only [Arg.symbol]
    rw [h']
    rfl

/-- The index of an atom type of the phase stands for its symbol. -/
theorem C69_index_partial (e : BText.Eng) (types : List (List Char)) (ht : e.types = .ok types) (k1 k2 : ℤ) (lb ub : Val)
    (h1 : 1 ≤ k1 ∧ k1 ≤ types.length) (h2 : 1 ≤ k2 ∧ k2 ≤ types.length) :
    blen4 e (.idx k1) (.idx k2) lb ub = blen4 e (.sym (types.getD (k1 - 1).toNat [])) (.sym (types.getD (k2 - 1).toNat [])) lb ub := by
  unfold blen4
  rw [ht, Res.bind_ok, Res.bind_ok]
  simp only [Arg.symbol, pyGet_in types k1 [] h1.1 h1.2, pyGet_in types k2 [] h2.1 h2.2]

/-- Violation: an index beyond the last type shows nothing and raises nothing. -/
theorem C69_index_beyond (e : BText.Eng) (types : List (List Char)) (ht : e.types = .ok types) (k : ℤ) (a : Arg) (lb ub : Val)
    (h : types.length < k) : blen4 e (.idx k) a lb ub = .ok [] := by
  have : pyGet types (k - 1) = none := by
    unfold pyGet
    rw [if_pos (by omega), List.getElem?_eq_none (by omega)]
  unfold blen4
  rw [ht, Res.bind_ok]
  simp only [Arg.symbol, this]

/-- Violation: the index 0 shows the bonds of the last type. -/
theorem C69_index_zero (e : BText.Eng) (types : List (List Char)) (ht : e.types = .ok types) (hne : types ≠ []) (a : Arg) (lb ub : Val) :
    blen4 e (.idx 0) a lb ub = blen4 e (.sym (types.getLast hne)) a lb ub := by
  have h0 := List.length_pos_iff.2 hne
  have : pyGet types (0 - 1) = some (types.getLast hne) := by
    unfold pyGet
    rw [if_neg (by omega), if_pos (by omega), List.getLast_eq_getElem, ← List.getElem?_eq_getElem (by omega)]
    congr 1
    omega
  unfold blen4
  rw [ht, Res.bind_ok, Res.bind_ok]
  simp only [Arg.symbol, this]

/-- The symbols of both atoms in capital letters, the distance and its standard deviation are read back. -/
theorem C69_pair (e : BText.Eng) (atoms : List (List Char)) (i j : ℤ) (d dd : Val) (hb : e.bond i j = .ok (d, dd)) (hs : e.atoms = .ok atoms)
    (hd : Ok d) (hdd : Ok dd) (hi : 1 ≤ i ∧ i ≤ atoms.length) (hj : 1 ≤ j ∧ j ≤ atoms.length) (ha : ∀ s ∈ atoms, Word (upper s)) :
    ∃ t, blen2 e i j = .ok (RText.unlines [t]) ∧ lines (RText.unlines [t]) = [t] ∧
      readBond t = some ⟨(upper (atoms.getD (i - 1).toNat []), i), (upper (atoms.getD (j - 1).toNat []), j), rnd 6 d, seen 6 d dd⟩ := by
  have w : ∀ k : ℤ, 1 ≤ k → k ≤ atoms.length → Word (upper (atoms.getD (k - 1).toNat [])) := by
    intro k h1 h2
    rw [List.getD_eq_getElem?_getD, List.getElem?_eq_getElem (by omega), Option.getD_some]
    exact ha _ (List.getElem_mem _)
  have w0 := w i hi.1 hi.2
  have w1 := w j hj.1 hj.2
  refine ⟨bondLine d dd i j (upper (atoms.getD (i - 1).toNat [])) (upper (atoms.getD (j - 1).toNat [])), ?_, ?_, C69_line d dd hd hdd i j _ _ w0 w1⟩
  · unfold blen2
    rw [hb, Res.bind_ok, hs, Res.bind_ok, if_pos (by omega), pyGet_in atoms i [] hi.1 hi.2, pyGet_in atoms j [] hj.1 hj.2]
  · exact lines_unlines _ (by simpa using bondLine_nl d dd i j w0 w1)

/-- An angle with its three atoms is read back. -/
theorem C69_angle (e : BText.Eng) (atoms : List (List Char)) (i j k : ℤ) (x dx : Val) (hb : e.angle i j k = .ok (x, dx)) (hs : e.atoms = .ok atoms)
    (hx : Ok x) (hdx : Ok dx) (hi : 1 ≤ i ∧ i ≤ atoms.length) (hj : 1 ≤ j ∧ j ≤ atoms.length) (hk : 1 ≤ k ∧ k ≤ atoms.length)
    (ha : ∀ s ∈ atoms, Word s) :
    ∃ t, bang e i j k = .ok (RText.unlines [t]) ∧ lines (RText.unlines [t]) = [t] ∧
      readAngle t = some ((atoms.getD (i - 1).toNat [], i), (atoms.getD (j - 1).toNat [], j), (atoms.getD (k - 1).toNat [], k),
        rnd 6 x, seen 6 x dx) := by
  have w : ∀ k : ℤ, 1 ≤ k → k ≤ atoms.length → Word (atoms.getD (k - 1).toNat []) := by
    intro k h1 h2
    rw [List.getD_eq_getElem?_getD, List.getElem?_eq_getElem (by omega), Option.getD_some]
    exact ha _ (List.getElem_mem _)
  have w0 := w i hi.1 hi.2
  have w1 := w j hj.1 hj.2
  have w2 := w k hk.1 hk.2
  have p0 := pyGet_in atoms i [] hi.1 hi.2
  have p1 := pyGet_in atoms j [] hj.1 hj.2
  have p2 := pyGet_in atoms k [] hk.1 hk.2
  generalize atoms.getD (i - 1).toNat [] = s0 at *
  generalize atoms.getD (j - 1).toNat [] = s1 at *
  generalize atoms.getD (k - 1).toNat [] = s2 at *
  refine ⟨"   ".toList ++ label s0 i ++ " - ".toList ++ label s1 j ++ " - ".toList ++ label s2 k ++
      "   =   ".toList ++ pyCell x dx ++ " degrees".toList, ?_, ?_, ?_⟩
  · unfold bang
    rw [hb, Res.bind_ok, hs, Res.bind_ok, p0, p1, p2]
  · refine lines_unlines _ ?_
    have n0 := label_nl w0 i
    have n1 := label_nl w1 j
    have n2 := label_nl w2 k
    have n3 := pyCell_nl x dx
    simp [n0, n1, n2, n3]
  · have a6 : readCell ("   ".toList ++ (pyCell x dx ++ " degrees".toList)) = some ((rnd 6 x, seen 6 x dx), " degrees".toList) := by
      have := readCell_text (p := 6) (q := 6) (by norm_num) (by norm_num) x dx hx hdx "   ".toList " degrees".toList (by decide)
        (after_blank (by decide))
      unfold pyCell
      rw [List.append_assoc (text 6 x)]
      exact this
    obtain ⟨D, hD⟩ : ∃ D, " degrees".toList = D := ⟨_, rfl⟩
    have e : "   ".toList ++ label s0 i ++ " - ".toList ++ label s1 j ++ " - ".toList ++ label s2 k ++
        "   =   ".toList ++ pyCell x dx ++ " degrees".toList = "   ".toList ++ (label s0 i ++ ([' '] ++ ('-' :: ([' '] ++ (label s1 j ++
        ([' '] ++ ('-' :: ([' '] ++ (label s2 k ++ ("   ".toList ++ ('=' :: ("   ".toList ++ (pyCell x dx ++ " degrees".toList))))))))))))) := by
      simp
    generalize hZ : "   ".toList ++ (pyCell x dx ++ " degrees".toList) = Z at *
    have a1 := readLabel_text s0 w0 i "   ".toList ([' '] ++ ('-' :: ([' '] ++ (label s1 j ++
        ([' '] ++ ('-' :: ([' '] ++ (label s2 k ++ ("   ".toList ++ ('=' :: Z)))))))))) (by decide)
    have a2 := skipTo_text '-' [' '] ([' '] ++ (label s1 j ++ ([' '] ++ ('-' :: ([' '] ++ (label s2 k ++ ("   ".toList ++ ('=' :: Z))))))))
      (by decide) (by decide)
    have a3 := readLabel_text s1 w1 j [' '] ([' '] ++ ('-' :: ([' '] ++ (label s2 k ++ ("   ".toList ++ ('=' :: Z)))))) (by decide)
    have a4 := skipTo_text '-' [' '] ([' '] ++ (label s2 k ++ ("   ".toList ++ ('=' :: Z)))) (by decide) (by decide)
    have a5 := readLabel_text s2 w2 k [' '] ("   ".toList ++ ('=' :: Z)) (by decide)
    have a7 := skipTo_text '=' "   ".toList Z (by decide) (by decide)
    rw [e]
    unfold readAngle
    rw [hD] at a6 ⊢
    simp only [a1, a2, a3, a4, a5, a6, a7, Option.bind_eq_bind, Option.bind_some, if_true]

/-! ## With the bonds of the engine -/

/-- The bonds of the engine are between atoms of the phase. -/
theorem types_range {look : String → Option ℕ} {p : Bonds.Phs} {A B : String} {lb ub : ℝ} {rv : List Bonds.PairDist}
    (h : Bonds.bondLengthTypes look p A B lb ub = .ok rv) :
    ∀ x ∈ rv, (1 ≤ x.i ∧ x.i ≤ p.atom.length) ∧ (1 ≤ x.j ∧ x.j ≤ p.atom.length) := by
  unfold Bonds.bondLengthTypes at h
  obtain ⟨si, hsi, h⟩ := Res.bind_eq_ok.1 h
  obtain ⟨sj, hsj, h⟩ := Res.bind_eq_ok.1 h
  simp only [Res.ok.injEq] at h
  subst h
  intro x hx
  rw [List.mem_mergeSort, List.mem_flatMap] at hx
  obtain ⟨i, -, hx⟩ := hx
  rw [List.mem_flatMap] at hx
  obtain ⟨j, -, hx⟩ := hx
  unfold Bonds.pairsOf at hx
  split at hx
  · rename_i ai aj hi hj
    have := (List.getElem?_eq_some_iff.1 hi).1
    have := (List.getElem?_eq_some_iff.1 hj).1
    rw [List.mem_filterMap] at hx
    obtain ⟨T, -, hT⟩ := hx
    unfold Bonds.tryPair at hT
    split at hT
    · simp only [Option.some.injEq] at hT
      subst hT
      simp only [Bonds.mkPair]
      omega
    · simp at hT
  · simp at hx

/-- The listing for a phase shows the bonds that `bond_length_types` returns, in their order. -/
theorem C69_phase (look : String → Option ℕ) (p : Bonds.Phs) (syms types : List (List Char)) (dbl : ℝ → Val) (hdbl : ∀ x, Ok (dbl x))
    (hlen : syms.length = p.atom.length) (hw : ∀ s ∈ syms, Word s) (a1 a2 : List Char) (h1 : Plain a1) (h2 : Plain a2) (lb ub : ℝ)
    (rv : List Bonds.PairDist) (h : Bonds.bondLengthTypes look p (String.ofList a1) (String.ofList a2) lb ub = .ok rv) :
    ∃ t, blen4 (engOf look (some p) syms types dbl lb ub) (.sym a1) (.sym a2) (dbl lb) (dbl ub) = .ok t ∧
      readListing t = some (((a1, a2), rnd 6 (dbl lb), rnd 6 (dbl ub)), rv.map fun x => ⟨(syms.getD (x.i - 1) [], x.i), (syms.getD (x.j - 1) [], x.j),
        rnd 6 (dbl x.dij), seen 6 (dbl x.dij) (dbl x.ddij)⟩) ∧ (note ∈ lines t ↔ rv = []) := by
  have hr := types_range h
  obtain ⟨t, e1, e2, e3⟩ := C69_listing (engOf look (some p) syms types dbl lb ub) types syms a1 a2 (dbl lb) (dbl ub)
    (rv.map fun x => ⟨dbl x.dij, dbl x.ddij, x.i, x.j⟩) rfl (by simp only [engOf, h]; rfl) rfl h1 h2 (hdbl _) (hdbl _) hw (by
      intro b hb
      rw [List.mem_map] at hb
      obtain ⟨x, hx, rfl⟩ := hb
      have := hr x hx
      refine ⟨?_, ?_, hdbl _, hdbl _⟩ <;> simp only [hlen] <;> omega)
  refine ⟨t, e1, ?_, by simpa using e3⟩
  rw [e2, List.map_map]
  congr 2
  apply List.map_congr_left
  intro x hx
  have := hr x hx
  simp only [Function.comp, shown]
  have ei : ((x.i : ℤ) - 1).toNat = x.i - 1 := by omega
  have ej : ((x.j : ℤ) - 1).toNat = x.j - 1 := by omega
  rw [ei, ej]

/-- `blen(i, j)` for a phase: ValueError if there is no such atom; otherwise the distance of `bond_length_atoms` is shown. The assertion of the
code does not fail. -/
theorem C69_phase_pair (look : String → Option ℕ) (p : Bonds.Phs) (syms types : List (List Char)) (dbl : ℝ → Val) (hdbl : ∀ x, Ok (dbl x))
    (hlen : syms.length = p.atom.length) (hw : ∀ s ∈ syms, Word (upper s)) (lb ub : ℝ) (i j : ℤ) :
    (blen2 (engOf look (some p) syms types dbl lb ub) i j = .err .value ∧ ¬((1 ≤ i ∧ i ≤ syms.length) ∧ (1 ≤ j ∧ j ≤ syms.length))) ∨
    ∃ x t, Bonds.bondLengthAtoms p i j = .ok x ∧ blen2 (engOf look (some p) syms types dbl lb ub) i j = .ok (RText.unlines [t]) ∧
      readBond t = some ⟨(upper (syms.getD (i - 1).toNat []), i), (upper (syms.getD (j - 1).toNat []), j), rnd 6 (dbl x.dij),
        seen 6 (dbl x.dij) (dbl x.ddij)⟩ := by
  by_cases hr : i < 1 ∨ i > p.atom.length ∨ j < 1 ∨ j > p.atom.length
  · left
    refine ⟨?_, by rw [hlen]; omega⟩
    have : Bonds.bondLengthAtoms p i j = .err .value := by unfold Bonds.bondLengthAtoms; rw [if_pos hr]
    unfold blen2
    simp only [engOf, this]
    rfl
  · right
    have hx : ∃ x, Bonds.bondLengthAtoms p i j = .ok x := by
      unfold Bonds.bondLengthAtoms
      rw [if_neg hr, Res.at?_of_lt (by omega), Res.at?_of_lt (by omega)]
      exact ⟨_, rfl⟩
    obtain ⟨x, hx⟩ := hx
    obtain ⟨t, e1, -, e2⟩ := C69_pair (engOf look (some p) syms types dbl lb ub) syms i j (dbl x.dij) (dbl x.ddij)
      (by simp only [engOf, hx]; rfl) rfl (hdbl _) (hdbl _) (by rw [hlen]; omega) (by rw [hlen]; omega) hw
    exact ⟨x, t, hx, e1, e2⟩

/-- `bang(i, j, k)` for a phase: ValueError if an atom does not exist or is repeated; otherwise the angle of `bond_angle` is shown. -/
theorem C69_phase_angle (look : String → Option ℕ) (p : Bonds.Phs) (syms types : List (List Char)) (dbl : ℝ → Val) (hdbl : ∀ x, Ok (dbl x))
    (hlen : syms.length = p.atom.length) (hw : ∀ s ∈ syms, Word s) (lb ub : ℝ) (i j k : ℤ) :
    (bang (engOf look (some p) syms types dbl lb ub) i j k = .err .value ∧
      ¬((1 ≤ i ∧ i ≤ syms.length) ∧ (1 ≤ j ∧ j ≤ syms.length) ∧ (1 ≤ k ∧ k ≤ syms.length) ∧ i ≠ j ∧ i ≠ k ∧ j ≠ k)) ∨
    ∃ x t, Bonds.bondAngle p i j k = .ok x ∧ bang (engOf look (some p) syms types dbl lb ub) i j k = .ok (RText.unlines [t]) ∧
      readAngle t = some ((syms.getD (i - 1).toNat [], i), (syms.getD (j - 1).toNat [], j), (syms.getD (k - 1).toNat [], k),
        match x with
        | none => (.nan false, some (.nan false))
        | some x => (rnd 6 (dbl x.1), seen 6 (dbl x.1) (dbl x.2))) := by
  by_cases hr : i < 1 ∨ i > p.atom.length ∨ j < 1 ∨ j > p.atom.length ∨ k < 1 ∨ k > p.atom.length
  · left
    refine ⟨?_, by rw [hlen]; omega⟩
    have : Bonds.bondAngle p i j k = .err .value := by unfold Bonds.bondAngle; rw [if_pos hr]
    unfold bang
    simp only [engOf, this]
    rfl
  · by_cases hq : i = j ∨ i = k ∨ j = k
    · left
      refine ⟨?_, by omega⟩
      have : Bonds.bondAngle p i j k = .err .value := by unfold Bonds.bondAngle; rw [if_neg hr, if_pos hq]
      unfold bang
      simp only [engOf, this]
      rfl
    · right
      have hx : ∃ x, Bonds.bondAngle p i j k = .ok x := by
        unfold Bonds.bondAngle
        rw [if_neg hr, if_neg hq, Res.at?_of_lt (by omega), Res.at?_of_lt (by omega), Res.at?_of_lt (by omega)]
        exact ⟨_, rfl⟩
      obtain ⟨x, hx⟩ := hx
      have go : ∀ v w, Ok v → Ok w → (engOf look (some p) syms types dbl lb ub).angle i j k = .ok (v, w) →
          ∃ t, bang (engOf look (some p) syms types dbl lb ub) i j k = .ok (RText.unlines [t]) ∧
          readAngle t = some ((syms.getD (i - 1).toNat [], i), (syms.getD (j - 1).toNat [], j), (syms.getD (k - 1).toNat [], k),
            rnd 6 v, seen 6 v w) := by
        intro v w hv hw' h
        obtain ⟨t, e1, -, e2⟩ := C69_angle (engOf look (some p) syms types dbl lb ub) syms i j k v w h rfl hv hw'
          (by rw [hlen]; omega) (by rw [hlen]; omega) (by rw [hlen]; omega) hw
        exact ⟨t, e1, e2⟩
      cases x with
      | none =>
        obtain ⟨t, e1, e2⟩ := go (.nan false) (.nan false) trivial trivial (by simp only [engOf, hx]; rfl)
        exact ⟨none, t, hx, e1, e2⟩
      | some x =>
        obtain ⟨t, e1, e2⟩ := go (dbl x.1) (dbl x.2) (hdbl _) (hdbl _) (by simp only [engOf, hx]; rfl)
        exact ⟨some x, t, hx, e1, e2⟩

/-- The symbols of atoms of a phase are words: the engine takes them from its table. -/
theorem symb_word (e : Entry) : Word (symbStr e) ∧ Word (upper (symbStr e)) ∧ Plain (symbStr e) := by
  have h := symbols_ascii e.1.symbol (List.mem_map_of_mem e.2)
  have hp : ∀ c < 127, 33 ≤ c → isSpace (Char.ofNat c) = false := by decide
  refine ⟨⟨by simpa [symbStr] using h.1, ?_⟩, C64.symb_ok e, ?_⟩
  · intro c hc
    simp only [symbStr, List.mem_map] at hc
    obtain ⟨n, hn, rfl⟩ := hc
    exact hp n (h.2 n hn).2 (h.2 n hn).1
  · have key : ∀ f ∈ Scat.table, ∀ n ∈ f.symbol, n ≠ 44 ∧ n ≠ 41 ∧ n ≠ 10 ∧ n < 127 := by decide +kernel
    have inj : ∀ c < 127, (Char.ofNat c = ',' → c = 44) ∧ (Char.ofNat c = ')' → c = 41) ∧ (Char.ofNat c = '\n' → c = 10) := by decide
    refine ⟨?_, ?_, ?_⟩ <;> intro hc <;> simp only [symbStr, List.mem_map] at hc <;> obtain ⟨n, hn, hc⟩ := hc <;>
      obtain ⟨k1, k2, k3, k4⟩ := key e.1 e.2 n hn <;> obtain ⟨i1, i2, i3⟩ := inj n k4
    · exact k1 (i1 hc)
    · exact k2 (i2 hc)
    · exact k3 (i3 hc)

/-- Without a phase every form raises unassignedError. -/
theorem C69_unassigned (look : String → Option ℕ) (syms types : List (List Char)) (dbl : ℝ → Val) (lb ub : ℝ) (a1 a2 : Arg) (v w : Val) (i j k : ℤ) :
    blen4 (engOf look none syms types dbl lb ub) a1 a2 v w = .err .unassigned ∧
    blen2 (engOf look none syms types dbl lb ub) i j = .err .unassigned ∧ bang (engOf look none syms types dbl lb ub) i j k = .err .unassigned :=
  ⟨rfl, rfl, rfl⟩

/-- Without a phase none of the calls answers. -/
theorem C69_no_phase (look : String → Option ℕ) (syms types : List (List Char)) (dbl : ℝ → Val) (lb ub : ℝ) :
    (engOf look none syms types dbl lb ub).types = .err .unassigned ∧ (engOf look none syms types dbl lb ub).atoms = .err .unassigned ∧
    (∀ a b, (engOf look none syms types dbl lb ub).bonds a b = .err .unassigned) ∧
    (∀ i j, (engOf look none syms types dbl lb ub).bond i j = .err .unassigned) ∧
    ∀ i j k, (engOf look none syms types dbl lb ub).angle i j k = .err .unassigned :=
  ⟨rfl, rfl, fun _ _ => rfl, fun _ _ => rfl, fun _ _ _ => rfl⟩

/-- Whatever the engine answers: no bond is left out of the lines. -/
theorem C69_complete (atoms : List (List Char)) : ∀ (l : List Bond) (r : List (List Char)), bondLines atoms l = .ok r → r.length = l.length
  | [], r, h => by
    unfold bondLines at h
    cases h
    rfl
  | b :: l, r, h => by
    unfold bondLines at h
    split at h
    · cases hb : bondLines atoms l with
      | ok r' =>
        rw [hb, Res.bind_ok] at h
        cases h
        simp [C69_complete atoms l r' hb]
      | err e => rw [hb] at h; cases h
      | ub => rw [hb] at h; cases h
    · cases h

/-- Whatever the engine answers: the length of a bond is shown for existing atoms only. -/
theorem C69_assert (e : BText.Eng) (atoms : List (List Char)) (hs : e.atoms = .ok atoms) (i j : ℤ) (t : List Char) (h : blen2 e i j = .ok t) :
    1 ≤ i ∧ i ≤ atoms.length ∧ 1 ≤ j ∧ j ≤ atoms.length := by
  unfold blen2 at h
  cases hb : e.bond i j with
  | ok x =>
    rw [hb, Res.bind_ok, hs, Res.bind_ok] at h
    split at h
    · rename_i hc
      rw [le_sub_iff_add_le, zero_add, le_min_iff, sub_lt_iff_lt_add, max_lt_iff] at hc
      omega
    · cases h
  | err x => rw [hb] at h; cases h
  | ub => rw [hb] at h; cases h

/-! ## Examples -/

/-- A phase of sodium chloride with two bonds. -/
def salt : BText.Eng where
  types := .ok ["Na".toList, "Cl".toList]
  atoms := .ok ["Na".toList, "Cl".toList]
  bonds := fun a b => if (a, b) = ("Na".toList, "Cl".toList) then
      .ok [⟨.num ⟨false, 282 / 100⟩, .num ⟨false, 3 / 1000⟩, 1, 2⟩, ⟨.num ⟨false, 48846 / 10000⟩, .num ⟨false, 0⟩, 1, 2⟩]
    else .ok []
  bond := fun _ _ => .ok (.num ⟨false, 282 / 100⟩, .num ⟨false, 3 / 1000⟩)
  angle := fun _ _ _ => .err .value

example : blen4 salt (.sym "Na".toList) (.sym "Cl".toList) (.num ⟨false, 2⟩) (.num ⟨false, 5⟩) = .ok
    ("(Na,Cl) bond lengths in [2A,5A] for current phase :\n" ++
     "   Na (#1)    -   Cl (#2)     =   2.82 (0.003) A\n" ++
     "   Na (#1)    -   Cl (#2)     =   4.8846 A\n\n").toList := by decide +kernel

example : blen4 salt (.sym "Na".toList) (.sym "Na".toList) (.num ⟨false, 2⟩) (.num ⟨false, 3⟩) = .ok
    ("(Na,Na) bond lengths in [2A,3A] for current phase :\n\n   *** No pairs found ***\n").toList := by decide +kernel

example : blen2 salt 1 2 = .ok "   NA (#1)    -   CL (#2)     =   2.82 (0.003) A\n".toList := by decide +kernel

/-- The index 0 in place of the symbol of chlorine, and an index beyond the two types. -/
example : blen4 salt (.idx 1) (.idx 0) (.num ⟨false, 2⟩) (.num ⟨false, 5⟩) =
    blen4 salt (.sym "Na".toList) (.sym "Cl".toList) (.num ⟨false, 2⟩) (.num ⟨false, 5⟩) ∧
    blen4 salt (.idx 3) (.idx 1) (.num ⟨false, 2⟩) (.num ⟨false, 5⟩) = .ok [] := by decide +kernel

end Pdffit.C69
