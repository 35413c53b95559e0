import Verif.Model.SelText
import Verif.Lemmas.StruNum
import Verif.Lemmas.DataWords
import Verif.Props.C38

/-!
# C57 The description of the selected atoms in a report determines the selection

`Lists` is how a reader understands the text: words that are numbers belong to the element before them, an element without numbers means
all its atoms.
-/

namespace Pdffit.C57
open SelText Scat DataRead Stru

/-- The word is a number. -/
def num (w : List Char) : Bool := w.all isDig

/-- Elements with the numbers after them. -/
def groups : List (List Char) → List (List Char × List (List Char))
  | [] => []
  | w :: ws => (w, ws.takeWhile num) :: groups (ws.dropWhile num)
termination_by l => l.length
decreasing_by
  have := (List.dropWhile_sublist (p := num) (l := ws)).length_le
  simp only [List.length_cons]
  omega

/-- The text says that the atom number `n` of the element written `sym` is selected. -/
def Lists (text sym : List Char) (n : ℕ) : Prop := ∃ g ∈ groups (words text), g.1 = sym ∧ (g.2 = [] ∨ ∃ w ∈ g.2, val w = n)

/-! ## The loop -/

/-- Indices of the selected atoms of a type. -/
def idx (atoms : List Bytes) (ignored : ℕ → Bool) (t : Bytes) : List ℕ :=
  (List.range atoms.length).filter fun i => decide (atoms[i]? = some t) && !ignored i

theorem idx_snoc (atoms : List Bytes) (ignored : ℕ → Bool) (x t : Bytes) :
    idx (atoms ++ [x]) ignored t = idx atoms ignored t ++ if x = t ∧ ignored atoms.length = false then [atoms.length] else [] := by
  unfold idx
  rw [List.length_append, List.length_singleton, List.range_succ, List.filter_append]
  congr 1
  · apply List.filter_congr
    intro i hi
    rw [List.getElem?_append_left (List.mem_range.1 hi)]
  · simp only [List.filter_singleton, List.getElem?_append_right (le_refl _), Nat.sub_self, List.getElem?_cons_zero, Option.some.injEq]
    by_cases h : x = t <;> cases h2 : ignored atoms.length <;> simp [h]

theorem loop_snoc (atoms : List Bytes) (ignored : ℕ → Bool) (x : Bytes) :
    loop (atoms ++ [x]) ignored = step ignored (loop atoms ignored) (x, atoms.length) := by
  unfold loop
  rw [List.zipIdx_append, List.foldl_append]
  simp

theorem loop_spec (atoms : List Bytes) (ignored : ℕ → Bool) (t : Bytes) :
    (loop atoms ignored).sel t = (if idx atoms ignored t = [] then none else some ((idx atoms ignored t).flatMap fun i => ' ' :: natStr (i + 1))) ∧
    ((loop atoms ignored).ign t = true ↔ ∃ i, atoms[i]? = some t ∧ ignored i = true) := by
  induction atoms using List.reverseRecOn with
  | nil => simp [loop, idx]
  | append_singleton atoms x ih =>
    obtain ⟨h1, h2⟩ := ih
    rw [loop_snoc, idx_snoc]
    have hex : (∃ i, (atoms ++ [x])[i]? = some t ∧ ignored i = true) ↔
        (∃ i, atoms[i]? = some t ∧ ignored i = true) ∨ (x = t ∧ ignored atoms.length = true) := by
      constructor
      · rintro ⟨i, hi, hg⟩
        rcases lt_trichotomy i atoms.length with h | h | h
        · rw [List.getElem?_append_left h] at hi
          exact .inl ⟨i, hi, hg⟩
        · subst h
          rw [List.getElem?_append_right (le_refl _)] at hi
          exact .inr ⟨by simpa using hi, hg⟩
        · rw [List.getElem?_eq_none (by simp; omega)] at hi
          simp at hi
      · rintro (⟨i, hi, hg⟩ | ⟨rfl, hg⟩)
        · exact ⟨i, by rw [List.getElem?_append_left (List.getElem?_eq_some_iff.1 hi).1]; exact hi, hg⟩
        · exact ⟨atoms.length, by simp, hg⟩
    rw [hex]
    unfold SelText.step
    dsimp only
    by_cases hi : ignored atoms.length = true
    · rw [if_pos hi]
      simp only [hi, Bool.true_eq_false, and_false, if_false, List.append_nil, and_true]
      refine ⟨h1, ?_⟩
      by_cases hx : x = t
      · subst hx
        simp
      · rw [Function.update_of_ne (Ne.symm hx), h2]
        simp [hx]
    · rw [if_neg hi]
      simp only [hi, and_false, or_false, h2, and_true]
      by_cases hx : x = t
      · subst hx
        rw [Function.update_self, h1]
        simp only [Bool.not_eq_true] at hi
        simp only [true_and, if_true]
        by_cases he : idx atoms ignored x = []
        · simp [he]
        · simp [he]
      · rw [Function.update_of_ne (Ne.symm hx), h1]
        simp [hx]

theorem typesOf_snoc (atoms : List Bytes) (x : Bytes) :
    typesOf (atoms ++ [x]) = if x ∈ typesOf atoms then typesOf atoms else typesOf atoms ++ [x] := by
  unfold typesOf
  rw [List.foldl_append]
  rfl

theorem typesOf_spec (atoms : List Bytes) : (typesOf atoms).Nodup ∧ ∀ t, t ∈ typesOf atoms ↔ t ∈ atoms := by
  induction atoms using List.reverseRecOn with
  | nil => simp [typesOf]
  | append_singleton atoms x ih =>
    obtain ⟨h1, h2⟩ := ih
    rw [typesOf_snoc]
    split
    · rename_i h
      refine ⟨h1, fun t => ?_⟩
      rw [h2, List.mem_append, List.mem_singleton]
      exact ⟨Or.inl, fun h' => h'.elim id fun e => by rw [e]; exact (h2 x).1 h⟩
    · rename_i h
      refine ⟨?_, fun t => by simp [h2]⟩
      rw [List.nodup_append]
      refine ⟨h1, by simp, ?_⟩
      intro a ha b hb
      rw [List.mem_singleton] at hb
      subst hb
      rintro rfl
      exact h ha

/-! ## The words of the text -/

/-- Symbols that a reader can recognise: not empty, no blanks, not a number. -/
structure Sym (t : Bytes) : Prop where
  ne : symStr t ≠ []
  sp : ∀ c ∈ symStr t, isSpace c = false
  num : num (symStr t) = false

/-- The words of the part for one type. -/
def part (atoms : List Bytes) (ignored : ℕ → Bool) (t : Bytes) : List (List Char) :=
  if idx atoms ignored t = [] then [] else
    symStr t :: if (loop atoms ignored).ign t then (idx atoms ignored t).map fun i => natStr (i + 1) else []

theorem digit_isDig {k : ℕ} (hk : k < 10) : isDig (digit k) = true ∧ isSpace (digit k) = false := by
  have h : ∀ k < 10, isDig (digit k) = true ∧ isSpace (digit k) = false := by decide
  exact h k hk

theorem natStr_num (n : ℕ) : num (natStr n) = true ∧ ∀ c ∈ natStr n, isSpace c = false := by
  refine ⟨List.all_eq_true.2 fun c hc => ?_, fun c hc => ?_⟩ <;> obtain ⟨k, hk, rfl⟩ := natStr_dig n c hc
  · exact (digit_isDig hk).1
  · exact (digit_isDig hk).2

theorem sp : ∀ c ∈ [' '], isSpace c = true := by decide
theorem sp2 : ∀ c ∈ [' ', ' '], isSpace c = true := by decide

theorem words_nums (l : List ℕ) (t : List Char) (ht : Brk t) :
    words ((l.flatMap fun i => ' ' :: natStr (i + 1)) ++ t) = (l.map fun i => natStr (i + 1)) ++ words t := by
  induction l with
  | nil => rfl
  | cons i l ih =>
    have hb : Brk ((l.flatMap fun i => ' ' :: natStr (i + 1)) ++ t) := by
      cases l with
      | nil => exact ht
      | cons j l => exact .inr ⟨' ', _, rfl, rfl⟩
    have := words_append [' '] (natStr (i + 1)) _ sp (natStr_ne _) (natStr_num _).2 hb
    simp only [List.flatMap_cons, List.map_cons, List.cons_append, List.append_assoc, List.singleton_append, List.nil_append] at this ⊢
    rw [this, ih]

/-- The text of one type. -/
def text (atoms : List Bytes) (ignored : ℕ → Bool) (t : Bytes) : List Char :=
  match (loop atoms ignored).sel t with
  | none => []
  | some s => ' ' :: ' ' :: symStr t ++ (if (loop atoms ignored).ign t then s else [])

theorem brk_text (atoms : List Bytes) (ignored : ℕ → Bool) (l : List Bytes) : Brk (l.flatMap (text atoms ignored)) := by
  induction l with
  | nil => exact .inl rfl
  | cons a l ih =>
    rw [List.flatMap_cons]
    unfold text
    split
    · exact ih
    · exact .inr ⟨' ', _, rfl, rfl⟩

theorem words_text (atoms : List Bytes) (ignored : ℕ → Bool) (l : List Bytes) (hl : ∀ t ∈ l, Sym t) :
    words (l.flatMap (text atoms ignored)) = l.flatMap (part atoms ignored) := by
  induction l with
  | nil => rfl
  | cons a l ih =>
    have ih := ih fun t ht => hl t (List.mem_cons_of_mem _ ht)
    have hb := brk_text atoms ignored l
    have ha := hl a (by simp)
    rw [List.flatMap_cons, List.flatMap_cons, ← ih]
    conv_lhs => arg 1; arg 1; unfold text
    unfold part
    rw [(loop_spec atoms ignored a).1]
    by_cases he : idx atoms ignored a = []
    · rw [if_pos he, if_pos he]
      rfl
    · rw [if_neg he, if_neg he]
      dsimp only
      by_cases hg : (loop atoms ignored).ign a = true
      · rw [if_pos hg, if_pos hg]
        have hb2 : Brk (((idx atoms ignored a).flatMap fun i => ' ' :: natStr (i + 1)) ++ l.flatMap (text atoms ignored)) := by
          cases h : idx atoms ignored a with
          | nil => exact absurd h he
          | cons j l => exact .inr ⟨' ', _, rfl, rfl⟩
        have := words_append [' ', ' '] (symStr a) _ sp2 ha.ne ha.sp hb2
        rw [words_nums _ _ hb] at this
        simpa using this
      · rw [if_neg hg, if_neg hg]
        have := words_append [' ', ' '] (symStr a) _ sp2 ha.ne ha.sp hb
        simpa using this

theorem part_nums (atoms : List Bytes) (ignored : ℕ → Bool) (l : List Bytes) (hl : ∀ t ∈ l, Sym t) :
    ∀ w ws, l.flatMap (part atoms ignored) = w :: ws → num w = false := by
  induction l with
  | nil => intro w ws h; simp at h
  | cons a l ih =>
    intro w ws h
    rw [List.flatMap_cons] at h
    unfold part at h
    split at h
    · exact ih (fun t ht => hl t (List.mem_cons_of_mem _ ht)) w ws h
    · rw [List.cons_append] at h
      injection h with h1 h2
      rw [← h1]
      exact (hl a (by simp)).num

theorem takeWhile_nums (l : List ℕ) (r : List (List Char)) (hr : ∀ w ws, r = w :: ws → num w = false) :
    ((l.map fun i => natStr (i + 1)) ++ r).takeWhile num = (l.map fun i => natStr (i + 1)) ∧
    ((l.map fun i => natStr (i + 1)) ++ r).dropWhile num = r := by
  induction l with
  | nil =>
    cases r with
    | nil => simp
    | cons w ws => simp [hr w ws rfl]
  | cons i l ih =>
    simp [(natStr_num (i + 1)).1, ih]

theorem groups_parts (atoms : List Bytes) (ignored : ℕ → Bool) (l : List Bytes) (hl : ∀ t ∈ l, Sym t) :
    groups (l.flatMap (part atoms ignored)) = (l.filter fun t => decide (idx atoms ignored t ≠ [])).map fun t =>
      (symStr t, if (loop atoms ignored).ign t then (idx atoms ignored t).map fun i => natStr (i + 1) else []) := by
  induction l with
  | nil => simp [groups]
  | cons a l ih =>
    have hl' : ∀ t ∈ l, Sym t := fun t ht => hl t (List.mem_cons_of_mem _ ht)
    have ih := ih hl'
    rw [List.flatMap_cons]
    by_cases he : idx atoms ignored a = []
    · rw [List.filter_cons_of_neg (by simpa using he), ← ih]
      unfold part
      rw [if_pos he]
      rfl
    · rw [List.filter_cons_of_pos (by simpa using he), List.map_cons, ← ih]
      conv_lhs => rw [part, if_neg he]
      rw [List.cons_append, groups]
      have hr := part_nums atoms ignored l hl'
      by_cases hg : (loop atoms ignored).ign a = true
      · simp only [hg, if_true]
        rw [(takeWhile_nums _ _ hr).1, (takeWhile_nums _ _ hr).2]
      · rw [if_neg hg]
        have := takeWhile_nums [] _ hr
        simp only [List.map_nil] at this
        rw [this.1, this.2]

/-! ## The property -/

theorem mem_idx {atoms : List Bytes} {ignored : ℕ → Bool} {t : Bytes} {i : ℕ} :
    i ∈ idx atoms ignored t ↔ atoms[i]? = some t ∧ ignored i = false := by
  unfold idx
  rw [List.mem_filter, List.mem_range]
  constructor
  · rintro ⟨h1, h2⟩
    simpa using h2
  · rintro ⟨h1, h2⟩
    exact ⟨(List.getElem?_eq_some_iff.1 h1).1, by simp [h1, h2]⟩

/-- An atom is listed exactly if it is selected. -/
theorem reads_back (atoms : List Bytes) (ignored : ℕ → Bool) (hs : ∀ t ∈ atoms, Sym t)
    (hi : ∀ t ∈ atoms, ∀ u ∈ atoms, symStr t = symStr u → t = u) (i : ℕ) (t : Bytes) (ht : atoms[i]? = some t) :
    Lists (selString atoms ignored) (symStr t) (i + 1) ↔ ignored i = false := by
  have hmem : t ∈ atoms := List.mem_of_getElem? ht
  obtain ⟨hnd, hty⟩ := typesOf_spec atoms
  unfold Lists
  have e : selString atoms ignored = (typesOf atoms).flatMap (text atoms ignored) := rfl
  rw [e, words_text _ _ _ fun t h => hs t ((hty t).1 h), groups_parts _ _ _ fun t h => hs t ((hty t).1 h)]
  constructor
  · rintro ⟨g, hg, h1, h2⟩
    rw [List.mem_map] at hg
    obtain ⟨u, hu, rfl⟩ := hg
    rw [List.mem_filter] at hu
    have := hi u ((hty u).1 hu.1) t hmem h1
    subst this
    by_cases hg : (loop atoms ignored).ign u = true
    · simp only [hg, if_true] at h2
      rcases h2 with h2 | ⟨w, hw, hv⟩
      · have := hu.2
        rw [List.map_eq_nil_iff] at h2
        simp [h2] at this
      · rw [List.mem_map] at hw
        obtain ⟨j, hj, rfl⟩ := hw
        rw [val_natStr] at hv
        have : j = i := by omega
        subst this
        exact (mem_idx.1 hj).2
    · by_contra hc
      exact hg ((loop_spec atoms ignored u).2.2 ⟨i, ht, by simpa using hc⟩)
  · intro h
    have hx : i ∈ idx atoms ignored t := mem_idx.2 ⟨ht, h⟩
    refine ⟨_, List.mem_map.2 ⟨t, List.mem_filter.2 ⟨(hty t).2 hmem, by simpa using List.ne_nil_of_mem hx⟩, rfl⟩, rfl, ?_⟩
    dsimp only
    split
    · exact .inr ⟨natStr (i + 1), List.mem_map.2 ⟨i, hx, rfl⟩, val_natStr _⟩
    · exact .inl rfl

/-- Two selections with the same text are the same. -/
theorem injective (atoms : List Bytes) (ign1 ign2 : ℕ → Bool) (hs : ∀ t ∈ atoms, Sym t)
    (hi : ∀ t ∈ atoms, ∀ u ∈ atoms, symStr t = symStr u → t = u) (h : selString atoms ign1 = selString atoms ign2) :
    ∀ i < atoms.length, ign1 i = ign2 i := by
  intro i hlt
  have ht := List.getElem?_eq_getElem hlt
  have h1 := reads_back atoms ign1 hs hi i _ ht
  rw [h, reads_back atoms ign2 hs hi i _ ht] at h1
  cases h3 : ign1 i <;> cases h4 : ign2 i <;> simp_all

/-! ## The symbols of the table -/

instance (t : Bytes) : Decidable (Sym t) :=
  decidable_of_iff (symStr t ≠ [] ∧ (∀ c ∈ symStr t, isSpace c = false) ∧ num (symStr t) = false)
    ⟨fun h => ⟨h.1, h.2.1, h.2.2⟩, fun h => ⟨h.1, h.2, h.3⟩⟩

set_option maxRecDepth 100000 in
/-- All symbols of the table can be read. -/
theorem table_sym : ∀ t ∈ table.map AtomType.symbol, Sym t := by decide +kernel

set_option maxRecDepth 100000 in
theorem table_upper : (table.map fun e => e.symbol.map upper).Nodup := by decide +kernel

set_option maxRecDepth 100000 in
theorem table_bytes : ∀ t ∈ table.map AtomType.symbol, ∀ c ∈ t.map upper, c < 128 := by decide +kernel

theorem ofNat_inj {a b : ℕ} (ha : a < 128) (hb : b < 128) (h : Char.ofNat a = Char.ofNat b) : a = b := by
  have h1 : (Char.ofNat a).toNat = a := by
    rw [Char.ofNat, dif_pos (by unfold Nat.isValidChar; omega)]
    rfl
  have h2 : (Char.ofNat b).toNat = b := by
    rw [Char.ofNat, dif_pos (by unfold Nat.isValidChar; omega)]
    rfl
  rw [← h1, ← h2, h]

theorem map_inj : ∀ a b : List ℕ, (∀ c ∈ a, c < 128) → (∀ c ∈ b, c < 128) → a.map Char.ofNat = b.map Char.ofNat → a = b
  | [], [], _, _, _ => rfl
  | [], _ :: _, _, _, h => by simp at h
  | _ :: _, [], _, _, h => by simp at h
  | x :: a, y :: b, ha, hb, h => by
    simp only [List.map_cons, List.cons.injEq] at h
    rw [ofNat_inj (ha x (by simp)) (hb y (by simp)) h.1,
      map_inj a b (fun c hc => ha c (List.mem_cons_of_mem _ hc)) (fun c hc => hb c (List.mem_cons_of_mem _ hc)) h.2]

theorem table_inj : ∀ t ∈ table.map AtomType.symbol, ∀ u ∈ table.map AtomType.symbol, symStr t = symStr u → t = u := by
  intro t ht u hu h
  have e : ∀ s : Bytes, symStr s = (s.map upper).map Char.ofNat := fun s => by unfold symStr; rw [List.map_map]; rfl
  rw [e, e] at h
  have := map_inj _ _ (table_bytes t ht) (table_bytes u hu) h
  rw [List.mem_map] at ht hu
  obtain ⟨x, hx, rfl⟩ := ht
  obtain ⟨y, hy, rfl⟩ := hu
  rw [List.inj_on_of_nodup_map table_upper hx hy this]

/-- For atoms of the table the text determines the selection. -/
theorem C57_reads_back (atoms : List Bytes) (ha : ∀ t ∈ atoms, t ∈ table.map AtomType.symbol) (ignored : ℕ → Bool) (i : ℕ) (t : Bytes)
    (ht : atoms[i]? = some t) : Lists (selString atoms ignored) (symStr t) (i + 1) ↔ ignored i = false :=
  reads_back atoms ignored (fun t h => table_sym t (ha t h)) (fun t h u h' => table_inj t (ha t h) u (ha u h')) i t ht

theorem C57_injective (atoms : List Bytes) (ha : ∀ t ∈ atoms, t ∈ table.map AtomType.symbol) (ign1 ign2 : ℕ → Bool)
    (h : selString atoms ign1 = selString atoms ign2) : ∀ i < atoms.length, ign1 i = ign2 i :=
  injective atoms ign1 ign2 (fun t h => table_sym t (ha t h)) (fun t h u h' => table_inj t (ha t h) u (ha u h')) h

set_option maxRecDepth 100000 in
/-- Four atoms Na, Cl, Na, Cl of which the first is ignored: `"  NA 3  CL"`. -/
example : (∀ t ∈ ([[78, 97], [67, 108], [78, 97], [67, 108]] : List Bytes), t ∈ table.map AtomType.symbol) ∧
    selString [[78, 97], [67, 108], [78, 97], [67, 108]] (fun i => i == 0) = "  NA 3  CL".toList := by
  refine ⟨by decide +kernel, ?_⟩
  decide +kernel

end Pdffit.C57
