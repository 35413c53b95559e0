import Verif.Props.C37
import Mathlib.Data.List.Nodup
import Mathlib.Data.List.Induction

/-!
# C38: element lookup ignores letter case and the table is consistent

`lookup_case`: two strings that differ in the case of letters only give the same result, for every table. `own_symbol`, `own_name`: every
entry of the table of the program is found by its symbol and its name, in every capitalisation. `unknown`: a label that is neither is
rejected, with `ValueError` in the functions that phases use. `cons` provides the hypothesis of C37.
-/

namespace Pdffit.C38
open Scat

/-- The strings differ only in the case of letters. -/
def SameLetters (s t : Bytes) : Prop := s.map lower = t.map lower

theorem lower_alpha {a b : Nat} (h : lower a = lower b) : isAlpha a = isAlpha b := by
  unfold lower at h
  unfold isAlpha
  rw [Bool.eq_iff_iff]
  simp only [Bool.or_eq_true, Bool.and_eq_true, decide_eq_true_eq]
  split_ifs at h <;> omega

theorem lower_upper {a b : Nat} (h : lower a = lower b) : upper a = upper b := by
  unfold lower at h
  unfold upper
  split_ifs at h ⊢ <;> omega

theorem lower_other {a b : Nat} (h : lower a = lower b) (ha : isAlpha a = false) : a = b := by
  unfold lower at h
  unfold isAlpha at ha
  simp only [Bool.or_eq_false_iff, Bool.and_eq_false_iff, decide_eq_false_iff_not] at ha
  split_ifs at h <;> omega

theorem norm_case : ∀ {s t : Bytes}, SameLetters s t → norm s = norm t
  | [], [], _ => rfl
  | [], _ :: _, h => by simp [SameLetters] at h
  | _ :: _, [], h => by simp [SameLetters] at h
  | a :: s, b :: t, h => by
    unfold SameLetters at h
    simp only [List.map_cons, List.cons.injEq] at h
    unfold norm
    rw [← lower_alpha h.1]
    split_ifs with ha
    · rw [lower_upper h.1, h.2]
    · rw [lower_other h.1 (by simpa using ha), norm_case (s := s) (t := t) h.2]

/-- **C38**: capitalisation does not matter. -/
theorem lookup_case (p : PT) {s t : Bytes} (h : SameLetters s t) : p.lookup s = p.lookup t := by
  unfold PT.lookup
  rw [norm_case h]

/-- "SODIUM", "sodium" and "sOdIuM" -/
example : SameLetters [83, 79, 68, 73, 85, 77] [115, 79, 100, 73, 117, 77] ∧ ([83, 79, 68, 73, 85, 77] : Bytes) ≠ [115, 79, 100, 73, 117, 77] := by
  unfold SameLetters
  decide

/-! ### The indices -/

theorem index_append (key : AtomType → Bytes) (t : List AtomType) (e : AtomType) (s : Bytes) :
    index key (t ++ [e]) s = if s = key e then some e else index key t s := by
  unfold index
  rw [List.foldl_append]
  rfl

theorem index_sound (key : AtomType → Bytes) (t : List AtomType) {s : Bytes} {e : AtomType} (h : index key t s = some e) :
    e ∈ t ∧ key e = s := by
  induction t using List.reverseRecOn with
  | nil => simp [index] at h
  | append_singleton t x ih =>
    rw [index_append] at h
    split_ifs at h with hc
    · injection h with h
      subst h
      exact ⟨by simp, hc.symm⟩
    · exact ⟨by simp [(ih h).1], (ih h).2⟩

theorem index_none (key : AtomType → Bytes) (t : List AtomType) {s : Bytes} (h : ∀ e ∈ t, key e ≠ s) : index key t s = none := by
  cases hi : index key t s with
  | none => rfl
  | some e => exact absurd (index_sound key t hi).2 (h e (index_sound key t hi).1)

theorem index_complete (key : AtomType → Bytes) (t : List AtomType) (hn : (t.map key).Nodup) {e : AtomType} (he : e ∈ t) :
    index key t (key e) = some e := by
  induction t using List.reverseRecOn with
  | nil => simp at he
  | append_singleton t x ih =>
    rw [List.map_append, List.nodup_append] at hn
    rw [index_append]
    rcases List.mem_append.1 he with h | h
    · rw [if_neg (hn.2.2 (key e) (List.mem_map_of_mem h) (key x) (by simp)), ih hn.1 h]
    · rw [List.mem_singleton.1 h, if_pos rfl]

/-! ### The table of the program

The following are checked for all entries of the table by evaluation. -/

/-- "D", "T", "2-H", "3-H" -/
def sD : Bytes := [68]
def sT : Bytes := [84]
def s2H : Bytes := [50, 45, 72]
def s3H : Bytes := [51, 45, 72]

set_option maxRecDepth 100000 in
theorem symbols_nodup : (table.map AtomType.symbol).Nodup := by decide +kernel
set_option maxRecDepth 100000 in
theorem names_nodup : (table.map AtomType.name).Nodup := by decide +kernel
set_option maxRecDepth 100000 in
theorem symbols_norm : ∀ s ∈ table.map AtomType.symbol, norm s = s ∧ s ≠ s2H ∧ s ≠ s3H := by decide +kernel
set_option maxRecDepth 100000 in
theorem names_norm : ∀ s ∈ table.map AtomType.name, norm s = s ∧ s ≠ s2H ∧ s ≠ s3H := by decide +kernel
set_option maxRecDepth 100000 in
theorem disjoint : ∀ s ∈ table.map AtomType.name, s ∉ table.map AtomType.symbol := by decide +kernel
set_option maxRecDepth 100000 in
theorem has_DT : sD ∈ table.map AtomType.symbol ∧ sT ∈ table.map AtomType.symbol := by decide +kernel

set_option maxRecDepth 100000 in
/-- "Xx" satisfies the hypotheses of `unknown`. -/
example : (∀ e ∈ table, ¬ ([88, 120] : Bytes).map lower = e.symbol.map lower ∧ ¬ ([88, 120] : Bytes).map lower = e.name.map lower) ∧
    ([88, 120] : Bytes).map lower ≠ s2H.map lower ∧ ([88, 120] : Bytes).map lower ≠ s3H.map lower := by decide +kernel

set_option maxRecDepth 100000 in
/-- "na", "NA" and "SODIUM" are sodium: an entry with Z = 11. -/
example : ∃ e ∈ table, SameLetters [110, 97] e.symbol ∧ SameLetters [78, 65] e.symbol ∧ SameLetters [83, 79, 68, 73, 85, 77] e.name ∧ e.z = 11 := by
  unfold SameLetters
  decide +kernel

attribute [local irreducible] table

/-- The initialisation succeeds; the indices are those of the table and the two additional symbols. -/
theorem init_ok : ∃ p d t, PT.init table = .ok p ∧ d ∈ table ∧ d.symbol = sD ∧ t ∈ table ∧ t.symbol = sT ∧
    (∀ s, p.symbol_index s = if s = s3H then some t else if s = s2H then some d else index AtomType.symbol table s) ∧
    p.name_index = index AtomType.name table := by
  obtain ⟨d, hd, hds⟩ := List.mem_map.1 has_DT.1
  obtain ⟨t, ht, hts⟩ := List.mem_map.1 has_DT.2
  have h1 : index AtomType.symbol table sD = some d := by rw [← hds]; exact index_complete _ _ symbols_nodup hd
  have h2 : index AtomType.symbol table sT = some t := by rw [← hts]; exact index_complete _ _ symbols_nodup ht
  refine ⟨PT.setSymbol (PT.setSymbol ⟨index AtomType.symbol table, index AtomType.name table⟩ s2H d) s3H t, d, t, ?_,
    hd, hds, ht, hts, fun s => rfl, rfl⟩
  have n1 : norm [68] = sD := by decide
  have n2 : norm [84] = sT := by decide
  have l1 : PT.lookup ⟨index AtomType.symbol table, index AtomType.name table⟩ [68] = .ok d := by
    unfold PT.lookup
    simp only [n1, h1]
  have l2 : PT.lookup (PT.setSymbol ⟨index AtomType.symbol table, index AtomType.name table⟩ [50, 45, 72] d) [84] = .ok t := by
    have hne : sT ≠ [50, 45, 72] := by decide
    unfold PT.lookup PT.setSymbol
    rw [n2]
    simp only [if_neg hne, h2]
  unfold PT.init
  simp only [l1, Res.bind_ok, l2]
  rfl

/-- **C38**: every entry is found by its symbol, in every capitalisation. -/
theorem own_symbol {p : PT} (hp : PT.init table = .ok p) {e : AtomType} (he : e ∈ table) {s : Bytes} (hs : SameLetters s e.symbol) :
    p.lookup s = .ok e := by
  obtain ⟨p', d, t, h0, _, _, _, _, hsym, _⟩ := init_ok
  have h0 := Res.ok.inj (hp.symm.trans h0)
  subst h0
  obtain ⟨h1, h2, h3⟩ := symbols_norm _ (List.mem_map_of_mem he)
  rw [lookup_case p hs]
  unfold PT.lookup
  rw [h1, hsym, if_neg h3, if_neg h2, index_complete _ _ symbols_nodup he]

/-- **C38**: every entry is found by its name, in every capitalisation. -/
theorem own_name {p : PT} (hp : PT.init table = .ok p) {e : AtomType} (he : e ∈ table) {s : Bytes} (hs : SameLetters s e.name) :
    p.lookup s = .ok e := by
  obtain ⟨p', d, t, h0, _, _, _, _, hsym, hname⟩ := init_ok
  have h0 := Res.ok.inj (hp.symm.trans h0)
  subst h0
  obtain ⟨h1, h2, h3⟩ := names_norm _ (List.mem_map_of_mem he)
  have h4 : index AtomType.symbol table e.name = none := by
    refine index_none _ _ fun x hx h => ?_
    exact disjoint _ (List.mem_map_of_mem he) (h ▸ List.mem_map_of_mem hx)
  rw [lookup_case p hs]
  unfold PT.lookup
  rw [h1, hsym, if_neg h3, if_neg h2, h4, hname, index_complete _ _ names_nodup he]

/-- The labels "2-H" and "3-H" give deuterium and tritium, in every capitalisation. -/
theorem hydrogen {p : PT} (hp : PT.init table = .ok p) {s : Bytes} :
    (SameLetters s s2H → p.lookup s = p.lookup sD) ∧ (SameLetters s s3H → p.lookup s = p.lookup sT) := by
  obtain ⟨p', d, t, h0, hd, hds, ht, hts, hsym, hname⟩ := init_ok
  have h0 := Res.ok.inj (hp.symm.trans h0)
  subst h0
  have n2 : norm s2H = s2H := by decide
  have n3 : norm s3H = s3H := by decide
  have hne : s2H ≠ s3H := by decide
  constructor
  · intro h
    rw [own_symbol hp hd (s := sD) (by rw [hds]; rfl), lookup_case p h]
    unfold PT.lookup
    rw [n2, hsym, if_neg hne, if_pos rfl]
  · intro h
    rw [own_symbol hp ht (s := sT) (by rw [hts]; rfl), lookup_case p h]
    unfold PT.lookup
    rw [n3, hsym, if_pos rfl]

theorem lower_norm (s : Bytes) : SameLetters (norm s) s := by
  unfold SameLetters
  induction s with
  | nil => rfl
  | cons c s ih =>
    have hu : lower (upper c) = lower c := by
      unfold lower upper
      split_ifs <;> omega
    have hl : ∀ x, lower (lower x) = lower x := by
      intro x
      unfold lower
      split_ifs <;> omega
    unfold norm
    split_ifs
    · simp only [List.map_cons, hu, List.map_map, List.cons.injEq, true_and]
      exact List.map_congr_left fun x _ => hl x
    · simp only [List.map_cons, ih]

/-- **C38**: a label that is in no capitalisation a symbol, a name, "2-H" or "3-H" is rejected; the functions of phases
raise `ValueError`, whatever their table holds. -/
theorem unknown {p : PT} (hp : PT.init table = .ok p) {s : Bytes}
    (hs : ∀ e ∈ table, ¬ SameLetters s e.symbol ∧ ¬ SameLetters s e.name) (h2 : ¬ SameLetters s s2H) (h3 : ¬ SameLetters s s3H)
    (l : Local) (tp : Char) (v : Rat) :
    p.lookup s = .err .runtime ∧ llookup p l s = .err .value ∧ get_scat p l tp s = .err .value ∧
      set_scat p l tp s v = .err .value ∧ reset_scat p l s = .err .value := by
  obtain ⟨p', d, t, h0, _, _, _, _, hsym, hname⟩ := init_ok
  have h0 := Res.ok.inj (hp.symm.trans h0)
  subst h0
  have hl : p.lookup s = .err .runtime := by
    have e3 : norm s ≠ s3H := fun h => h3 (h ▸ (lower_norm s).symm)
    have e2 : norm s ≠ s2H := fun h => h2 (h ▸ (lower_norm s).symm)
    have i1 : index AtomType.symbol table (norm s) = none :=
      index_none _ _ fun e he h => (hs e he).1 (h ▸ (lower_norm s).symm)
    have i2 : index AtomType.name table (norm s) = none :=
      index_none _ _ fun e he h => (hs e he).2 (h ▸ (lower_norm s).symm)
    unfold PT.lookup
    rw [hsym, if_neg e3, if_neg e2, i1, hname, i2]
  have hv : llookup p l s = .err .value := by
    unfold llookup
    rw [hl]
    rfl
  refine ⟨hl, hv, ?_, ?_, ?_⟩
  · unfold get_scat; rw [hv]; rfl
  · unfold set_scat; rw [hv]; rfl
  · unfold reset_scat; rw [hv]; rfl

/-- The table of the program satisfies the hypothesis of C37. -/
theorem cons {p : PT} (hp : PT.init table = .ok p) : C37.Cons p := by
  obtain ⟨p', d, t, h0, hd, hds, ht, hts, hsym, hname⟩ := init_ok
  have h0 := Res.ok.inj (hp.symm.trans h0)
  subst h0
  have self : ∀ e ∈ table, p.symbol_index e.symbol = some e := by
    intro e he
    obtain ⟨_, h2, h3⟩ := symbols_norm _ (List.mem_map_of_mem he)
    rw [hsym, if_neg h3, if_neg h2, index_complete _ _ symbols_nodup he]
  constructor
  · intro s e h
    rw [hsym] at h
    split_ifs at h
    · injection h with h; subst h; exact self _ ht
    · injection h with h; subst h; exact self _ hd
    · exact self _ (index_sound _ _ h).1
  · intro s e h
    rw [hname] at h
    exact self _ (index_sound _ _ h).1

/-- **C37** for the table of the program. -/
theorem scat_after {p : PT} (hp : PT.init table = .ok p) {c : Local} (hc : C37.Std p c) (l : List Op) (o : Op) :
    (step p (run p (St.init c) l) o).1 = ((C37.Spec.init.run p l).step p o).1 :=
  C37.get_after (cons hp) hc l o

end Pdffit.C38
