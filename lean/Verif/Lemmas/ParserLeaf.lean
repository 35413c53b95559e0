import Verif.Lemmas.ParserRefs
import Verif.Model.Formula
import Mathlib.Algebra.CharZero.Defs
import Mathlib.Data.List.Induction
import Mathlib.Algebra.Field.Basic
import Mathlib.Algebra.GroupWithZero.Basic
import Mathlib.Data.Nat.Cast.Basic
import Mathlib.Tactic.FieldSimp
import Mathlib.Tactic.NormNum

/-! Reading of literals and of stack references. -/

namespace Pdffit.Parser
open Formula

theorem blank_iff (c : Char) : Blank c ↔ isWs c = true := by
  unfold Blank isWs
  simp only [Bool.or_eq_true, decide_eq_true_eq]
  tauto

theorem isDig_digitChar : ∀ d : Fin 10, isDig (digitChar d) = true := by decide

theorem digitChar_val : ∀ d : Fin 10, (digitChar d).toNat - '0'.toNat = d.val := by decide

theorem mem_digits {ds : List (Fin 10)} {c : Char} (h : c ∈ ds.map digitChar) : isDig c = true := by
  obtain ⟨d, -, rfl⟩ := List.mem_map.1 h
  exact isDig_digitChar d

theorem natOf_append_one (xs : List Char) (c : Char) :
    natOf (xs ++ [c]) = 10 * natOf xs + (c.toNat - '0'.toNat) := by
  simp [natOf, List.foldl_append]

theorem natOf_digits (ds : List (Fin 10)) : natOf (ds.map digitChar) = digitsVal ds := by
  induction ds using List.reverseRecOn with
  | nil => simp [natOf, digitsVal]
  | append_singleton ds d ih =>
    rw [List.map_append, List.map_singleton, natOf_append_one, ih, digitChar_val]
    simp [digitsVal, Nat.ofDigits_cons]
    omega

theorem natOf_append (xs ys : List Char) : natOf (xs ++ ys) = natOf xs * 10 ^ ys.length + natOf ys := by
  induction ys using List.reverseRecOn with
  | nil => simp [natOf]
  | append_singleton ys c ih =>
    rw [← List.append_assoc, natOf_append_one, natOf_append_one, ih, List.length_append, List.length_singleton]
    ring

/-- Texts that may follow a factor. -/
def Safe (r : List Char) : Prop := ∀ c t, r = c :: t → isWs c = true ∨ isOp c = true

theorem safe_nil : Safe [] := by intro c t h; cases h

theorem safe_ws_append {w r : List Char} (hw : ∀ c ∈ w, isWs c = true) (hr : Safe r) : Safe (w ++ r) := by
  cases w with
  | nil => exact hr
  | cons c w => intro c' t h; cases h; exact Or.inl (hw c (by simp))

theorem safe_op {c : Char} {r : List Char} (h : isOp c = true) : Safe (c :: r) := by
  intro c' t e; cases e; exact Or.inr h

theorem sep_not {c : Char} (h : isWs c = true ∨ isOp c = true) :
    isDig c = false ∧ c ≠ '.' ∧ c ≠ 'e' ∧ c ≠ 'E' ∧ c ≠ '(' ∧ c ≠ ')' ∧ c ≠ '#' ∧ c ≠ '@' := by
  unfold isWs isOp at h
  simp only [Bool.or_eq_true, decide_eq_true_eq] at h
  rcases h with (((((rfl | rfl) | rfl) | rfl) | rfl) | rfl) | ((rfl | rfl) | rfl) | rfl <;> decide

theorem Safe.noDig {r : List Char} (h : Safe r) : NoDig r := fun c t e => (sep_not (h c t e)).1

theorem readExp_none {r : List Char} (h : Safe r) : readExp r = some (0, r) := by
  unfold readExp
  split
  · rename_i c t
    obtain ⟨-, -, h1, h2, -⟩ := sep_not (h c t rfl)
    simp [h1, h2]
  · rfl

theorem readSigned_minus {ds s : List Char} (hne : ds ≠ []) (hd : ∀ c ∈ ds, isDig c = true) (hs : NoDig s) :
    readSigned ('-' :: (ds ++ s)) = some (-(natOf ds : Int), s) := by
  obtain ⟨t1, t2⟩ := takeWhile_append_noDig hd hs
  simp [readSigned, splitSign, t1, t2, hne]

theorem readSigned_plus {ds s : List Char} (hne : ds ≠ []) (hd : ∀ c ∈ ds, isDig c = true) (hs : NoDig s) :
    readSigned ('+' :: (ds ++ s)) = some ((natOf ds : Int), s) := by
  obtain ⟨t1, t2⟩ := takeWhile_append_noDig hd hs
  simp [readSigned, splitSign, t1, t2, hne]

/-- Exponent of a literal. -/
def litExpo (l : Lit) : Int :=
  match l.ex with
  | none => 0
  | some (false, ds) => digitsVal ds
  | some (true, ds) => -(digitsVal ds : Int)

theorem expText_head {ex e} (h : Lit.ExpText ex e) : e = [] ∨ ∃ c t, e = c :: t ∧ (c = 'e' ∨ c = 'E') := by
  unfold Lit.ExpText at h
  split at h
  · exact Or.inl h
  · obtain ⟨c, hc, rfl⟩ := h; exact Or.inr ⟨_, _, rfl, hc⟩
  · obtain ⟨c, hc, rfl | rfl⟩ := h
    · exact Or.inr ⟨_, _, rfl, hc⟩
    · exact Or.inr ⟨_, _, rfl, hc⟩

theorem readExp_text {l : Lit} {e r : List Char} (hok : ∀ x ∈ l.ex, x.2 ≠ []) (he : Lit.ExpText l.ex e)
    (hr : Safe r) : readExp (e ++ r) = some (litExpo l, r) := by
  unfold litExpo
  rcases hx : l.ex with _ | ⟨b, ds⟩
  · rw [hx] at he
    change e = [] at he
    subst he
    exact readExp_none hr
  · have hne : ds.map digitChar ≠ [] := by
      have := hok (b, ds) (by rw [hx]; simp)
      simpa using this
    rw [hx] at he
    cases b with
    | true =>
      obtain ⟨c, hc, rfl⟩ := he
      have hc' : (decide (c = 'e') || decide (c = 'E')) = true := by simpa using hc
      simp only [List.cons_append, readExp, hc', if_true]
      rw [readSigned_minus hne (fun c => mem_digits) hr.noDig, natOf_digits]
    | false =>
      obtain ⟨c, hc, rfl | rfl⟩ := he
      · have hc' : (decide (c = 'e') || decide (c = 'E')) = true := by simpa using hc
        simp only [List.cons_append, readExp, hc', if_true]
        rw [readSigned_dig hne (fun c => mem_digits) hr.noDig, natOf_digits]
      · have hc' : (decide (c = 'e') || decide (c = 'E')) = true := by simpa using hc
        simp only [List.cons_append, readExp, hc', if_true]
        rw [readSigned_plus hne (fun c => mem_digits) hr.noDig, natOf_digits]

theorem expRest_noDig {ex e r} (h : Lit.ExpText ex e) (hr : Safe r) :
    NoDig (e ++ r) ∧ ∀ c t, e ++ r = c :: t → c ≠ '.' := by
  rcases expText_head h with rfl | ⟨c, t, rfl, hc⟩
  · exact ⟨hr.noDig, fun c t e => (sep_not (hr c t e)).2.1⟩
  · constructor
    · apply noDig_cons; rcases hc with rfl | rfl <;> decide
    · intro c' t' e
      simp only [List.cons_append, List.cons.injEq] at e
      rw [← e.1]
      rcases hc with rfl | rfl <;> decide

theorem splitFrac_text {fp : Option (List (Fin 10))} {ex e r} (h : Lit.ExpText ex e) (hr : Safe r) :
    splitFrac (Lit.fracText fp ++ (e ++ r)) = ((fp.getD []).map digitChar, e ++ r) := by
  obtain ⟨h1, h2⟩ := expRest_noDig h hr
  cases fp with
  | none =>
    simp only [Lit.fracText, List.nil_append, Option.getD_none, List.map_nil]
    rcases hs : e ++ r with _ | ⟨c, t⟩
    · rfl
    · rw [splitFrac, if_neg (h2 c t hs)]
  | some f =>
    obtain ⟨t1, t2⟩ := takeWhile_append_noDig (ds := f.map digitChar) (fun c => mem_digits) h1
    simp [Lit.fracText, splitFrac, t1, t2]

theorem fracText_noDig {fp : Option (List (Fin 10))} {ex e r} (h : Lit.ExpText ex e) (hr : Safe r) :
    NoDig (Lit.fracText fp ++ (e ++ r)) := by
  cases fp with
  | none => exact (expRest_noDig h hr).1
  | some f => exact noDig_cons (by decide)

section
variable {K : Type} [Field K]

theorem litVal_eq [CharZero K] (l : Lit) :
    (natOf (l.ip.map digitChar ++ (l.fp.getD []).map digitChar) : K) *
      pow10 (litExpo l - ((l.fp.getD []).map digitChar).length) = l.val := by
  have h10 : (10 : K) ≠ 0 := by exact_mod_cast (by decide : (10 : Nat) ≠ 0)
  have hp : (10 : K) ^ (l.fp.getD []).length ≠ 0 := pow_ne_zero _ h10
  rw [natOf_append, natOf_digits, natOf_digits]
  have he : (10 : K) ^ litExpo l = Lit.scale l.ex := by
    unfold litExpo
    split <;> simp [Lit.scale, *]
  unfold Lit.val
  rw [← he]
  unfold pow10
  rw [zpow_sub₀ h10, List.length_map, zpow_natCast]
  push_cast
  field_simp

theorem readNum_text [CharZero K] {l : Lit} {s r : List Char} (hok : l.Ok) (h : Lit.Text l s) (hr : Safe r) :
    readNum (K := K) (s ++ r) = some (l.val, r) := by
  obtain ⟨e, he, rfl⟩ := h
  have e1 : l.ip.map digitChar ++ Lit.fracText l.fp ++ e ++ r =
      l.ip.map digitChar ++ (Lit.fracText l.fp ++ (e ++ r)) := by simp
  rw [e1]
  obtain ⟨t1, t2⟩ := takeWhile_append_noDig (ds := l.ip.map digitChar) (fun c => mem_digits)
    (fracText_noDig (fp := l.fp) he hr)
  unfold readNum
  rw [t1, t2, splitFrac_text he hr]
  have hne : ¬ (l.ip.map digitChar = [] ∧ (l.fp.getD []).map digitChar = []) := by
    have := hok.1
    simp only [List.map_eq_nil_iff]
    tauto
  simp only [if_neg hne, readExp_text hok.2 he hr]
  rw [litVal_eq]

/-- Characters of a literal. -/
theorem lit_chars {l : Lit} {s : List Char} (h : Lit.Text l s) :
    ∀ c ∈ s, isDig c = true ∨ c = '.' ∨ c = 'e' ∨ c = 'E' ∨ c = '+' ∨ c = '-' := by
  obtain ⟨e, he, rfl⟩ := h
  intro c hc
  rw [List.mem_append, List.mem_append] at hc
  rcases hc with (hc | hc) | hc
  · exact Or.inl (mem_digits hc)
  · unfold Lit.fracText at hc
    split at hc
    · cases hc
    · rcases List.mem_cons.1 hc with rfl | hc
      · simp
      · exact Or.inl (mem_digits hc)
  · unfold Lit.ExpText at he
    split at he
    · subst he; cases hc
    · obtain ⟨d, hd, rfl⟩ := he
      rcases List.mem_cons.1 hc with rfl | hc
      · tauto
      · rcases List.mem_cons.1 hc with rfl | hc
        · simp
        · exact Or.inl (mem_digits hc)
    · obtain ⟨d, hd, rfl | rfl⟩ := he
      · rcases List.mem_cons.1 hc with rfl | hc
        · tauto
        · exact Or.inl (mem_digits hc)
      · rcases List.mem_cons.1 hc with rfl | hc
        · tauto
        · rcases List.mem_cons.1 hc with rfl | hc
          · simp
          · exact Or.inl (mem_digits hc)

/-- A literal starts with a digit or a point. -/
theorem lit_head {l : Lit} {s : List Char} (hok : l.Ok) (h : Lit.Text l s) :
    ∃ c t, s = c :: t ∧ (isDig c = true ∨ c = '.') := by
  obtain ⟨e, he, rfl⟩ := h
  rcases hi : l.ip with _ | ⟨d, ds⟩
  · rcases hf : l.fp with _ | f
    · have := hok.1
      rw [hi, hf] at this
      simp at this
    · exact ⟨_, _, rfl, Or.inr rfl⟩
  · exact ⟨_, _, rfl, Or.inl (isDig_digitChar d)⟩

theorem getnum_lit [CharZero K] {E : Env K} {st : List (Num K)} {l : Lit} {s r : List Char} (hok : l.Ok)
    (h : Lit.Text l s) (hr : Safe r) : getnum E st (s ++ r) = .ok ((l.val, []), r) := by
  have hrd := readNum_text (K := K) hok h hr
  obtain ⟨c, t, rfl, hc⟩ := lit_head hok h
  have hx : isWs c = false ∧ c ≠ '-' ∧ c ≠ '+' ∧ c ≠ '#' ∧ isLow c = false := by
    rcases hc with hc | rfl
    · have := dig_not hc; tauto
    · decide
  obtain ⟨h1, h2, h3, h4, h5⟩ := hx
  rw [List.cons_append] at hrd ⊢
  simp [getnum, h1, h2, h3, getfac, h4, h5, hrd]

theorem getnum_ref {E : Env K} {st : List (Num K)} {k : Nat} {r : List Char} (hk : k < st.length)
    (hr : NoDig r) : getnum E st (stackvar k ++ r) =
      .ok ((st[k].1, if E.deriv then st[k].2 else []), r) := by
  have e1 : stackvar k ++ r = '#' :: (natText k ++ r) := rfl
  rw [e1, getnum]
  have h1 : isWs '#' = false := by decide
  have h2 : isLow '#' = false := by decide
  simp [h1, getfac, h2, readInt_natText k r hr, stackAt_ok hk, Res.bind_ok]

theorem low_not {c : Char} (h : isLow c = true) : isWs c = false ∧ c ≠ '-' ∧ c ≠ '+' ∧ c ≠ '#' ∧ c ≠ '(' ∧ c ≠ ')'
    ∧ c ≠ '@' ∧ isDig c = false := by
  have hne : ∀ d : Char, isLow d = false → c ≠ d := by
    rintro d hd rfl
    rw [h] at hd; cases hd
  refine ⟨?_, hne _ (by decide), hne _ (by decide), hne _ (by decide), hne _ (by decide), hne _ (by decide),
    hne _ (by decide), ?_⟩
  · unfold isWs
    simp only [Bool.or_eq_false_iff, decide_eq_false_iff_not]
    exact ⟨⟨⟨⟨⟨hne _ (by decide), hne _ (by decide)⟩, hne _ (by decide)⟩, hne _ (by decide)⟩,
      hne _ (by decide)⟩, hne _ (by decide)⟩
  · by_contra hd
    have := dig_not (c := c) (by simpa using hd)
    rw [h] at this
    simp at this

theorem getnum_fref {E : Env K} {st : List (Num K)} {k : Nat} {name r : List Char} {f df : K → K} (hk : k < st.length)
    (hne : name ≠ []) (hn : ∀ c ∈ name, isLow c = true) (ht : E.tab name = some (f, df))
    (hr : NoDig r) : getnum E st (name ++ stackvar k ++ r) =
      .ok ((f st[k].1, if E.deriv && !st[k].2.isEmpty then st[k].2.map (df st[k].1 * ·) else []), r) := by
  obtain ⟨c, nm, rfl⟩ := List.exists_cons_of_ne_nil hne
  have hc := hn c (by simp)
  obtain ⟨h1, h2, h3, -⟩ := low_not hc
  have e1 : c :: nm ++ stackvar k ++ r = c :: (nm ++ '#' :: (natText k ++ r)) := by simp [stackvar]
  have tw : (c :: (nm ++ '#' :: (natText k ++ r))).takeWhile (· ≠ '#') = c :: nm ∧
      (c :: (nm ++ '#' :: (natText k ++ r))).dropWhile (· ≠ '#') = '#' :: (natText k ++ r) := by
    have gen : ∀ xs : List Char, (∀ c ∈ xs, c ≠ '#') →
        (xs ++ '#' :: (natText k ++ r)).takeWhile (· ≠ '#') = xs ∧
        (xs ++ '#' :: (natText k ++ r)).dropWhile (· ≠ '#') = '#' :: (natText k ++ r) := by
      intro xs hxs
      induction xs with
      | nil => simp
      | cons x xs ih =>
        have hx := hxs x (by simp)
        obtain ⟨i1, i2⟩ := ih (fun c hc => hxs c (List.mem_cons_of_mem _ hc))
        constructor
        · rw [List.cons_append, List.takeWhile_cons_of_pos (by simpa using hx), i1]
        · rw [List.cons_append, List.dropWhile_cons_of_pos (by simpa using hx), i2]
    exact gen (c :: nm) (fun c hc => (low_not (hn c hc)).2.2.2.1)
  rw [e1, getnum]
  simp only [h1, h2, h3, if_false, Bool.false_eq_true]
  rw [getfac]
  simp only [hc, if_true]
  rw [tw.1, tw.2]
  simp only [ht]
  rw [readInt_natText k r hr]
  simp [stackAt_ok hk, Res.bind_ok]

end
end Pdffit.Parser
