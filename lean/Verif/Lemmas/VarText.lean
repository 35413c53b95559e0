import Verif.Model.VarText
import Verif.Lemmas.StruNum

/-! # Lemmas on `strip`, `split` and numerals -/

namespace Pdffit.VarText
open Stru

/-! ## `strip` -/

theorem strip_eq (p : Char → Bool) (l : List Char) : ∃ a b, (∀ c ∈ a, p c = true) ∧ (∀ c ∈ b, p c = true) ∧ l = a ++ strip p l ++ b := by
  refine ⟨l.takeWhile p, ((l.dropWhile p).reverse.takeWhile p).reverse, fun c h => List.mem_takeWhile_imp h, fun c h => ?_, ?_⟩
  · exact List.mem_takeWhile_imp (List.mem_reverse.1 h)
  · rw [strip, List.append_assoc, ← List.reverse_append, List.takeWhile_append_dropWhile, List.reverse_reverse,
      List.takeWhile_append_dropWhile]

theorem dropWhile_head {p : Char → Bool} {a m : List Char} (ha : ∀ c ∈ a, p c = true) (hm : ∀ c, m.head? = some c → p c = false) :
    (a ++ m).dropWhile p = m := by
  rw [List.dropWhile_append_of_pos ha]
  cases m with
  | nil => rfl
  | cons c m => simp [hm c rfl]

theorem strip_of {p : Char → Bool} {a m b : List Char} (ha : ∀ c ∈ a, p c = true) (hb : ∀ c ∈ b, p c = true) (h0 : m ≠ [])
    (h1 : ∀ c, m.head? = some c → p c = false) (h2 : ∀ c, m.getLast? = some c → p c = false) : strip p (a ++ m ++ b) = m := by
  have e : (a ++ m ++ b).dropWhile p = m ++ b := by
    rw [List.append_assoc]
    apply dropWhile_head ha
    intro c hc
    rw [List.head?_append_of_ne_nil _ h0] at hc
    exact h1 c hc
  rw [strip, e, List.reverse_append, dropWhile_head (fun c hc => hb c (List.mem_reverse.1 hc))
    (fun c hc => h2 c (by rwa [List.head?_reverse] at hc)), List.reverse_reverse]

theorem strip_ends (p : Char → Bool) (l : List Char) :
    (∀ c, (strip p l).head? = some c → p c = false) ∧ ∀ c, (strip p l).getLast? = some c → p c = false := by
  have hd : ∀ (l : List Char) c, (l.dropWhile p).head? = some c → p c = false := by
    intro l c h
    have := List.head?_dropWhile_not p l
    rw [h] at this
    simpa using this
  constructor
  · intro c hc
    by_cases he : strip p l = []
    · rw [he] at hc; simp at hc
    · have h : (l.dropWhile p).head? = some c := by
        have e : l.dropWhile p = strip p l ++ ((l.dropWhile p).reverse.takeWhile p).reverse := by
          rw [strip, ← List.reverse_append, List.takeWhile_append_dropWhile, List.reverse_reverse]
        rw [e, List.head?_append_of_ne_nil _ he, hc]
      exact hd l c h
  · intro c hc
    rw [strip, List.getLast?_reverse] at hc
    exact hd _ c hc

/-! ## `split` -/

theorem split_cons (c d : Char) (l : List Char) : ∃ p ps, split c l = p :: ps ∧
    split c (d :: l) = if d = c then [] :: p :: ps else (d :: p) :: ps := by
  cases l with
  | nil => exact ⟨[], [], rfl, by simp only [split]⟩
  | cons e l =>
    have : split c (e :: l) ≠ [] := by
      simp only [split]
      split_ifs
      · simp
      · split <;> simp
    obtain ⟨p, ps, h⟩ := List.exists_cons_of_ne_nil this
    refine ⟨p, ps, h, ?_⟩
    rw [split, h]

theorem split_notin (c : Char) (l : List Char) (h : c ∉ l) : split c l = [l] := by
  induction l with
  | nil => rfl
  | cons d l ih =>
    simp only [List.mem_cons, not_or] at h
    rw [split, ih h.2, if_neg (fun e => h.1 e.symm)]

theorem split_one {c : Char} {l m : List Char} (h : split c l = [m]) : l = m ∧ c ∉ m := by
  induction l generalizing m with
  | nil => simp [split] at h; subst h; simp
  | cons d l ih =>
    obtain ⟨p, ps, h1, h2⟩ := split_cons c d l
    rw [h2] at h
    split_ifs at h with e
    · simp at h
    · simp only [List.cons.injEq] at h
      obtain ⟨rfl, rfl⟩ := h
      obtain ⟨rfl, h3⟩ := ih h1
      exact ⟨rfl, by simp [h3, Ne.symm e]⟩

theorem split_append (c : Char) (m l : List Char) (h : c ∉ m) : split c (m ++ c :: l) = m :: split c l := by
  induction m with
  | nil => simp [split]
  | cons d m ih =>
    simp only [List.mem_cons, not_or] at h
    rw [List.cons_append, split, ih h.2, if_neg (fun e => h.1 e.symm)]

theorem split_head {c : Char} {l m : List Char} {q : List Char} {qs : List (List Char)} (h : split c l = m :: q :: qs) :
    ∃ l', l = m ++ c :: l' ∧ c ∉ m ∧ split c l' = q :: qs := by
  induction l generalizing m with
  | nil => simp [split] at h
  | cons d l ih =>
    obtain ⟨p, ps, h1, h2⟩ := split_cons c d l
    rw [h2] at h
    split_ifs at h with e
    · simp only [List.cons.injEq] at h
      obtain ⟨rfl, rfl, rfl⟩ := h
      exact ⟨l, by simp [e], by simp, h1⟩
    · simp only [List.cons.injEq] at h
      obtain ⟨rfl, rfl⟩ := h
      obtain ⟨l', rfl, h3, h4⟩ := ih h1
      exact ⟨l', by simp, by simp [h3, Ne.symm e], h4⟩

theorem split_two {c : Char} {l m a : List Char} : split c l = [m, a] ↔ l = m ++ c :: a ∧ c ∉ m ∧ c ∉ a := by
  constructor
  · intro h
    obtain ⟨l', rfl, h2, h3⟩ := split_head h
    obtain ⟨rfl, h5⟩ := split_one h3
    exact ⟨rfl, h2, h5⟩
  · rintro ⟨rfl, h1, h2⟩
    rw [split_append c m a h1, split_notin c a h2]

theorem split_snoc (c d : Char) (l : List Char) : ∃ ps p, split c l = ps ++ [p] ∧
    split c (l ++ [d]) = if d = c then ps ++ [p, []] else ps ++ [p ++ [d]] := by
  induction l with
  | nil => exact ⟨[], [], rfl, by simp [split]⟩
  | cons e l ih =>
    obtain ⟨ps, p, h1, h2⟩ := ih
    by_cases he : e = c
    · subst he
      refine ⟨[] :: ps, p, by rw [split, if_pos rfl, h1]; rfl, ?_⟩
      rw [List.cons_append, split, if_pos rfl, h2]
      split_ifs <;> rfl
    · cases ps with
      | nil =>
        refine ⟨[], e :: p, by rw [split, if_neg he, h1]; rfl, ?_⟩
        rw [List.cons_append, split, if_neg he, h2]
        split_ifs <;> rfl
      | cons q ps =>
        refine ⟨(e :: q) :: ps, p, by rw [split, if_neg he, h1]; rfl, ?_⟩
        rw [List.cons_append, split, if_neg he, h2]
        split_ifs <;> rfl

/-! ## Numerals -/

theorem isDig_iff (c : Char) : isDig c = true ↔ ∃ k < 10, c = digit k := by
  constructor
  · intro h
    simp only [isDig, decide_eq_true_eq] at h
    refine ⟨c.toNat - 48, by omega, ?_⟩
    rw [digit, Nat.add_sub_of_le h.1, Char.ofNat_toNat]
  · rintro ⟨k, hk, rfl⟩
    exact (digit_ok k hk).1

theorem digits_nil : digits [] = none := by decide

theorem digits_under (l : List Char) : digits (l ++ ['_']) = none := by
  obtain ⟨ps, p, -, h⟩ := split_snoc '_' '_' l
  rw [digits, h]
  simp

theorem digits_snoc (l : List Char) (e d : Char) (he : e ≠ '_') (hd : d ≠ '_') : digits (l ++ [e, d]) =
    if isDig d then (digits (l ++ [e])).map fun n => 10 * n + (d.toNat - 48) else none := by
  obtain ⟨ps, p, h1, h2⟩ := split_snoc '_' d (l ++ [e])
  obtain ⟨ps', p', -, h3⟩ := split_snoc '_' e l
  rw [if_neg he, h1] at h3
  obtain ⟨rfl, h4⟩ := List.append_inj' h3 rfl
  simp only [List.cons.injEq, and_true] at h4
  rw [if_neg hd] at h2
  have e2 : l ++ [e, d] = l ++ [e] ++ [d] := by simp
  rw [digits, digits, e2, h2, h1, h4]
  by_cases h5 : isDig d = true
  · by_cases h6 : (ps ++ [p' ++ [e]]).all (fun p => !p.isEmpty && p.all isDig) = true
    · have h7 : (ps ++ [p' ++ [e] ++ [d]]).all (fun p => !p.isEmpty && p.all isDig) = true := by
        simp only [List.all_append, List.all_cons, List.all_nil, Bool.and_true, Bool.and_eq_true] at h6 ⊢
        simp [h6.1, h6.2.2.1, h6.2.2.2, h5]
      rw [if_pos h6, if_pos h7, if_pos h5]
      simp only [List.flatten_append, List.flatten_cons, List.flatten_nil, List.append_nil, Option.map_some, ← val_append,
        List.append_assoc]
    · have h7 : ¬ (ps ++ [p' ++ [e] ++ [d]]).all (fun p => !p.isEmpty && p.all isDig) = true := by
        intro h7
        apply h6
        simp only [List.all_append, List.all_cons, List.all_nil, Bool.and_true, Bool.and_eq_true] at h7 ⊢
        simp [h7.1, h7.2.2.1.1, h7.2.2.1.2]
      rw [if_neg h6, if_neg h7, if_pos h5]
      rfl
  · have h7 : ¬ (ps ++ [p' ++ [e] ++ [d]]).all (fun p => !p.isEmpty && p.all isDig) = true := by
      simp [h5]
    rw [if_neg h7, if_neg h5]

theorem digits_under_snoc (l : List Char) (d : Char) (hd : d ≠ '_') : digits (l ++ ['_', d]) =
    if isDig d then (digits l).map fun n => 10 * n + (d.toNat - 48) else none := by
  obtain ⟨ps, p, h1, h2⟩ := split_snoc '_' d (l ++ ['_'])
  obtain ⟨ps', p', h0, h3⟩ := split_snoc '_' '_' l
  rw [if_pos rfl, h1, show ps' ++ [p', []] = (ps' ++ [p']) ++ [[]] by simp] at h3
  obtain ⟨rfl, h4⟩ := List.append_inj' h3 rfl
  simp only [List.cons.injEq, and_true] at h4
  subst h4
  rw [if_neg hd] at h2
  have e2 : l ++ ['_', d] = l ++ ['_'] ++ [d] := by simp
  rw [digits, digits, e2, h2, h0]
  by_cases h5 : isDig d = true
  · by_cases h6 : (ps' ++ [p']).all (fun p => !p.isEmpty && p.all isDig) = true
    · have h7 : (ps' ++ [p'] ++ [[] ++ [d]]).all (fun p => !p.isEmpty && p.all isDig) = true := by
        rw [List.all_append, h6]
        simp [h5]
      rw [if_pos h6, if_pos h7, if_pos h5]
      simp only [List.flatten_append, List.flatten_cons, List.flatten_nil, List.append_nil, Option.map_some, ← val_append,
        List.append_assoc, List.nil_append]
    · have h7 : ¬ (ps' ++ [p'] ++ [[] ++ [d]]).all (fun p => !p.isEmpty && p.all isDig) = true := by
        rw [List.all_append]
        simp only [Bool.and_eq_true, not_and]
        intro h
        exact absurd h h6
      rw [if_neg h6, if_neg h7, if_pos h5]
      rfl
  · have h7 : ¬ (ps' ++ [p'] ++ [[] ++ [d]]).all (fun p => !p.isEmpty && p.all isDig) = true := by
      simp [h5]
    rw [if_neg h7, if_neg h5]

theorem digits_single (d : Char) (hd : d ≠ '_') : digits [d] = if isDig d then some (d.toNat - 48) else none := by
  rw [digits, split_notin '_' [d] (by simp [Ne.symm hd])]
  by_cases h : isDig d = true <;> simp [h, val]

end Pdffit.VarText
