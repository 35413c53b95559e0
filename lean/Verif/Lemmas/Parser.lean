import Verif.Model.Parser
import Mathlib.Data.List.Basic
import Mathlib.Tactic.Ring

/-! Lemmas about the formula evaluator: remaining texts, termination, stack accesses. -/

namespace Pdffit.Parser

/-- The text does not start with a digit. -/
def NoDig (s : List Char) : Prop := ∀ c t, s = c :: t → isDig c = false

theorem noDig_dropWhile (s : List Char) : NoDig (s.dropWhile isDig) := by
  intro c t h
  have := List.head?_dropWhile_not isDig s
  rw [h] at this
  simpa using this

theorem isDig_eq (c : Char) : isDig c = c.isDigit := by
  simp only [isDig, Char.isDigit, Bool.decide_and, ge_iff_le]
  rfl

theorem natText_dig (k : Nat) : ∀ c ∈ natText k, isDig c = true := by
  intro c hc
  rw [isDig_eq]
  exact Nat.isDigit_of_mem_toDigits (by decide) (by decide) hc

theorem natText_ne (k : Nat) : natText k ≠ [] := Nat.toDigits_ne_nil

theorem natOf_natText (k : Nat) : natOf (natText k) = k := by
  have := Nat.ofDigitChars_ten_toDigits (n := k)
  unfold Nat.ofDigitChars at this
  exact this

theorem takeWhile_append_noDig {ds s : List Char} (hd : ∀ c ∈ ds, isDig c = true) (hs : NoDig s) :
    (ds ++ s).takeWhile isDig = ds ∧ (ds ++ s).dropWhile isDig = s := by
  induction ds with
  | nil =>
    cases s with
    | nil => simp
    | cons c t => have := hs c t rfl; simp [this]
  | cons c ds ih =>
    have h1 := hd c (by simp)
    have h2 := ih (fun c' h => hd c' (List.mem_cons_of_mem _ h))
    simp [h1, h2]

theorem dig_not {c : Char} (h : isDig c = true) :
    isWs c = false ∧ c ≠ '-' ∧ c ≠ '+' ∧ c ≠ '*' ∧ c ≠ '/' ∧ c ≠ '#' ∧ c ≠ '(' ∧ c ≠ ')' ∧ c ≠ '@' ∧ c ≠ '.'
      ∧ c ≠ 'e' ∧ c ≠ 'E' ∧ isLow c = false ∧ isOp c = false := by
  have hne : ∀ d : Char, isDig d = false → c ≠ d := by
    rintro d hd rfl
    rw [h] at hd; cases hd
  have hws : isWs c = false := by
    unfold isWs
    simp only [Bool.or_eq_false_iff, decide_eq_false_iff_not]
    exact ⟨⟨⟨⟨⟨hne _ (by decide), hne _ (by decide)⟩, hne _ (by decide)⟩, hne _ (by decide)⟩,
      hne _ (by decide)⟩, hne _ (by decide)⟩
  have hop : isOp c = false := by
    unfold isOp
    simp only [Bool.or_eq_false_iff, decide_eq_false_iff_not]
    exact ⟨⟨⟨hne _ (by decide), hne _ (by decide)⟩, hne _ (by decide)⟩, hne _ (by decide)⟩
  refine ⟨hws, hne _ (by decide), hne _ (by decide), hne _ (by decide), hne _ (by decide), hne _ (by decide),
    hne _ (by decide), hne _ (by decide), hne _ (by decide), hne _ (by decide), hne _ (by decide),
    hne _ (by decide), ?_, hop⟩
  unfold isDig at h
  unfold isLow
  simp only [Bool.and_eq_true, decide_eq_true_eq, Bool.and_eq_false_iff, decide_eq_false_iff_not] at h ⊢
  left
  intro h2
  exact absurd (Char.le_trans h2 h.2) (by decide)

theorem splitSign_dig {ds s : List Char} (hne : ds ≠ []) (hd : ∀ c ∈ ds, isDig c = true) :
    splitSign (ds ++ s) = (false, ds ++ s) := by
  obtain ⟨c, t, rfl⟩ := List.exists_cons_of_ne_nil hne
  obtain ⟨-, h2, h3, -⟩ := dig_not (hd c (by simp))
  simp [splitSign, h2, h3]

theorem readSigned_dig {ds s : List Char} (hne : ds ≠ []) (hd : ∀ c ∈ ds, isDig c = true) (hs : NoDig s) :
    readSigned (ds ++ s) = some ((natOf ds : Int), s) := by
  obtain ⟨t1, t2⟩ := takeWhile_append_noDig hd hs
  simp [readSigned, splitSign_dig hne hd, t1, t2, hne]

/-- Reading back a stack index. -/
theorem readInt_natText (k : Nat) (s : List Char) (hs : NoDig s) :
    readInt (natText k ++ s) = some ((k : Int), s) := by
  have hskip : skipWs (natText k ++ s) = natText k ++ s := by
    obtain ⟨c, ds, hk⟩ := List.exists_cons_of_ne_nil (natText_ne k)
    have hc : isDig c = true := natText_dig k c (by rw [hk]; simp)
    rw [hk]; simp [skipWs, (dig_not hc).1]
  rw [readInt, hskip, readSigned_dig (natText_ne k) (natText_dig k) hs, natOf_natText]

/-! ### Remaining text -/

theorem suffix_dropWhile (p : Char → Bool) (s : List Char) : s.dropWhile p <:+ s := List.dropWhile_suffix p

theorem splitSign_suffix (s : List Char) : (splitSign s).2 <:+ s := by
  cases s with
  | nil => exact List.suffix_refl _
  | cons c t =>
    rw [splitSign]
    by_cases h1 : c = '-'
    · rw [if_pos h1]; exact List.suffix_cons _ _
    · rw [if_neg h1]
      by_cases h2 : c = '+'
      · rw [if_pos h2]; exact List.suffix_cons _ _
      · rw [if_neg h2]; exact List.suffix_refl _

theorem readSigned_rest {s : List Char} {id r} (h : readSigned s = some (id, r)) : r <:+ s ∧ NoDig r := by
  unfold readSigned at h
  split at h
  · cases h
  · simp only [Option.some.injEq, Prod.mk.injEq] at h
    obtain ⟨-, rfl⟩ := h
    exact ⟨(suffix_dropWhile _ _).trans (splitSign_suffix s), noDig_dropWhile _⟩

theorem readInt_rest {s : List Char} {id r} (h : readInt s = some (id, r)) : r <:+ s ∧ NoDig r := by
  obtain ⟨h1, h2⟩ := readSigned_rest h
  exact ⟨h1.trans (suffix_dropWhile _ _), h2⟩

theorem readExp_rest {s : List Char} {e r} (hs : NoDig s) (h : readExp s = some (e, r)) :
    r <:+ s ∧ NoDig r := by
  unfold readExp at h
  split at h
  · rename_i c t
    split at h
    · obtain ⟨h1, h2⟩ := readSigned_rest h
      exact ⟨h1.trans (List.suffix_cons _ _), h2⟩
    · cases h; exact ⟨List.suffix_refl _, hs⟩
  · cases h; exact ⟨List.suffix_refl _, hs⟩

theorem splitFrac_rest {s : List Char} (hs : NoDig s) : (splitFrac s).2 <:+ s ∧ NoDig (splitFrac s).2 := by
  cases s with
  | nil => exact ⟨List.suffix_refl _, hs⟩
  | cons c t =>
    rw [splitFrac]
    by_cases h1 : c = '.'
    · rw [if_pos h1]
      exact ⟨(suffix_dropWhile _ _).trans (List.suffix_cons _ _), noDig_dropWhile _⟩
    · rw [if_neg h1]; exact ⟨List.suffix_refl _, hs⟩

section
variable {K : Type} [Field K]

theorem readNum_rest {s : List Char} {x : K} {r} (h : readNum s = some (x, r)) : r <:+ s ∧ NoDig r := by
  unfold readNum at h
  dsimp only at h
  obtain ⟨h1, h2⟩ := splitFrac_rest (noDig_dropWhile s)
  split at h
  · cases h
  · split at h
    · cases h
    · rename_i e s3 heq
      simp only [Option.some.injEq, Prod.mk.injEq] at h
      obtain ⟨-, rfl⟩ := h
      obtain ⟨g1, g2⟩ := readExp_rest h2 heq
      exact ⟨g1.trans (h1.trans (suffix_dropWhile _ _)), g2⟩

theorem getfac_rest {E : Env K} {st} {s : List Char} {a r} (h : getfac E st s = .ok (a, r)) :
    r <:+ s ∧ NoDig r := by
  unfold getfac at h
  split at h
  · cases h
  · rename_i c t
    split at h
    · split at h
      · cases h
      · rename_i x r1 heq
        have h0 : (c :: t).dropWhile (· ≠ '#') <:+ (c :: t) := suffix_dropWhile _ _
        rw [heq] at h0
        split at h
        · cases h
        · split at h
          · cases h
          · rename_i id r' hr
            rw [Res.bind_eq_ok] at h
            obtain ⟨v, -, h⟩ := h
            simp only [Res.ok.injEq, Prod.mk.injEq] at h
            obtain ⟨-, rfl⟩ := h
            obtain ⟨g1, g2⟩ := readInt_rest hr
            exact ⟨g1.trans ((List.suffix_cons _ _).trans h0), g2⟩
    · split at h
      · split at h
        · cases h
        · rename_i id r' hr
          rw [Res.bind_eq_ok] at h
          obtain ⟨v, -, h⟩ := h
          simp only [Res.ok.injEq, Prod.mk.injEq] at h
          obtain ⟨-, rfl⟩ := h
          obtain ⟨g1, g2⟩ := readInt_rest hr
          exact ⟨g1.trans (List.suffix_cons _ _), g2⟩
      · split at h
        · cases h
        · rename_i x r' hr
          simp only [Res.ok.injEq, Prod.mk.injEq] at h
          obtain ⟨-, rfl⟩ := h
          exact readNum_rest hr

theorem getnum_rest {E : Env K} {st} (s : List Char) : ∀ {a r}, getnum E st s = .ok (a, r) →
    r <:+ s ∧ NoDig r := by
  induction s with
  | nil => intro a r h; cases h
  | cons c s ih =>
    intro a r h
    rw [getnum] at h
    split at h
    · obtain ⟨h1, h2⟩ := ih h
      exact ⟨h1.trans (List.suffix_cons _ _), h2⟩
    · split at h
      · rw [Res.bind_eq_ok] at h
        obtain ⟨v, hv, h⟩ := h
        simp only [Res.ok.injEq, Prod.mk.injEq] at h
        obtain ⟨-, rfl⟩ := h
        obtain ⟨h1, h2⟩ := ih hv
        exact ⟨h1.trans (List.suffix_cons _ _), h2⟩
      · split at h
        · obtain ⟨h1, h2⟩ := ih h
          exact ⟨h1.trans (List.suffix_cons _ _), h2⟩
        · exact getfac_rest h

/-! ### Termination -/

theorem takeWhile_imp {p : Char → Bool} {c : Char} {s : List Char} (h : c ∈ s.takeWhile p) : p c = true :=
  List.all_eq_true.1 (List.all_takeWhile (p := p) (l := s)) c h

theorem dropWhile_nil {p : Char → Bool} {s : List Char} (h : s.dropWhile p = []) : ∀ c ∈ s, p c = true := by
  have h1 := List.takeWhile_append_dropWhile (p := p) (l := s)
  rw [h, List.append_nil] at h1
  intro c hc
  rw [← h1] at hc
  exact takeWhile_imp hc

theorem nops_suffix {r s : List Char} (h : r <:+ s) : nops r ≤ nops s :=
  List.Sublist.countP_le h.sublist

theorem nops_stackvar (k : Nat) : nops (stackvar k) = 0 := by
  unfold nops
  rw [List.countP_eq_zero]
  intro c hc
  rcases List.mem_cons.1 hc with rfl | hc
  · decide
  · obtain ⟨-, -, -, -, -, -, -, -, -, -, -, -, -, h⟩ := dig_not (natText_dig k c hc)
    simp [h]

theorem nops_after {E : Env K} {st} {s : List Char} {a r op r2} (h : getnum E st s = .ok (a, r))
    (h2 : skipWs r = op :: r2) (hop : isOp op = true) : nops r2 < nops s := by
  obtain ⟨h1, -⟩ := getnum_rest s h
  have h3 : op :: r2 <:+ s := by
    rw [← h2]; exact (suffix_dropWhile _ _).trans h1
  have h4 := nops_suffix h3
  unfold nops at h4 ⊢
  rw [List.countP_cons_of_pos hop] at h4
  omega

theorem pass1_total (E : Env K) (fuel : Nat) : ∀ st pre s, nops s < fuel → pass1 E fuel st pre s ≠ none := by
  induction fuel with
  | zero => intro st pre s h; omega
  | succ fuel ih =>
    intro st pre s h
    rw [pass1]
    split
    · simp
    · simp
    · rename_i a r heq
      split
      · simp
      · rename_i op r2 hs
        split
        · simp
        · rename_i hop
          have hop : isOp op = true := by simpa using hop
          have hlt := nops_after heq hs hop
          split
          · exact ih _ _ _ (by omega)
          · split
            · simp
            · simp
            · rename_i b r3 hb
              apply ih
              have := nops_suffix (getnum_rest r2 hb).1
              unfold nops at *
              rw [List.countP_append]
              have h0 := nops_stackvar st.length
              unfold nops at h0
              omega

theorem pass2_total (E : Env K) (fuel : Nat) : ∀ st s, nops s < fuel → pass2 E fuel st s ≠ none := by
  induction fuel with
  | zero => intro st s h; omega
  | succ fuel ih =>
    intro st s h
    rw [pass2]
    split
    · simp
    · simp
    · rename_i a r heq
      split
      · simp
      · rename_i op r2 hs
        split
        · simp
        · rename_i hop
          have hop : isOp op = true := by simpa using hop
          have hlt := nops_after heq hs hop
          split
          · simp
          · simp
          · rename_i b r3 hb
            apply ih
            have := nops_suffix (getnum_rest r2 hb).1
            unfold nops at *
            rw [List.countP_append]
            have h0 := nops_stackvar st.length
            unfold nops at h0
            omega

theorem compute_total (E : Env K) (st) (s : List Char) : compute E st s ≠ none := by
  unfold compute
  split
  · rename_i h
    exact absurd h (pass1_total E _ _ _ _ (Nat.lt_succ_self _))
  · simp
  · simp
  · exact pass2_total E _ _ _ (Nat.lt_succ_self _)

/-- Splitting at the last `(`. -/
theorem splitLast_some {s l inner : List Char} (h : splitLast s = some (l, inner)) :
    s = l ++ '(' :: inner ∧ '(' ∉ inner := by
  unfold splitLast at h
  dsimp only at h
  split at h
  · cases h
  · rename_i x l' heq
    simp only [Option.some.injEq, Prod.mk.injEq] at h
    obtain ⟨rfl, rfl⟩ := h
    have hx : x = '(' := by
      have := List.head?_dropWhile_not (· ≠ '(') s.reverse
      rw [heq] at this
      simpa using this
    subst hx
    have h1 := List.takeWhile_append_dropWhile (p := (· ≠ '(')) (l := s.reverse)
    rw [heq] at h1
    constructor
    · have := congrArg List.reverse h1
      simp only [List.reverse_append, List.reverse_cons, List.reverse_reverse, List.append_assoc] at this
      exact this.symm
    · intro hm
      rw [List.mem_reverse] at hm
      have := takeWhile_imp hm
      simp at this

theorem splitLast_none {s : List Char} (h : splitLast s = none) : '(' ∉ s := by
  unfold splitLast at h
  dsimp only at h
  split at h
  · rename_i heq
    intro hm
    have := dropWhile_nil heq '(' (by simpa using hm)
    simp at this
  · cases h

/-- Measure of the loop over brackets. -/
def bmeas (s : List Char) : Nat :=
  2 * s.count '(' + s.count ')' + (match s with | ')' :: '(' :: _ => 1 | _ => 0)

theorem count_stackvar {c : Char} (hc : isDig c = false) (h : c ≠ '#') (k : Nat) :
    (stackvar k).count c = 0 := by
  rw [List.count_eq_zero]
  intro hm
  rcases List.mem_cons.1 hm with e | hm
  · exact h e
  · rw [natText_dig k c hm] at hc; cases hc

theorem split_close {line post : List Char} {x : Char} (h : line.dropWhile (· ≠ ')') = x :: post) :
    x = ')' ∧ line = line.takeWhile (· ≠ ')') ++ ')' :: post ∧ ')' ∉ line.takeWhile (· ≠ ')') := by
  have hx : x = ')' := by
    have := List.head?_dropWhile_not (· ≠ ')') line
    rw [h] at this
    simpa using this
  subst hx
  refine ⟨rfl, ?_, ?_⟩
  · conv_lhs => rw [← List.takeWhile_append_dropWhile (p := (· ≠ ')')) (l := line), h]
  · intro hm
    have := takeWhile_imp hm
    simp at this

theorem bmeas_insert (inner : List Char) (k : Nat) :
    bmeas (')' :: stackvar k ++ '(' :: inner) < bmeas (')' :: '(' :: inner) := by
  have h1 := count_stackvar (c := '(') (by decide) (by decide) k
  have h2 := count_stackvar (c := ')') (by decide) (by decide) k
  unfold bmeas
  simp only [List.cons_append, List.count_cons, List.count_append, h1, h2]
  simp [stackvar]

theorem bmeas_cut (l inner : List Char) (hl : l ≠ []) (k : Nat) :
    bmeas (')' :: l ++ stackvar k) < bmeas (')' :: (l ++ '(' :: inner)) := by
  have h1 := count_stackvar (c := '(') (by decide) (by decide) k
  have h2 := count_stackvar (c := ')') (by decide) (by decide) k
  obtain ⟨c, t, rfl⟩ := List.exists_cons_of_ne_nil hl
  unfold bmeas
  simp only [List.cons_append, List.count_cons, List.count_append, h1, h2]
  split <;> split <;> simp_all <;> omega

theorem bmeas_normal (l inner post : List Char) (k : Nat) (hl : ')' ∉ l) :
    bmeas (l ++ stackvar k ++ post) < bmeas (l ++ '(' :: inner ++ ')' :: post) := by
  have h1 := count_stackvar (c := '(') (by decide) (by decide) k
  have h2 := count_stackvar (c := ')') (by decide) (by decide) k
  have hz : (match l ++ stackvar k ++ post with | ')' :: '(' :: _ => 1 | _ => 0) = 0 := by
    split
    · rename_i t heq
      cases l with
      | nil => simp [stackvar] at heq
      | cons c l => simp at heq; simp [heq.1] at hl
    · rfl
  unfold bmeas
  rw [hz]
  simp only [List.count_cons, List.count_append, h1, h2]
  simp
  omega

theorem brackets_total (E : Env K) (fuel : Nat) : ∀ st line, bmeas line < fuel →
    brackets E fuel st line ≠ none := by
  induction fuel with
  | zero => intro st line h; omega
  | succ fuel ih =>
    intro st line h
    rw [brackets]
    split
    · split
      · rename_i hc; exact absurd hc (compute_total _ _ _)
      · simp
      · simp
      · simp
    · rename_i x post heq
      obtain ⟨rfl, hline, hpre⟩ := split_close heq
      generalize line.takeWhile (· ≠ ')') = pre at *
      subst hline
      split
      · rename_i hp
        subst hp
        split
        · simp
        · rename_i l inner hsp
          obtain ⟨rfl, -⟩ := splitLast_some hsp
          split
          · rename_i hc; exact absurd hc (compute_total _ _ _)
          · simp
          · simp
          · rename_i st1 a hc
            apply ih
            split
            · rename_i hl
              subst hl
              have := bmeas_insert inner st1.length
              simp only [List.nil_append] at h this
              omega
            · rename_i hl
              have := bmeas_cut l inner hl st1.length
              simp only [List.nil_append] at h this
              omega
      · split
        · simp
        · rename_i l inner hsp
          obtain ⟨rfl, -⟩ := splitLast_some hsp
          split
          · rename_i hc; exact absurd hc (compute_total _ _ _)
          · simp
          · simp
          · rename_i st1 a hc
            apply ih
            have := bmeas_normal l inner post st1.length (fun hm => hpre (by simp [hm]))
            omega

theorem bmeas_le (s : List Char) : bmeas s < 2 * s.length + 2 := by
  have h1 : s.count '(' + s.count ')' ≤ s.length := by
    induction s with
    | nil => simp
    | cons c s ih =>
      rw [List.count_cons, List.count_cons, List.length_cons]
      by_cases h : c = '('
      · subst h
        have : (('(' : Char) == ')') = false := by decide
        simp [this]; omega
      · by_cases h2 : c = ')' <;> simp [h, h2] <;> omega
  have h2 : s.count '(' ≤ s.length := List.count_le_length
  unfold bmeas
  split <;> omega

theorem count_at_stackvar (k : Nat) : (stackvar k).count '@' = 0 :=
  count_stackvar (by decide) (by decide) k

omit [Field K] in
theorem substLoop_total (par : ParStore K) (fuel : Nat) : ∀ used s, s.count '@' < fuel →
    substLoop par fuel used s ≠ none := by
  induction fuel with
  | zero => intro used s h; omega
  | succ fuel ih =>
    intro used s h
    rw [substLoop]
    dsimp only
    split
    · simp
    · rename_i x r heq
      split
      · simp
      · rename_i id r' hr
        split
        · simp
        · split
          · simp
          · split
            · apply ih
              have h1 := List.takeWhile_append_dropWhile (p := (· ≠ '@')) (l := s)
              rw [heq] at h1
              have hx : x = '@' := by
                have := List.head?_dropWhile_not (· ≠ '@') s
                rw [heq] at this
                simpa using this
              subst hx
              have h2 := congrArg (List.count '@') h1
              rw [List.count_append, List.count_cons_self] at h2
              have h3 := (readInt_rest hr).1.sublist.count_le '@'
              rw [List.count_append, List.count_append, count_at_stackvar]
              omega
            · simp

end
end Pdffit.Parser
