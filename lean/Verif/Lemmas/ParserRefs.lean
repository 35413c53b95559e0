import Verif.Lemmas.Parser

/-! Stack references in the texts of the formula evaluator. -/

namespace Pdffit.Parser

/-- Every `#` of the text is followed by exactly one stack index below `n`. -/
def RefsOK (n : Nat) (s : List Char) : Prop :=
  ∀ u v, s = u ++ '#' :: v → ∃ k v', v = natText k ++ v' ∧ k < n ∧ NoDig v'

/-- No `)` is directly followed by a digit. -/
def CloseOK (s : List Char) : Prop := ∀ u v, s = u ++ ')' :: v → NoDig v

theorem noDig_nil : NoDig [] := by intro c t h; cases h

theorem noDig_cons {c : Char} {s : List Char} (h : isDig c = false) : NoDig (c :: s) := by
  intro c' t e
  cases e
  exact h

theorem noDig_append {u v : List Char} (hu : NoDig u) (hv : NoDig v) : NoDig (u ++ v) := by
  cases u with
  | nil => exact hv
  | cons c u => exact noDig_cons (hu c u rfl)

theorem noDig_stackvar' (k : Nat) : NoDig (stackvar k) := noDig_cons (by decide)

theorem noDig_stackvar (k : Nat) (s : List Char) : NoDig (stackvar k ++ s) :=
  noDig_cons (by decide)

theorem RefsOK.mono {n m : Nat} {s : List Char} (h : RefsOK n s) (hnm : n ≤ m) : RefsOK m s := by
  intro u v e
  obtain ⟨k, v', h1, h2, h3⟩ := h u v e
  exact ⟨k, v', h1, by omega, h3⟩

theorem RefsOK.suffix {n : Nat} {r s : List Char} (h : RefsOK n s) (hr : r <:+ s) : RefsOK n r := by
  obtain ⟨t, rfl⟩ := hr
  intro u v e
  exact h (t ++ u) v (by rw [e, List.append_assoc])

theorem RefsOK.of_no_hash {n : Nat} {s : List Char} (h : '#' ∉ s) : RefsOK n s := by
  intro u v e
  exact absurd (by rw [e]; simp) h

theorem RefsOK.append {n : Nat} {u v : List Char} (hu : RefsOK n u) (hv : RefsOK n v) (hd : NoDig v) :
    RefsOK n (u ++ v) := by
  intro a b e
  rcases List.append_eq_append_iff.1 e with ⟨a', h1, h2⟩ | ⟨c, h1, h2⟩
  · exact hv a' b h2
  · cases c with
    | nil =>
      simp only [List.nil_append] at h2
      exact hv [] b h2.symm
    | cons c0 c =>
      simp only [List.cons_append, List.cons.injEq] at h2
      obtain ⟨rfl, rfl⟩ := h2
      obtain ⟨k, v', rfl, hk, hn⟩ := hu a c h1
      exact ⟨k, v' ++ v, by simp, hk, noDig_append hn hd⟩

theorem RefsOK.prefix {n : Nat} {u v : List Char} (h : RefsOK n (u ++ v)) (hd : NoDig v) : RefsOK n u := by
  intro a b e
  subst e
  obtain ⟨k, v', h1, hk, hn⟩ := h a (b ++ v) (by simp)
  rcases List.append_eq_append_iff.1 h1 with ⟨a', h2, h3⟩ | ⟨c, h2, h3⟩
  · cases a' with
    | nil => exact ⟨k, [], by simpa using h2.symm, hk, noDig_nil⟩
    | cons c0 a' =>
      have hc0 : isDig c0 = true := natText_dig k c0 (by rw [h2]; simp)
      rw [h3] at hd
      have := hd c0 _ rfl
      rw [hc0] at this; cases this
  · refine ⟨k, c, h2, hk, ?_⟩
    cases c with
    | nil => exact noDig_nil
    | cons c0 c =>
      subst h3
      exact noDig_cons (hn c0 (c ++ v) rfl)

theorem RefsOK.stackvar {n k : Nat} (h : k < n) : RefsOK n (stackvar k) := by
  intro u v e
  unfold Parser.stackvar at e
  cases u with
  | nil =>
    simp only [List.nil_append, List.cons.injEq, true_and] at e
    exact ⟨k, [], by simpa using e.symm, h, noDig_nil⟩
  | cons c u =>
    simp only [List.cons_append, List.cons.injEq] at e
    have : '#' ∈ natText k := by rw [e.2]; simp
    exact absurd (natText_dig k _ this) (by decide)

theorem RefsOK.cons {n : Nat} {c : Char} {s : List Char} (hc : c ≠ '#') (h : RefsOK n s) :
    RefsOK n (c :: s) := by
  intro u v e
  cases u with
  | nil => simp only [List.nil_append, List.cons.injEq] at e; exact absurd e.1 hc
  | cons c' u => simp only [List.cons_append, List.cons.injEq] at e; exact h u v e.2

theorem CloseOK.suffix {r s : List Char} (h : CloseOK s) (hr : r <:+ s) : CloseOK r := by
  obtain ⟨t, rfl⟩ := hr
  intro u v e
  exact h (t ++ u) v (by rw [e, List.append_assoc])

theorem CloseOK.prefix {u v : List Char} (h : CloseOK (u ++ v)) : CloseOK u := by
  intro a b e
  subst e
  have := h a (b ++ v) (by simp)
  intro c t hb
  subst hb
  exact this c (t ++ v) rfl

theorem CloseOK.append {u v : List Char} (hu : CloseOK u) (hv : CloseOK v) (hd : NoDig v) :
    CloseOK (u ++ v) := by
  intro a b e
  rcases List.append_eq_append_iff.1 e with ⟨a', h1, h2⟩ | ⟨c, h1, h2⟩
  · exact hv a' b h2
  · cases c with
    | nil =>
      simp only [List.nil_append] at h2
      exact hv [] b h2.symm
    | cons c0 c =>
      simp only [List.cons_append, List.cons.injEq] at h2
      obtain ⟨rfl, rfl⟩ := h2
      exact noDig_append (hu a c h1) hd

theorem CloseOK.of_no_close {s : List Char} (h : ')' ∉ s) : CloseOK s := by
  intro u v e
  exact absurd (by rw [e]; simp) h

theorem closeOK_stackvar (k : Nat) : CloseOK (stackvar k) := by
  apply CloseOK.of_no_close
  have := count_stackvar (c := ')') (by decide) (by decide) k
  rwa [List.count_eq_zero] at this

section
variable {K : Type} [Field K]

/-! ### Reads stay inside the stack -/

theorem stackAt_ok {st : List (Num K)} {k : Nat} (h : k < st.length) :
    stackAt st (k : Int) = .ok st[k] := by
  simp [stackAt, Res.at?, h]

theorem getfac_no_ub {E : Env K} {st : List (Num K)} {s : List Char} (h : RefsOK st.length s) :
    getfac E st s ≠ .ub := by
  unfold getfac
  split
  · simp
  · rename_i c t
    split
    · split
      · simp
      · rename_i x r heq
        have hx : x = '#' := by
          have := List.head?_dropWhile_not (· ≠ '#') (c :: t)
          rw [heq] at this
          simpa using this
        subst hx
        have h0 : (c :: t).dropWhile (· ≠ '#') <:+ (c :: t) := suffix_dropWhile _ _
        rw [heq] at h0
        obtain ⟨k, v', rfl, hk, hn⟩ := h.suffix h0 [] r rfl
        rcases E.tab ((c :: t).takeWhile (· ≠ '#')) with _ | ⟨f, df⟩
        · simp
        · simp [readInt_natText k v' hn, stackAt_ok hk, Res.bind_ok]
    · split
      · rename_i hc
        subst hc
        obtain ⟨k, v', rfl, hk, hn⟩ := h [] t rfl
        rw [readInt_natText k v' hn]
        simp [stackAt_ok hk, Res.bind_ok]
      · split <;> simp

theorem getnum_no_ub {E : Env K} {st : List (Num K)} (s : List Char) (h : RefsOK st.length s) :
    getnum E st s ≠ .ub := by
  induction s with
  | nil => simp [getnum]
  | cons c s ih =>
    have hs := ih (h.suffix (List.suffix_cons _ _))
    rw [getnum]
    split
    · exact hs
    · split
      · cases hg : getnum E st s with
        | ok a => simp [Res.bind_ok]
        | err e => simp
        | ub => exact absurd hg hs
      · split
        · exact hs
        · exact getfac_no_ub h

/-- The text before the read position can be joined to any text. -/
def Joins (n : Nat) (pre : List Char) : Prop := ∀ m v, n ≤ m → RefsOK m v → RefsOK m (pre ++ v)

theorem isOp_dig {c : Char} (h : isOp c = true) : isDig c = false ∧ c ≠ '#' := by
  unfold isOp at h
  simp only [Bool.or_eq_true, decide_eq_true_eq] at h
  rcases h with ((rfl | rfl) | rfl) | rfl <;> decide

theorem pass1_no_ub (E : Env K) (fuel : Nat) : ∀ (st : List (Num K)) (pre s : List Char), RefsOK st.length s →
    Joins st.length pre → pass1 E fuel st pre s ≠ some .ub ∧
      ∀ st' t, pass1 E fuel st pre s = some (.ok (st', t)) → st.length ≤ st'.length ∧ RefsOK st'.length t := by
  induction fuel with
  | zero => intro st pre s _ _; simp [pass1]
  | succ fuel ih =>
    intro st pre s hs hj
    rw [pass1]
    split
    · simp
    · rename_i hg; exact absurd hg (getnum_no_ub s hs)
    · rename_i a r hg
      obtain ⟨hr, -⟩ := getnum_rest s hg
      split
      · refine ⟨by simp, ?_⟩
        intro st' t e
        simp only [Option.some.injEq, Res.ok.injEq, Prod.mk.injEq] at e
        obtain ⟨rfl, rfl⟩ := e
        exact ⟨le_refl _, hj _ _ (le_refl _) hs⟩
      · rename_i op r2 hsk
        have h3 : op :: r2 <:+ s := by
          rw [← hsk]; exact (suffix_dropWhile _ _).trans hr
        have h2 : r2 <:+ s := (List.suffix_cons _ _).trans h3
        split
        · simp
        · rename_i hop
          have hop : isOp op = true := by simpa using hop
          split
          · apply ih _ _ _ (hs.suffix h2)
            obtain ⟨c0, rfl⟩ := h3
            have htake : (c0 ++ op :: r2).take ((c0 ++ op :: r2).length - r2.length) = c0 ++ [op] := by
              have e1 : c0 ++ op :: r2 = (c0 ++ [op]) ++ r2 := by simp
              have e2 : (c0 ++ op :: r2).length - r2.length = (c0 ++ [op]).length := by simp; omega
              rw [e2, e1, List.take_left]
            rw [htake]
            have hc0 : RefsOK st.length c0 := hs.prefix (noDig_cons (isOp_dig hop).1)
            intro m v hm hv
            have := hj m (c0 ++ op :: v) hm
              ((hc0.mono hm).append (hv.cons (isOp_dig hop).2) (noDig_cons (isOp_dig hop).1))
            simpa using this
          · split
            · simp
            · rename_i hb; exact absurd hb (getnum_no_ub r2 (hs.suffix h2))
            · rename_i b r3 hb
              obtain ⟨g1, g2⟩ := getnum_rest r2 hb
              have h4 : RefsOK (st ++ [apply E op a b]).length (stackvar st.length ++ r3) := by
                refine (RefsOK.stackvar ?_).append ((hs.suffix (g1.trans h2)).mono ?_) g2 <;> simp
              obtain ⟨i1, i2⟩ := ih (st ++ [apply E op a b]) pre (stackvar st.length ++ r3) h4
                (fun m v hm => hj m v (by simp at hm; omega))
              refine ⟨i1, fun st' t e => ?_⟩
              obtain ⟨j1, j2⟩ := i2 st' t e
              simp at j1
              exact ⟨by omega, j2⟩

theorem pass2_no_ub (E : Env K) (fuel : Nat) : ∀ (st : List (Num K)) (s : List Char), RefsOK st.length s →
    pass2 E fuel st s ≠ some .ub ∧
      ∀ st' a, pass2 E fuel st s = some (.ok (st', a)) → st.length ≤ st'.length := by
  induction fuel with
  | zero => intro st s _; simp [pass2]
  | succ fuel ih =>
    intro st s hs
    rw [pass2]
    split
    · simp
    · rename_i hg; exact absurd hg (getnum_no_ub s hs)
    · rename_i a r hg
      obtain ⟨hr, -⟩ := getnum_rest s hg
      split
      · refine ⟨by simp, ?_⟩
        intro st' t e
        simp only [Option.some.injEq, Res.ok.injEq, Prod.mk.injEq] at e
        rw [e.1]
      · rename_i op r2 hsk
        have h2 : r2 <:+ s := by
          refine (List.suffix_cons op _).trans ?_
          rw [← hsk]; exact (suffix_dropWhile _ _).trans hr
        split
        · simp
        · split
          · simp
          · rename_i hb; exact absurd hb (getnum_no_ub r2 (hs.suffix h2))
          · rename_i b r3 hb
            obtain ⟨g1, g2⟩ := getnum_rest r2 hb
            have h4 : RefsOK (st ++ [apply E op a b]).length (stackvar st.length ++ r3) := by
              refine (RefsOK.stackvar ?_).append ((hs.suffix (g1.trans h2)).mono ?_) g2 <;> simp
            obtain ⟨i1, i2⟩ := ih (st ++ [apply E op a b]) (stackvar st.length ++ r3) h4
            refine ⟨i1, fun st' t e => ?_⟩
            have := i2 st' t e
            simp at this
            omega

theorem compute_no_ub (E : Env K) (st : List (Num K)) (s : List Char) (hs : RefsOK st.length s) :
    compute E st s ≠ some .ub ∧
      ∀ st' a, compute E st s = some (.ok (st', a)) → st.length ≤ st'.length := by
  obtain ⟨h1, h2⟩ := pass1_no_ub E (nops s + 1) st [] s hs (fun m v _ h => by simpa using h)
  unfold compute
  split
  · simp
  · simp
  · rename_i h; exact absurd h h1
  · rename_i st1 s1 h
    obtain ⟨g1, g2⟩ := h2 _ _ h
    obtain ⟨i1, i2⟩ := pass2_no_ub E (nops s1 + 1) st1 s1 g2
    exact ⟨i1, fun st' a e => g1.trans (i2 st' a e)⟩

theorem brackets_no_ub (E : Env K) (fuel : Nat) : ∀ (st : List (Num K)) (line : List Char),
    RefsOK st.length line → CloseOK line → brackets E fuel st line ≠ some .ub := by
  induction fuel with
  | zero => intro st line _ _; simp [brackets]
  | succ fuel ih =>
    intro st line hr hcl
    rw [brackets]
    split
    · split
      · simp
      · simp
      · rename_i h; exact absurd h (compute_no_ub E st line hr).1
      · simp
    · rename_i x post heq
      obtain ⟨rfl, hline, hpre⟩ := split_close heq
      generalize line.takeWhile (· ≠ ')') = pre at *
      subst hline
      have hpost : RefsOK st.length post := hr.suffix ⟨pre ++ [')'], by simp⟩
      have hpostd : NoDig post := hcl pre post rfl
      have hclpost : CloseOK post := hcl.suffix ⟨pre ++ [')'], by simp⟩
      split
      · rename_i hp
        subst hp
        split
        · simp
        · rename_i l inner hsp
          obtain ⟨rfl, -⟩ := splitLast_some hsp
          have hin : RefsOK st.length inner := hpost.suffix ⟨l ++ ['('], by simp⟩
          have hl : RefsOK st.length l := hpost.prefix (noDig_cons (by decide))
          obtain ⟨c1, c2⟩ := compute_no_ub E st inner hin
          split
          · simp
          · simp
          · rename_i h; exact absurd h c1
          · rename_i st1 a hc
            have hlen := c2 _ _ hc
            apply ih
            · split
              · refine RefsOK.cons (by decide) (RefsOK.append (RefsOK.stackvar (by simp)) ?_ (noDig_cons (by decide)))
                exact (hin.mono (by simp; omega)).cons (by decide)
              · refine RefsOK.cons (by decide) (RefsOK.append (hl.mono (by simp; omega)) (RefsOK.stackvar (by simp)) ?_)
                exact noDig_stackvar' _
            · split
              · refine CloseOK.append (u := ')' :: stackvar st1.length) ?_ ?_ (noDig_cons (by decide))
                · refine CloseOK.append (u := [')']) ?_ (closeOK_stackvar _) (noDig_stackvar' _)
                  intro u v e
                  cases u with
                  | nil => simp at e; subst e; exact noDig_nil
                  | cons c u => simp at e
                · exact hclpost.suffix ⟨l, rfl⟩
              · refine CloseOK.append (u := ')' :: l) ?_ (closeOK_stackvar _) (noDig_stackvar' _)
                have : ([] ++ ')' :: (l ++ '(' :: inner) : List Char) = (')' :: l) ++ ('(' :: inner) := by simp
                rw [this] at hcl
                exact hcl.prefix
      · split
        · simp
        · rename_i l inner hsp
          obtain ⟨rfl, -⟩ := splitLast_some hsp
          have hp2 : RefsOK st.length (l ++ '(' :: inner) := hr.prefix (noDig_cons (by decide))
          have hin : RefsOK st.length inner := hp2.suffix ⟨l ++ ['('], by simp⟩
          have hl : RefsOK st.length l := hp2.prefix (noDig_cons (by decide))
          obtain ⟨c1, c2⟩ := compute_no_ub E st inner hin
          split
          · simp
          · simp
          · rename_i h; exact absurd h c1
          · rename_i st1 a hc
            have hlen := c2 _ _ hc
            apply ih
            · refine RefsOK.append (RefsOK.append (hl.mono (by simp; omega)) (RefsOK.stackvar (by simp)) ?_)
                (hpost.mono (by simp; omega)) hpostd
              exact noDig_stackvar' _
            · refine CloseOK.append (CloseOK.append ?_ (closeOK_stackvar _) ?_) hclpost hpostd
              · exact (CloseOK.prefix (CloseOK.prefix hcl))
              · exact noDig_stackvar' _

theorem split_at {s r : List Char} {x : Char} (h : s.dropWhile (· ≠ '@') = x :: r) :
    x = '@' ∧ s = s.takeWhile (· ≠ '@') ++ '@' :: r ∧ '@' ∉ s.takeWhile (· ≠ '@') := by
  have hx : x = '@' := by
    have := List.head?_dropWhile_not (· ≠ '@') s
    rw [h] at this
    simpa using this
  subst hx
  refine ⟨rfl, ?_, ?_⟩
  · conv_lhs => rw [← List.takeWhile_append_dropWhile (p := (· ≠ '@')) (l := s), h]
  · intro hm
    have := takeWhile_imp hm
    simp at this

omit [Field K] in
theorem substLoop_no_ub (par : ParStore K) (hw : ∀ n i, par.parfind n = some i → i < par.p.length) (fuel : Nat) :
    ∀ (used : List Nat) (s : List Char), RefsOK used.length s → CloseOK s →
    substLoop par fuel used s ≠ some .ub ∧
      ∀ used' t, substLoop par fuel used s = some (.ok (used', t)) →
        RefsOK used'.length t ∧ CloseOK t := by
  induction fuel with
  | zero => intro used s _ _; simp [substLoop]
  | succ fuel ih =>
    intro used s hr hcl
    rw [substLoop]
    split
    · refine ⟨by simp, ?_⟩
      intro used' t e
      simp only [Option.some.injEq, Res.ok.injEq, Prod.mk.injEq] at e
      obtain ⟨rfl, rfl⟩ := e
      exact ⟨hr, hcl⟩
    · rename_i x r heq
      obtain ⟨rfl, hline, -⟩ := split_at heq
      generalize s.takeWhile (· ≠ '@') = pre at *
      subst hline
      split
      · simp
      · rename_i id r' hri
        obtain ⟨g1, g2⟩ := readInt_rest hri
        split
        · simp
        · split
          · simp
          · rename_i ipar hpf
            rw [if_pos (hw _ _ hpf)]
            have hpre : RefsOK used.length pre := hr.prefix (noDig_cons (by decide))
            have hsuf : r' <:+ pre ++ '@' :: r := g1.trans ⟨pre ++ ['@'], by simp⟩
            have hle : used.length ≤ (if ipar ∈ used then used else used ++ [ipar]).length := by
              split <;> simp
            have hlt : (if ipar ∈ used then used else used ++ [ipar]).idxOf ipar <
                (if ipar ∈ used then used else used ++ [ipar]).length := by
              rw [List.idxOf_lt_length_iff]
              split
              · assumption
              · simp
            have hsv := noDig_stackvar ((if ipar ∈ used then used else used ++ [ipar]).idxOf ipar) []
            rw [List.append_nil] at hsv
            apply ih
            · exact RefsOK.append (RefsOK.append (hpre.mono hle) (RefsOK.stackvar hlt) hsv)
                ((hr.suffix hsuf).mono hle) g2
            · exact CloseOK.append (CloseOK.append hcl.prefix (closeOK_stackvar _) hsv) (hcl.suffix hsuf) g2

/-! ### Kinds of errors -/

theorem stackAt_no_err {st : List (Num K)} {id : Int} {e : Exc} : stackAt st id ≠ .err e := by
  unfold stackAt Res.at?
  split
  · split <;> simp
  · simp

theorem getfac_err {E : Env K} {st : List (Num K)} {s : List Char} {e : Exc} (h : getfac E st s = .err e) :
    e = .parse := by
  unfold getfac at h
  split at h
  · cases h; rfl
  · split at h
    · split at h
      · cases h; rfl
      · split at h
        · cases h; rfl
        · split at h
          · cases h; rfl
          · rename_i id r' _
            rcases hs : stackAt st id with a | e' | _
            · rw [hs] at h; simp [Res.bind_ok] at h
            · exact absurd hs stackAt_no_err
            · rw [hs] at h; simp at h
    · split at h
      · split at h
        · cases h; rfl
        · rename_i id r' _
          rcases hs : stackAt st id with a | e' | _
          · rw [hs] at h; simp [Res.bind_ok] at h
          · exact absurd hs stackAt_no_err
          · rw [hs] at h; simp at h
      · split at h
        · cases h; rfl
        · cases h

theorem getnum_err {E : Env K} {st : List (Num K)} (s : List Char) : ∀ {e : Exc}, getnum E st s = .err e →
    e = .parse := by
  induction s with
  | nil => intro e h; cases h; rfl
  | cons c s ih =>
    intro e h
    rw [getnum] at h
    split at h
    · exact ih h
    · split at h
      · rcases hs : getnum E st s with a | e' | _
        · rw [hs] at h; simp [Res.bind_ok] at h
        · rw [hs] at h; simp at h; rw [← h]; exact ih hs
        · rw [hs] at h; simp at h
      · split at h
        · exact ih h
        · exact getfac_err h

theorem pass1_err (E : Env K) (fuel : Nat) : ∀ (st : List (Num K)) (pre s : List Char) (e : Exc),
    pass1 E fuel st pre s = some (.err e) → e = .parse := by
  induction fuel with
  | zero => intro st pre s e h; cases h
  | succ fuel ih =>
    intro st pre s e h
    rw [pass1] at h
    split at h
    · rename_i hg; cases h; exact getnum_err s hg
    · cases h
    · split at h
      · cases h
      · split at h
        · cases h; rfl
        · split at h
          · exact ih _ _ _ _ h
          · split at h
            · rename_i hg; cases h; exact getnum_err _ hg
            · cases h
            · exact ih _ _ _ _ h

theorem pass2_err (E : Env K) (fuel : Nat) : ∀ (st : List (Num K)) (s : List Char) (e : Exc),
    pass2 E fuel st s = some (.err e) → e = .parse := by
  induction fuel with
  | zero => intro st s e h; cases h
  | succ fuel ih =>
    intro st s e h
    rw [pass2] at h
    split at h
    · rename_i hg; cases h; exact getnum_err s hg
    · cases h
    · split at h
      · cases h
      · split at h
        · cases h; rfl
        · split at h
          · rename_i hg; cases h; exact getnum_err _ hg
          · cases h
          · exact ih _ _ _ h

theorem compute_err (E : Env K) {st : List (Num K)} {s : List Char} {e : Exc}
    (h : compute E st s = some (.err e)) : e = .parse := by
  unfold compute at h
  split at h
  · cases h
  · rename_i hg; cases h; exact pass1_err _ _ _ _ _ _ hg
  · cases h
  · exact pass2_err _ _ _ _ _ h

theorem brackets_err (E : Env K) (fuel : Nat) : ∀ (st : List (Num K)) (s : List Char) (e : Exc),
    brackets E fuel st s = some (.err e) → e = .parse := by
  induction fuel with
  | zero => intro st s e h; cases h
  | succ fuel ih =>
    intro st s e h
    rw [brackets] at h
    split at h
    · split at h
      · cases h
      · rename_i hg; cases h; exact compute_err E hg
      · cases h
      · cases h
    · split at h
      · split at h
        · cases h; rfl
        · split at h
          · cases h
          · rename_i hg; cases h; exact compute_err E hg
          · cases h
          · exact ih _ _ _ h
      · split at h
        · cases h; rfl
        · split at h
          · cases h
          · rename_i hg; cases h; exact compute_err E hg
          · cases h
          · exact ih _ _ _ h

omit [Field K] in
theorem substLoop_err (par : ParStore K) (fuel : Nat) : ∀ (used : List Nat) (s : List Char) (e : Exc),
    substLoop par fuel used s = some (.err e) → e = .parse ∨ e = .constraint := by
  induction fuel with
  | zero => intro used s e h; cases h
  | succ fuel ih =>
    intro used s e h
    rw [substLoop] at h
    split at h
    · cases h
    · split at h
      · cases h; exact Or.inl rfl
      · split at h
        · cases h; exact Or.inl rfl
        · split at h
          · cases h; exact Or.inr rfl
          · split at h
            · exact ih _ _ _ h
            · cases h

theorem initStack_length (par : ParStore K) (used : List Nat) : (initStack par used).length = used.length := by
  simp [initStack]

end
end Pdffit.Parser
