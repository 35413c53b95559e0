import Verif.Lemmas.ParserDen

/-! Replacement of the parameters by stack references, and the value of a formula. -/

namespace Pdffit.Formula

/-- Parameters of a formula. -/
def Ex.pars : Ex → List Nat
  | num _ => []
  | par n => [n]
  | neg e => e.pars
  | bin _ a b => a.pars ++ b.pars
  | fn _ e => e.pars

/-- Functions of a formula. -/
def Ex.names : Ex → List (List Char)
  | num _ => []
  | par _ => []
  | neg e => e.names
  | bin _ a b => a.names ++ b.names
  | fn n e => n :: e.names

end Pdffit.Formula

namespace Pdffit.Parser
open Formula

section
variable {K : Type}

/-- Texts in which some parameters have been replaced. -/
inductive Mix (par : ParStore K) (used : List Nat) : Lvl → Ex → List Char → Prop
  | num {l s} (hl : l.Ok) (h : Lit.Text l s) : Mix par used .fac (.num l) s
  | par {ds} (hne : ds ≠ []) (hb : digitsVal ds ≤ 2147483647) :
      Mix par used .fac (.par (digitsVal ds)) ('@' :: ds.map digitChar)
  | ref {n k} (hk : k < used.length) (h : par.parfind n = some used[k]) : Mix par used .fac (.par n) (stackvar k)
  | paren {e s w} (h : Mix par used .expr e s) (hw : ∀ c ∈ w, isWs c = true) :
      Mix par used .fac e ('(' :: (s ++ w ++ [')']))
  | fn {name e s w} (hne : name ≠ []) (hn : ∀ c ∈ name, isLow c = true) (h : Mix par used .expr e s)
      (hw : ∀ c ∈ w, isWs c = true) : Mix par used .fac (.fn name e) (name ++ '(' :: (s ++ w ++ [')']))
  | neg {e s} (h : Mix par used .fac e s) : Mix par used .fac (.neg e) ('-' :: s)
  | pos {e s} (h : Mix par used .fac e s) : Mix par used .fac e ('+' :: s)
  | sp {c e s} (hc : isWs c = true) (h : Mix par used .fac e s) : Mix par used .fac e (c :: s)
  | term {e s} (h : Mix par used .fac e s) : Mix par used .term e s
  | mul {o a b s w t} (ho : o = .mul ∨ o = .div) (ha : Mix par used .term a s) (hw : ∀ c ∈ w, isWs c = true)
      (hb : Mix par used .fac b t) : Mix par used .term (.bin o a b) (s ++ (w ++ o.char :: t))
  | expr {e s} (h : Mix par used .term e s) : Mix par used .expr e s
  | add {o a b s w t} (ho : o = .add ∨ o = .sub) (ha : Mix par used .expr a s) (hw : ∀ c ∈ w, isWs c = true)
      (hb : Mix par used .term b t) : Mix par used .expr (.bin o a b) (s ++ (w ++ o.char :: t))

variable {pst : ParStore K} {used : List Nat}

theorem ws_of_blank {w : List Char} (h : ∀ c ∈ w, Blank c) : ∀ c ∈ w, isWs c = true :=
  fun c hc => (blank_iff c).1 (h c hc)

theorem isLow_of {c : Char} (h : 'a' ≤ c ∧ c ≤ 'z') : isLow c = true := by
  simp only [isLow, Bool.and_eq_true, decide_eq_true_eq]; exact h

theorem Mix.ofTxt (pst : ParStore K) (used : List Nat) {l e s} (h : Txt l e s) : Mix pst used l e s := by
  induction h with
  | num hl h => exact .num hl h
  | par hne hb => exact .par hne hb
  | paren _ hw ih => exact .paren ih (ws_of_blank hw)
  | fn hne hn _ hw ih => exact .fn hne (fun c hc => isLow_of (hn c hc)) ih (ws_of_blank hw)
  | neg _ ih => exact .neg ih
  | pos _ ih => exact .pos ih
  | sp hc _ ih => exact .sp ((blank_iff _).1 hc) ih
  | term _ ih => exact .term ih
  | mul ho _ hw _ i1 i2 => exact .mul ho i1 (ws_of_blank hw) i2
  | expr _ ih => exact .expr ih
  | add ho _ hw _ i1 i2 => exact .add ho i1 (ws_of_blank hw) i2

theorem Mix.mono {l e s} (h : Mix pst used l e s) (ext : List Nat) : Mix pst (used ++ ext) l e s := by
  induction h with
  | num hl h => exact .num hl h
  | par hne hb => exact .par hne hb
  | @ref n k hk h =>
    exact .ref (by rw [List.length_append]; omega) (by rw [List.getElem_append_left hk]; exact h)
  | paren _ hw ih => exact .paren ih hw
  | fn hne hn _ hw ih => exact .fn hne hn ih hw
  | neg _ ih => exact .neg ih
  | pos _ ih => exact .pos ih
  | sp hc _ ih => exact .sp hc ih
  | term _ ih => exact .term ih
  | mul ho _ hw _ i1 i2 => exact .mul ho i1 hw i2
  | expr _ ih => exact .expr ih
  | add ho _ hw _ i1 i2 => exact .add ho i1 hw i2

theorem lit_no {l : Lit} {s : List Char} (h : Lit.Text l s) : '@' ∉ s ∧ '#' ∉ s ∧ '(' ∉ s ∧ ')' ∉ s := by
  refine ⟨?_, ?_, ?_, ?_⟩ <;>
  · intro hm
    have := lit_chars h _ hm
    revert this
    decide

theorem opChar_sep (o : Op) : isOp o.char = true := by cases o <;> decide

theorem Txt.no_hash {l e s} (h : Txt l e s) : '#' ∉ s := by
  have wsh : ∀ w : List Char, (∀ c ∈ w, Blank c) → '#' ∉ w := fun w hw hm =>
    (ws_not ((blank_iff _).1 (hw _ hm))).2.2.1 rfl
  have oph : ∀ o : Op, '#' ≠ o.char := fun o => by cases o <;> decide
  induction h with
  | num hl h => exact (lit_no h).2.1
  | @par ds hne hb =>
    intro hm
    rcases List.mem_cons.1 hm with h | h
    · exact absurd h (by decide)
    · exact absurd (mem_digits h) (by decide)
  | paren _ hw ih => simp [ih, wsh _ hw]
  | @fn name e s w hne hn _ hw ih =>
    have : '#' ∉ name := fun h => (low_not (isLow_of (hn _ h))).2.2.2.1 rfl
    simp [ih, wsh _ hw, this]
  | neg _ ih => simp [ih]
  | pos _ ih => simp [ih]
  | sp hc _ ih =>
    rw [List.mem_cons, not_or]
    exact ⟨fun e => (ws_not ((blank_iff _).1 hc)).2.2.1 e.symm, ih⟩
  | term _ ih => exact ih
  | mul ho _ hw _ i1 i2 => simp [i1, i2, wsh _ hw, oph]
  | expr _ ih => exact ih
  | add ho _ hw _ i1 i2 => simp [i1, i2, wsh _ hw, oph]

theorem at_not_stackvar (k : Nat) : '@' ∉ stackvar k := List.count_eq_zero.1 (count_at_stackvar k)

/-- The first parameter of a text, and the text with this parameter replaced. -/
theorem Mix.first {l e s} (h : Mix pst used l e s) : '@' ∈ s → ∃ a ds post,
    s = a ++ '@' :: (ds.map digitChar ++ post) ∧ '@' ∉ a ∧ ds ≠ [] ∧ digitsVal ds ≤ 2147483647 ∧
      digitsVal ds ∈ e.pars ∧ NoDig post ∧
      ∀ ext k, (hk : k < (used ++ ext).length) → pst.parfind (digitsVal ds) = some (used ++ ext)[k] →
        Mix pst (used ++ ext) l e (a ++ stackvar k ++ post) := by
  have wsat : ∀ w : List Char, (∀ c ∈ w, isWs c = true) → '@' ∉ w := fun w hw hm =>
    (ws_not (hw _ hm)).2.2.2 rfl
  have opat : ∀ o : Op, '@' ≠ o.char := fun o => by cases o <;> decide
  have wsnd : ∀ (w t : List Char) (o : Char), (∀ c ∈ w, isWs c = true) → isDig o = false → NoDig (w ++ o :: t) := by
    intro w t o hw ho
    refine noDig_append ?_ (noDig_cons ho)
    intro c t e
    exact (sep_not (Or.inl (hw c (by rw [e]; simp)))).1
  induction h with
  | num hl h => intro hm; exact absurd hm (lit_no h).1
  | @par ds hne hb =>
    intro _
    refine ⟨[], ds, [], by simp, by simp, hne, hb, by simp [Ex.pars], noDig_nil, fun ext k hk hp => ?_⟩
    simpa using Mix.ref hk hp
  | @ref n k hk h => intro hm; exact absurd hm (at_not_stackvar k)
  | @paren e s w h hw ih =>
    intro hm
    obtain ⟨a, ds, post, rfl, h1, h2, h3, h4, h5, h6⟩ := ih (by simpa [wsat w hw] using hm)
    refine ⟨'(' :: a, ds, post ++ (w ++ [')']), by simp, by simpa using h1, h2, h3, h4,
      noDig_append h5 (wsnd w [] ')' hw (by decide)), fun ext k hk hp => ?_⟩
    simpa using Mix.paren (h6 ext k hk hp) hw
  | @fn name e s w hne hn h hw ih =>
    intro hm
    have hnm : '@' ∉ name := fun h => (low_not (hn _ h)).2.2.2.2.2.2.1 rfl
    obtain ⟨a, ds, post, rfl, h1, h2, h3, h4, h5, h6⟩ := ih (by simpa [wsat w hw, hnm] using hm)
    refine ⟨name ++ '(' :: a, ds, post ++ (w ++ [')']), by simp, by simp [hnm, h1], h2, h3, h4,
      noDig_append h5 (wsnd w [] ')' hw (by decide)), fun ext k hk hp => ?_⟩
    simpa using Mix.fn hne hn (h6 ext k hk hp) hw
  | neg _ ih =>
    intro hm
    obtain ⟨a, ds, post, rfl, h1, h2, h3, h4, h5, h6⟩ := ih (by simpa using hm)
    exact ⟨'-' :: a, ds, post, by simp, by simpa using h1, h2, h3, h4, h5,
      fun ext k hk hp => by simpa using Mix.neg (h6 ext k hk hp)⟩
  | pos _ ih =>
    intro hm
    obtain ⟨a, ds, post, rfl, h1, h2, h3, h4, h5, h6⟩ := ih (by simpa using hm)
    exact ⟨'+' :: a, ds, post, by simp, by simpa using h1, h2, h3, h4, h5,
      fun ext k hk hp => by simpa using Mix.pos (h6 ext k hk hp)⟩
  | @sp c e s hc _ ih =>
    intro hm
    have hne : '@' ≠ c := fun e => (ws_not hc).2.2.2 e.symm
    obtain ⟨a, ds, post, rfl, h1, h2, h3, h4, h5, h6⟩ := ih (by simpa [hne] using hm)
    exact ⟨c :: a, ds, post, by simp, by simp [hne, h1], h2, h3, h4, h5,
      fun ext k hk hp => by simpa using Mix.sp hc (h6 ext k hk hp)⟩
  | term _ ih =>
    intro hm
    obtain ⟨a, ds, post, rfl, h1, h2, h3, h4, h5, h6⟩ := ih hm
    exact ⟨a, ds, post, rfl, h1, h2, h3, h4, h5, fun ext k hk hp => .term (h6 ext k hk hp)⟩
  | expr _ ih =>
    intro hm
    obtain ⟨a, ds, post, rfl, h1, h2, h3, h4, h5, h6⟩ := ih hm
    exact ⟨a, ds, post, rfl, h1, h2, h3, h4, h5, fun ext k hk hp => .expr (h6 ext k hk hp)⟩
  | @mul o x y s w t ho hx hw hy i1 i2 =>
    intro hm
    by_cases hs : '@' ∈ s
    · obtain ⟨a, ds, post, rfl, h1, h2, h3, h4, h5, h6⟩ := i1 hs
      refine ⟨a, ds, post ++ (w ++ o.char :: t), by simp, h1, h2, h3, by simp [Ex.pars, h4],
        noDig_append h5 (wsnd w t _ hw (isOp_dig (opChar_sep o)).1), fun ext k hk hp => ?_⟩
      simpa using Mix.mul ho (h6 ext k hk hp) hw (hy.mono ext)
    · obtain ⟨a, ds, post, rfl, h1, h2, h3, h4, h5, h6⟩ := i2 (by simpa [hs, wsat w hw, opat] using hm)
      refine ⟨s ++ (w ++ o.char :: a), ds, post, by simp, by simp [hs, wsat w hw, opat, h1], h2, h3,
        by simp [Ex.pars, h4], h5, fun ext k hk hp => ?_⟩
      simpa using Mix.mul ho (hx.mono ext) hw (h6 ext k hk hp)
  | @add o x y s w t ho hx hw hy i1 i2 =>
    intro hm
    by_cases hs : '@' ∈ s
    · obtain ⟨a, ds, post, rfl, h1, h2, h3, h4, h5, h6⟩ := i1 hs
      refine ⟨a, ds, post ++ (w ++ o.char :: t), by simp, h1, h2, h3, by simp [Ex.pars, h4],
        noDig_append h5 (wsnd w t _ hw (isOp_dig (opChar_sep o)).1), fun ext k hk hp => ?_⟩
      simpa using Mix.add ho (h6 ext k hk hp) hw (hy.mono ext)
    · obtain ⟨a, ds, post, rfl, h1, h2, h3, h4, h5, h6⟩ := i2 (by simpa [hs, wsat w hw, opat] using hm)
      refine ⟨s ++ (w ++ o.char :: a), ds, post, by simp, by simp [hs, wsat w hw, opat, h1], h2, h3,
        by simp [Ex.pars, h4], h5, fun ext k hk hp => ?_⟩
      simpa using Mix.add ho (hx.mono ext) hw (h6 ext k hk hp)

theorem Mix.used_mem {l e s} (h : Mix pst used l e s) : '@' ∉ s → ∀ n ∈ e.pars, ∃ i ∈ used, pst.parfind n = some i := by
  induction h with
  | num hl h => intro _ n hn; simp [Ex.pars] at hn
  | par => intro hm; simp at hm
  | @ref n k hk h =>
    intro _ n' hn
    simp only [Ex.pars, List.mem_singleton] at hn
    subst hn
    exact ⟨_, List.getElem_mem hk, h⟩
  | paren _ hw ih => intro hm; exact ih (by simp at hm; tauto)
  | fn hne hn _ hw ih => intro hm; exact ih (by simp at hm; tauto)
  | neg _ ih => intro hm; exact ih (by simpa using hm)
  | pos _ ih => intro hm; exact ih (by simpa using hm)
  | sp hc _ ih => intro hm; exact ih (by simp at hm; tauto)
  | term _ ih => exact ih
  | expr _ ih => exact ih
  | mul ho _ hw _ i1 i2 =>
    intro hm n hn
    simp only [Ex.pars, List.mem_append] at hn
    simp at hm
    rcases hn with hn | hn
    · exact i1 hm.1 n hn
    · exact i2 hm.2.2.2 n hn
  | add ho _ hw _ i1 i2 =>
    intro hm n hn
    simp only [Ex.pars, List.mem_append] at hn
    simp at hm
    rcases hn with hn | hn
    · exact i1 hm.1 n hn
    · exact i2 hm.2.2.2 n hn

theorem splitAt (a b : List Char) (h : '@' ∉ a) :
    (a ++ '@' :: b).takeWhile (· ≠ '@') = a ∧ (a ++ '@' :: b).dropWhile (· ≠ '@') = '@' :: b := by
  induction a with
  | nil => simp
  | cons x xs ih =>
    simp only [List.mem_cons, not_or] at h
    have hx : x ≠ '@' := fun e => h.1 e.symm
    obtain ⟨i1, i2⟩ := ih h.2
    constructor
    · rw [List.cons_append, List.takeWhile_cons_of_pos (by simpa using hx), i1]
    · rw [List.cons_append, List.dropWhile_cons_of_pos (by simpa using hx), i2]

theorem dropWhile_at_nil {s : List Char} (h : '@' ∉ s) : s.dropWhile (· ≠ '@') = [] := by
  induction s with
  | nil => rfl
  | cons x xs ih =>
    simp only [List.mem_cons, not_or] at h
    have hx : x ≠ '@' := fun e => h.1 e.symm
    rw [List.dropWhile_cons_of_pos (by simpa using hx), ih h.2]

theorem toUnsigned_nat {n : Nat} (h : n ≤ 2147483647) : toUnsigned (n : Int) = n := by
  unfold toUnsigned
  omega

theorem readInt_digits {ds : List (Fin 10)} {r : List Char} (hne : ds ≠ []) (hr : NoDig r) :
    readInt (ds.map digitChar ++ r) = some ((digitsVal ds : Int), r) := by
  have hne' : ds.map digitChar ≠ [] := by simpa using hne
  have hskip : skipWs (ds.map digitChar ++ r) = ds.map digitChar ++ r := by
    obtain ⟨c, t, rfl⟩ := List.exists_cons_of_ne_nil hne
    simp [skipWs, (dig_not (isDig_digitChar c)).1]
  rw [readInt, hskip, readSigned_dig hne' (fun c => mem_digits) hr, natOf_digits]

/-- The loop of `substitute_pars` on a formula. -/
theorem Mix.subst (hw : ∀ n i, pst.parfind n = some i → i < pst.p.length) (fuel : Nat) :
    ∀ (used : List Nat) (e : Ex) (s w : List Char), Mix pst used .expr e s → (∀ c ∈ w, isWs c = true) →
    (∀ n ∈ e.pars, ∃ i, pst.parfind n = some i) → used.Nodup → (s ++ w).count '@' < fuel →
    (∀ i ∈ used, ∃ n ∈ e.pars, pst.parfind n = some i) →
    ∃ used' s', substLoop pst fuel used (s ++ w) = some (.ok (used', s' ++ w)) ∧ Mix pst used' .expr e s' ∧
      '@' ∉ s' ∧ used'.Nodup ∧ ∀ i ∈ used', ∃ n ∈ e.pars, pst.parfind n = some i := by
  induction fuel with
  | zero => intro used e s w _ _ _ _ h _; omega
  | succ fuel ih =>
    intro used e s w h hws hp hnd hlt hu
    have hwat : '@' ∉ w := fun hm => (ws_not (hws _ hm)).2.2.2 rfl
    rw [substLoop]
    by_cases hs : '@' ∈ s
    · obtain ⟨a, ds, post, rfl, h1, h2, h3, h4, h5, h6⟩ := h.first hs
      have e1 : a ++ '@' :: (ds.map digitChar ++ post) ++ w = a ++ '@' :: (ds.map digitChar ++ (post ++ w)) := by simp
      obtain ⟨g1, g2⟩ := splitAt a (ds.map digitChar ++ (post ++ w)) h1
      have hwd : NoDig w := fun c t e => (sep_not (Or.inl (hws c (by rw [e]; simp)))).1
      obtain ⟨i, hi⟩ := hp _ h4
      rw [e1, g1, g2]
      simp only [readInt_digits h2 (noDig_append h5 hwd)]
      rw [if_neg (by omega)]
      simp only [toUnsigned_nat h3, hi]
      rw [if_pos (hw _ _ hi)]
      have hmem : i ∈ (if i ∈ used then used else used ++ [i]) := by split <;> simp_all
      obtain ⟨ext, hext⟩ : ∃ ext, (if i ∈ used then used else used ++ [i]) = used ++ ext := by
        split
        · exact ⟨[], by simp⟩
        · exact ⟨[i], rfl⟩
      have hnd' : (if i ∈ used then used else used ++ [i]).Nodup := by
        split
        · exact hnd
        · rename_i hni
          rw [List.nodup_append]
          refine ⟨hnd, by simp, ?_⟩
          intro x hx y hy
          simp only [List.mem_singleton] at hy
          subst hy
          rintro rfl
          exact hni hx
      have hu' : ∀ j ∈ (if i ∈ used then used else used ++ [i]), ∃ n ∈ e.pars, pst.parfind n = some j := by
        intro j hj
        split at hj
        · exact hu j hj
        · rcases List.mem_append.1 hj with hj | hj
          · exact hu j hj
          · simp only [List.mem_singleton] at hj
            subst hj
            exact ⟨_, h4, hi⟩
      rw [hext] at hmem hnd' hu' ⊢
      have hk := List.idxOf_lt_length_of_mem hmem
      have hget : (used ++ ext)[(used ++ ext).idxOf i] = i := List.getElem_idxOf hk
      have hm := h6 ext _ hk (by rw [hget]; exact hi)
      have hcnt : (a ++ stackvar ((used ++ ext).idxOf i) ++ post ++ w).count '@' < fuel := by
        rw [e1] at hlt
        simp only [List.count_append, List.count_cons_self] at hlt ⊢
        rw [count_at_stackvar]
        omega
      obtain ⟨used', s', r1, r2⟩ := ih _ e _ w hm hws hp hnd' hcnt hu'
      exact ⟨used', s', by rw [← r1]; simp, r2⟩
    · have hd : (s ++ w).dropWhile (· ≠ '@') = [] := dropWhile_at_nil (by simp [hs, hwat])
      rw [hd]
      exact ⟨used, s, rfl, h, hs, hnd, hu⟩

end

section
variable {K : Type} [Field K]

/-- Value and derivatives of a formula. -/
def dual (E : Env K) (lk : Nat → Num K) : Ex → Num K
  | .num l => (l.val, [])
  | .par n => lk n
  | .neg e => numNeg (dual E lk e)
  | .bin o a b => apply E o.char (dual E lk a) (dual E lk b)
  | .fn name e =>
    match E.tab name with
    | some (f, df) => numFn E f df (dual E lk e)
    | none => (0, [])

/-- Value and derivatives of a parameter. -/
def lookup (pst : ParStore K) (used : List Nat) (n : Nat) : Num K :=
  match pst.parfind n with
  | none => (0, [])
  | some i => (pst.p.getD i 0,
      if (used.any fun j => pst.ip.getD j false) && pst.ip.getD i false then unitVec used.length (used.idxOf i) else [])

theorem dleaf_stack {E : Env K} {st : List (Num K)} {k : Nat} (hk : k < st.length) (hv : OKv E st[k]) :
    DLeaf E st st[k] (stackvar k) := by
  refine ⟨hv, (stackvar_noParen _).1, (stackvar_noParen _).2, fun ext r hr => ?_⟩
  have hk' : k < (st ++ ext).length := by rw [List.length_append]; omega
  rw [getnum_ref hk' hr.noDig]
  have e : (st ++ ext)[k] = st[k] := List.getElem_append_left hk
  rw [e]
  rcases hv with h | ⟨h, -⟩
  · have : st[k] = (st[k].1, []) := by rw [← h]
    rw [this]; simp
  · simp [h]

theorem initStack_get (pst : ParStore K) {used : List Nat} (hnd : used.Nodup) {n k : Nat} (hk : k < used.length)
    (h : pst.parfind n = some used[k]) :
    (initStack pst used)[k]'(by rw [initStack_length]; exact hk) = lookup pst used n := by
  unfold initStack lookup
  rw [h]
  have : used.idxOf used[k] = k := List.Nodup.idxOf_getElem hnd k hk
  simp [this]

theorem lookup_ok (tab : BTab K) (pst : ParStore K) (used : List Nat) (n : Nat) :
    OKv (envOf tab pst used) (lookup pst used n) := by
  unfold lookup
  split
  · exact Or.inl rfl
  · unfold OKv
    dsimp only
    split
    · rename_i h
      simp only [Bool.and_eq_true] at h
      exact Or.inr ⟨h.1, by simp [unitVec, envOf]⟩
    · exact Or.inl rfl

theorem Mix.den [CharZero K] {tab : BTab K} {pst : ParStore K} {used : List Nat} (hnd : used.Nodup) {l e s}
    (h : Mix pst used l e s) : '@' ∉ s → (∀ nm ∈ e.names, ∃ f, tab nm = some f) →
    Den (envOf tab pst used) (initStack pst used) l (dual (envOf tab pst used) (lookup pst used) e) s := by
  induction h with
  | num hl h =>
    intro _ _
    obtain ⟨-, -, h1, h2⟩ := lit_no h
    exact .leaf ⟨Or.inl rfl, h1, h2, fun ext r hr => getnum_lit hl h hr⟩
  | par => intro hm; simp at hm
  | @ref n k hk h =>
    intro _ _
    have hk' : k < (initStack pst used).length := by rw [initStack_length]; exact hk
    have e := initStack_get pst hnd hk h
    have := dleaf_stack (E := envOf tab pst used) hk' (by rw [e]; exact lookup_ok tab pst used n)
    rw [e] at this
    exact .leaf this
  | paren _ hw ih => intro hm hn; exact .paren (ih (by simp at hm; tauto) hn) hw
  | @fn name e s w hne hlow _ hw ih =>
    intro hm hn
    obtain ⟨⟨f, df⟩, hf⟩ := hn name (by simp [Ex.names])
    have := Den.fn hne hlow (E := envOf tab pst used) hf
      (ih (by simp at hm; tauto) (fun nm h => hn nm (by simp [Ex.names, h]))) hw
    have e1 : dual (envOf tab pst used) (lookup pst used) (.fn name e) =
        numFn (envOf tab pst used) f df (dual (envOf tab pst used) (lookup pst used) e) := by
      have hf' : (envOf tab pst used).tab name = some (f, df) := hf
      simp only [dual, hf']
    rw [e1]
    exact this
  | neg _ ih => intro hm hn; exact .neg (ih (by simpa using hm) hn)
  | pos _ ih => intro hm hn; exact .pos (ih (by simpa using hm) hn)
  | sp hc _ ih => intro hm hn; exact .sp hc (ih (by simp at hm; tauto) hn)
  | term _ ih => intro hm hn; exact .term (ih hm hn)
  | expr _ ih => intro hm hn; exact .expr (ih hm hn)
  | @mul o a b s w t ho _ hw _ i1 i2 =>
    intro hm hn
    simp at hm
    refine .mul ?_ (i1 hm.1 fun nm h => hn nm (by simp [Ex.names, h])) hw
      (i2 hm.2.2.2 fun nm h => hn nm (by simp [Ex.names, h]))
    rcases ho with rfl | rfl <;> decide
  | @add o a b s w t ho _ hw _ i1 i2 =>
    intro hm hn
    simp at hm
    refine .add ?_ (i1 hm.1 fun nm h => hn nm (by simp [Ex.names, h])) hw
      (i2 hm.2.2.2 fun nm h => hn nm (by simp [Ex.names, h]))
    rcases ho with rfl | rfl <;> decide

/-- The result of `parse` on a formula. -/
theorem parse_formula [CharZero K] (tab : BTab K) (pst : ParStore K)
    (hw : ∀ n i, pst.parfind n = some i → i < pst.p.length) (e : Ex) (line : List Char) (h : IsFormula e line)
    (hp : ∀ n ∈ e.pars, ∃ i, pst.parfind n = some i) (hn : ∀ nm ∈ e.names, ∃ f, tab nm = some f) :
    ∃ used, parse tab pst line = some (.ok (dual (envOf tab pst used) (lookup pst used) e, used)) ∧
      used.Nodup ∧ ∀ i, i ∈ used ↔ ∃ n ∈ e.pars, pst.parfind n = some i := by
  obtain ⟨s, w, rfl, ht, hwb⟩ := h
  have hws := ws_of_blank hwb
  have hhash : '#' ∉ s ++ w := by
    rw [List.mem_append, not_or]
    exact ⟨Txt.no_hash ht, fun hm => (ws_not (hws _ hm)).2.2.1 rfl⟩
  obtain ⟨used, s', h1, h2, h3, h4, h5⟩ := Mix.subst hw ((s ++ w).count '@' + 1) [] e s w (Mix.ofTxt pst [] ht) hws hp
    (by simp) (Nat.lt_succ_self _) (by simp)
  have hden := (h2.den (tab := tab) h4 h3 hn).brackets hws
  refine ⟨used, ?_, h4, fun i => ⟨h5 i, ?_⟩⟩
  · unfold parse
    rw [if_neg hhash, h1]
    dsimp only
    rw [hden]
  · rintro ⟨n, hn, hi⟩
    obtain ⟨j, hj, hj'⟩ := h2.used_mem h3 n hn
    rw [hi] at hj'
    cases hj'
    exact hj

end
end Pdffit.Parser
