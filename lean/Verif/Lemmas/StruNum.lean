import Verif.Lemmas.StruSave
import Verif.Model.StruNum
import Verif.Props.C38
import Mathlib.Tactic.Ring
import Mathlib.Tactic.FieldSimp
import Mathlib.Tactic.NormNum

/-! # Lemmas: decimal printing and extraction fit together -/

namespace Pdffit.Stru
open DataRead

theorem digit_ok : ∀ n < 10, isDig (digit n) = true ∧ (digit n).toNat - 48 = n ∧ isSpace (digit n) = false ∧ digit n ≠ ',' := by
  decide

theorem natStr_dig (n : ℕ) : ∀ c ∈ natStr n, ∃ k < 10, c = digit k := by
  fun_induction natStr n with
  | case1 n h => intro c hc; exact ⟨n, h, by simpa using hc⟩
  | case2 n h ih =>
    intro c hc
    rcases List.mem_append.1 hc with hc | hc
    · exact ih c hc
    · exact ⟨n % 10, Nat.mod_lt _ (by decide), by simpa using hc⟩

theorem fracStr_dig (d : ℕ) : ∀ n, ∀ c ∈ fracStr d n, ∃ k < 10, c = digit k := by
  induction d with
  | zero => intro n c hc; simp [fracStr] at hc
  | succ d ih =>
    intro n c hc
    rcases List.mem_append.1 hc with hc | hc
    · exact ih _ c hc
    · exact ⟨n % 10, Nat.mod_lt _ (by decide), by simpa using hc⟩

theorem val_append (a : List Char) (c : Char) : val (a ++ [c]) = 10 * val a + (c.toNat - 48) := by
  simp [val, List.foldl_append]

theorem val_natStr (n : ℕ) : val (natStr n) = n := by
  fun_induction natStr n with
  | case1 n h => simpa [val] using (digit_ok n h).2.1
  | case2 n h ih =>
    rw [val_append, ih, (digit_ok _ (Nat.mod_lt _ (by decide))).2.1]
    omega

theorem natStr_ne (n : ℕ) : natStr n ≠ [] := by
  rw [natStr]
  split_ifs <;> simp

theorem fracStr_length (d : ℕ) : ∀ n, (fracStr d n).length = d := by
  induction d with
  | zero => intro n; rfl
  | succ d ih => intro n; simp [fracStr, ih]

theorem val_frac (d : ℕ) : ∀ (a : List Char) (n : ℕ), n < 10 ^ d → val (a ++ fracStr d n) = val a * 10 ^ d + n := by
  induction d with
  | zero => intro a n h; simp at h; simp [fracStr, h]
  | succ d ih =>
    intro a n h
    have h' : n / 10 < 10 ^ d := by rw [Nat.div_lt_iff_lt_mul (by decide)]; rw [pow_succ] at h; omega
    rw [fracStr, ← List.append_assoc, val_append, ih a _ h', (digit_ok _ (Nat.mod_lt _ (by decide))).2.1, pow_succ]
    have := Nat.div_add_mod n 10
    ring_nf
    omega

theorem span_dig (a t : List Char) (ha : ∀ c ∈ a, ∃ k < 10, c = digit k) (ht : ∀ c, t.head? = some c → isDig c = false) :
    (a ++ t).takeWhile isDig = a ∧ (a ++ t).dropWhile isDig = t := by
  have h1 : ∀ c ∈ a, isDig c = true := by
    intro c hc
    obtain ⟨k, hk, rfl⟩ := ha c hc
    exact (digit_ok k hk).1
  rw [List.takeWhile_append_of_pos h1, List.dropWhile_append_of_pos h1]
  cases t with
  | nil => simp
  | cons c t => simp [ht c rfl]

theorem ends_not_dig {t : List Char} (ht : Ends t) : ∀ c, t.head? = some c → isDig c = false ∧ c ≠ '.' := by
  have h1 : ∀ c : Char, isSpace c = true → isDig c = false ∧ c ≠ '.' := by
    intro c hc
    simp only [isSpace, Bool.or_eq_true, decide_eq_true_eq] at hc
    rcases hc with ((((rfl | rfl) | rfl) | rfl) | rfl) | rfl <;> decide
  intro c hc
  rcases ht c hc with h | h
  · exact h1 c h
  · rw [h]; decide

/-- The first character of a printed number is not a blank. -/
theorem drop_spaces (w : List Char) (hw : ∀ c ∈ w, isSpace c = true) (b : Bool) (n : ℕ) (t : List Char) :
    (w ++ (sign b ++ natStr n ++ t)).dropWhile isSpace = sign b ++ natStr n ++ t ∧
      getSign (sign b ++ natStr n ++ t) = (b, natStr n ++ t) := by
  obtain ⟨c, l, hl⟩ := List.exists_cons_of_ne_nil (natStr_ne n)
  obtain ⟨k, hk, rfl⟩ := natStr_dig n c (by rw [hl]; simp)
  have h0 : ∀ k < 10, digit k ≠ '-' ∧ digit k ≠ '+' := by decide
  have hm : isSpace '-' = false := by decide
  rw [List.dropWhile_append_of_pos hw, hl]
  cases b with
  | false => simp [sign, getSign, (digit_ok k hk).2.2.1, (h0 k hk).1, (h0 k hk).2]
  | true => simp [sign, getSign, hm]

theorem scanNum_fix (d : ℕ) (x : Num) (w t : List Char) (hw : ∀ c ∈ w, isSpace c = true) (ht : Ends t) :
    scanNum (w ++ (fixNum d x ++ t)) = some (rndNum d x, t) := by
  set m := rhe (x.mag * 10 ^ d) with hm
  have hp : (0 : ℕ) < 10 ^ d := Nat.pos_of_ne_zero (by positivity)
  have htext : fixNum d x ++ t = sign x.neg ++ natStr (m / 10 ^ d) ++ ('.' :: (fracStr d (m % 10 ^ d) ++ t)) := by
    simp [fixNum, ← hm]
  obtain ⟨h1, h2⟩ := drop_spaces w hw x.neg (m / 10 ^ d) ('.' :: (fracStr d (m % 10 ^ d) ++ t))
  obtain ⟨h3, h4⟩ := span_dig (natStr (m / 10 ^ d)) ('.' :: (fracStr d (m % 10 ^ d) ++ t)) (natStr_dig _)
    (by intro c hc; simp at hc; rw [← hc]; decide)
  obtain ⟨h5, h6⟩ := span_dig (fracStr d (m % 10 ^ d)) t (fracStr_dig d _) fun c hc => (ends_not_dig ht c hc).1
  have h7 : getFrac ('.' :: (fracStr d (m % 10 ^ d) ++ t)) = (fracStr d (m % 10 ^ d), t) := by
    simp only [getFrac, if_true, h5, h6]
  rw [htext]
  unfold scanNum
  simp only [h1, h2, h3, h4, h7]
  rw [if_neg (by simp [natStr_ne]), val_frac d _ _ (Nat.mod_lt _ hp), val_natStr, fracStr_length, Nat.div_add_mod']
  rfl

theorem rhe_nat (n : ℕ) : rhe (n : ℚ) = n := by
  unfold rhe
  simp

theorem rnd_again (d : ℕ) (x : Num) : fixNum d (rndNum d x) = fixNum d x := by
  unfold fixNum rndNum
  have : ((rhe (x.mag * 10 ^ d) : ℚ) / 10 ^ d) * 10 ^ d = (rhe (x.mag * 10 ^ d) : ℚ) := by
    field_simp
  simp only [this, rhe_nat]

theorem sign_chars (b : Bool) : ∀ c ∈ sign b, isSpace c = false ∧ c ≠ ',' := by
  cases b <;> decide

theorem dig_chars {l : List Char} (h : ∀ c ∈ l, ∃ k < 10, c = digit k) : ∀ c ∈ l, isSpace c = false ∧ c ≠ ',' := by
  intro c hc
  obtain ⟨k, hk, rfl⟩ := h c hc
  exact (digit_ok k hk).2.2

theorem fixNum_chars (d : ℕ) (x : Num) : ∀ c ∈ fixNum d x, isSpace c = false ∧ c ≠ ',' := by
  intro c hc
  unfold fixNum at hc
  rcases List.mem_append.1 hc with hc | hc
  · rcases List.mem_append.1 hc with hc | hc
    · exact sign_chars _ c hc
    · exact dig_chars (natStr_dig _) c hc
  · rcases List.mem_cons.1 hc with rfl | hc
    · decide
    · exact dig_chars (fracStr_dig _ _) c hc

theorem scanInt_str (z : ℤ) (w t : List Char) (hw : ∀ c ∈ w, isSpace c = true) (ht : Ends t) :
    scanInt (w ++ (intStr z ++ t)) = some (z, t) := by
  obtain ⟨h1, h2⟩ := drop_spaces w hw (z < 0) z.natAbs t
  obtain ⟨h3, h4⟩ := span_dig (natStr z.natAbs) t (natStr_dig _) fun c hc => (ends_not_dig ht c hc).1
  unfold scanInt intStr
  simp only [h1, h2, h3, h4, val_natStr]
  rw [if_neg (natStr_ne _)]
  congr 2
  by_cases hz : z < 0
  · simp only [hz, decide_true, if_true]; omega
  · simp only [hz, decide_false, Bool.false_eq_true, if_false]; omega

theorem intStr_chars (z : ℤ) : ∀ c ∈ intStr z, isSpace c = false ∧ c ≠ ',' := by
  intro c hc
  unfold intStr at hc
  rcases List.mem_append.1 hc with hc | hc
  · exact sign_chars _ c hc
  · exact dig_chars (natStr_dig _) c hc

/-! ### Labels -/

set_option maxRecDepth 100000 in
/-- The symbols of the table consist of printable ASCII characters, none of them a blank. -/
theorem symbols_ascii : ∀ s ∈ Scat.table.map Scat.AtomType.symbol, s ≠ [] ∧ ∀ c ∈ s, 33 ≤ c ∧ c < 127 := by decide +kernel

theorem ascii_char : ∀ c < 127, 33 ≤ c → (Char.ofNat c).toNat = c ∧ isSpace (Char.ofNat c) = false := by decide

theorem fmt_env {p : Scat.PT} (hp : Scat.PT.init Scat.table = .ok p) (eight : ℚ) : Fmt (env p eight) rndNum where
  num := fun d x w t _ hw ht => scanNum_fix d x w t hw ht
  again := fun d x _ => rnd_again d x
  chars := fixNum_chars
  int := scanInt_str
  ints := intStr_chars
  look := by
    rintro ⟨e, he⟩
    obtain ⟨_, h2⟩ := symbols_ascii _ (List.mem_map_of_mem he)
    have hs : (symbStr ⟨e, he⟩).map Char.toNat = e.symbol := by
      unfold symbStr
      rw [List.map_map]
      conv_rhs => rw [← List.map_id e.symbol]
      exact List.map_congr_left fun c hc => (ascii_char c (h2 c hc).2 (h2 c hc).1).1
    have hl : lookStr p (symbStr ⟨e, he⟩) = some e := by
      unfold lookStr
      rw [hs, C38.own_symbol hp he rfl]
    simp only [env, hl, Option.bind_some, dif_pos he]
  symb := by
    rintro ⟨e, he⟩
    obtain ⟨h1, h2⟩ := symbols_ascii _ (List.mem_map_of_mem he)
    refine ⟨fun h => h1 (List.map_eq_nil_iff.1 h), ?_⟩
    intro c hc
    obtain ⟨k, hk, rfl⟩ := List.mem_map.1 hc
    exact (ascii_char k (h2 k hk).2 (h2 k hk).1).2

end Pdffit.Stru
