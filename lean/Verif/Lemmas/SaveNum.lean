import Verif.Model.SaveNum
import Verif.Lemmas.ReportText
import Verif.Props.C52

/-! # Lemmas about the numbers in a saved curve -/

namespace Pdffit.SaveNum
open DataRead (isSpace)
open Stru RText

theorem near_near {q : ℝ} (h : 0 ≤ q) : |(near q : ℝ) - q| ≤ 1 / 2 := by
  have h0 : 0 ≤ ⌊q⌋ := Int.floor_nonneg.2 h
  have e : ((⌊q⌋.toNat : ℕ) : ℝ) = (⌊q⌋ : ℝ) := by
    rw [← Int.cast_natCast, Int.toNat_of_nonneg h0]
  have h1 := Int.floor_le q
  have h2 := Int.lt_floor_add_one q
  unfold near
  split_ifs with a b c
  · rw [e, abs_le]; constructor <;> linarith
  · push_cast; rw [e, abs_le]; constructor <;> linarith
  · rw [e, abs_le]; constructor <;> linarith
  · push_cast; rw [e, abs_le]; constructor <;> linarith

/-- The number denoted by the digits. -/
noncomputable def magVal (q : ℝ) : ℝ := (dig q).1 * 10 ^ ((dig q).2 - 5)

theorem magVal_pos_eq {q : ℝ} (hq : 0 < q) : magVal q = near (q * 10 ^ (5 - Int.log 10 q)) * 10 ^ (Int.log 10 q - 5) := by
  unfold magVal dig
  rw [if_neg hq.ne']
  dsimp only
  split_ifs with h
  · rw [h]
    push_cast
    rw [show Int.log 10 q + 1 - 5 = 1 + (Int.log 10 q - 5) by ring, zpow_add₀ (by norm_num), zpow_one]
    ring
  · rfl

theorem magVal_near {q : ℝ} (hq : 0 < q) : |magVal q - q| ≤ 10 ^ (Int.log 10 q - 5) / 2 := by
  have pos : (0 : ℝ) < 10 ^ (5 - Int.log 10 q) := zpow_pos (by norm_num) _
  have h1 := near_near (mul_pos hq pos).le
  have e2 : q = q * 10 ^ (5 - Int.log 10 q) * 10 ^ (Int.log 10 q - 5) := by
    rw [mul_assoc, ← zpow_add₀ (by norm_num), show 5 - Int.log 10 q + (Int.log 10 q - 5) = 0 by ring, zpow_zero, mul_one]
  have e3 : magVal q - q = (near (q * 10 ^ (5 - Int.log 10 q)) - q * 10 ^ (5 - Int.log 10 q)) * 10 ^ (Int.log 10 q - 5) := by
    rw [sub_mul, ← magVal_pos_eq hq, ← e2]
  have p2 : (0 : ℝ) < 10 ^ (Int.log 10 q - 5) := zpow_pos (by norm_num) _
  rw [e3, abs_mul, abs_of_pos p2]
  have := mul_le_mul_of_nonneg_right h1 p2.le
  linarith

theorem rnd_eq (x : ℝ) : rnd x = (if x < 0 then -1 else 1) * magVal |x| := rfl

theorem rnd_sub (x : ℝ) : |rnd x - x| = |magVal |x| - (|x|)| := by
  rw [rnd_eq]
  split_ifs with h
  · rw [show -1 * magVal |x| - x = -(magVal |x| - |x|) by rw [abs_of_neg h]; ring, abs_neg]
  · rw [abs_of_nonneg (not_lt.1 h), one_mul]

theorem magVal_zero : magVal 0 = 0 := by simp [magVal, dig]

theorem rnd_zero : rnd 0 = 0 := by rw [rnd_eq, abs_zero, magVal_zero, mul_zero]

/-- The error is at most half a unit of the sixth digit of the bound. -/
theorem rnd_near {x : ℝ} {k : ℕ} (hx : |x| < 10 ^ k) : |rnd x - x| ≤ 10 ^ ((k : ℤ) - 6) / 2 := by
  by_cases h0 : x = 0
  · subst h0
    rw [rnd_zero, sub_zero, abs_zero]
    positivity
  have hp := abs_pos.2 h0
  rw [rnd_sub]
  refine (magVal_near hp).trans ?_
  have l1 : (10 : ℝ) ^ Int.log 10 |x| ≤ |x| := by simpa using Int.zpow_log_le_self (b := 10) (by norm_num) hp
  have l2 : Int.log 10 |x| < k := by
    have := l1.trans_lt hx
    rw [← zpow_natCast] at this
    exact (zpow_lt_zpow_iff_right₀ (by norm_num)).1 this
  have : (10 : ℝ) ^ (Int.log 10 |x| - 5) ≤ 10 ^ ((k : ℤ) - 6) := zpow_le_zpow_right₀ (by norm_num) (by omega)
  linarith

/-- Relative error. -/
theorem rnd_rel (x : ℝ) : |rnd x - x| ≤ |x| / 200000 := by
  by_cases h0 : x = 0
  · subst h0; simp [rnd_zero]
  have hp := abs_pos.2 h0
  rw [rnd_sub]
  refine (magVal_near hp).trans ?_
  have l1 : (10 : ℝ) ^ Int.log 10 |x| ≤ |x| := by simpa using Int.zpow_log_le_self (b := 10) (by norm_num) hp
  rw [zpow_sub₀ (by norm_num)]
  norm_num
  linarith

theorem log_of {x : ℝ} {e : ℤ} (h1 : 10 ^ e ≤ x) (h2 : x < 10 ^ (e + 1)) : 0 < x ∧ Int.log 10 x = e := by
  have hx : 0 < x := lt_of_lt_of_le (zpow_pos (by norm_num) _) h1
  refine ⟨hx, le_antisymm ?_ ?_⟩
  · have l1 : (10 : ℝ) ^ Int.log 10 x ≤ x := by simpa using Int.zpow_log_le_self (b := 10) (by norm_num) hx
    have := (zpow_lt_zpow_iff_right₀ (by norm_num)).1 (l1.trans_lt h2)
    omega
  · have l2 : x < (10 : ℝ) ^ (Int.log 10 x + 1) := by simpa using Int.lt_zpow_succ_log_self (b := 10) (by norm_num) x
    have := (zpow_lt_zpow_iff_right₀ (by norm_num)).1 (h1.trans_lt l2)
    omega

/-- The digits of a positive number. -/
theorem dig_of {x : ℝ} {e : ℤ} {n : ℕ} (h1 : 10 ^ e ≤ x) (h2 : x < 10 ^ (e + 1)) (hn : near (x * 10 ^ (5 - e)) = n) (h : n ≠ 10 ^ 6) :
    dig x = (n, e) := by
  obtain ⟨hx, hl⟩ := log_of h1 h2
  unfold dig
  rw [if_neg hx.ne', hl, hn]
  exact if_neg h

/-- The printed value of a positive number. -/
theorem rnd_of {x : ℝ} {e : ℤ} {n : ℕ} (h1 : 10 ^ e ≤ x) (h2 : x < 10 ^ (e + 1)) (hn : near (x * 10 ^ (5 - e)) = n) :
    rnd x = n * 10 ^ (e - 5) := by
  obtain ⟨hx, hl⟩ := log_of h1 h2
  rw [rnd_eq, if_neg (not_lt.2 hx.le), abs_of_pos hx, magVal_pos_eq hx, hl, hn, one_mul]

/-! ## Reading -/

theorem scanNum_pt (b : Bool) (a d r : ℕ) (hr : r < 10 ^ d) (w t : List Char) (hw : ∀ c ∈ w, isSpace c = true)
    (ht : ∀ c, t.head? = some c → isDig c = false) :
    scanNum (w ++ (sign b ++ natStr a ++ ('.' :: (fracStr d r ++ t)))) = some (⟨b, ((a * 10 ^ d + r : ℕ) : ℚ) / 10 ^ d⟩, t) := by
  have hv := val_frac d (natStr a) r hr
  rw [val_natStr] at hv
  obtain ⟨h1, h2⟩ := drop_spaces w hw b a ('.' :: (fracStr d r ++ t))
  obtain ⟨h3, h4⟩ := span_dig (natStr a) ('.' :: (fracStr d r ++ t)) (natStr_dig _) (by intro c hc; simp at hc; rw [← hc]; decide)
  obtain ⟨h5, h6⟩ := span_dig (fracStr d r) t (fracStr_dig d r) ht
  have h7 : getFrac ('.' :: (fracStr d r ++ t)) = (fracStr d r, t) := by simp only [getFrac, if_true, h5, h6]
  unfold scanNum
  simp only [h1, h2, h3, h4, h7]
  rw [if_neg (by simp [natStr_ne]), hv, fracStr_length]

theorem scanG_pt (b : Bool) (x : ℕ × ℤ) (w t : List Char) (hw : ∀ c ∈ w, isSpace c = true) (ht : RText.Stop t) :
    scanG (w ++ (sign b ++ ptText x ++ t)) = some (⟨b, x.1 * 10 ^ (x.2 - 5)⟩, t) := by
  obtain ⟨n, e⟩ := x
  unfold ptText
  dsimp only
  split_ifs with h1
  · set d := (5 - e).toNat with hd
    have h2 := scanNum_pt b (n / 10 ^ d) d (n % 10 ^ d) (Nat.mod_lt _ (by positivity)) w t hw fun c hc => (ht c hc).1
    rw [Nat.div_add_mod'] at h2
    unfold scanG
    rw [show sign b ++ (natStr (n / 10 ^ d) ++ '.' :: fracStr d (n % 10 ^ d)) ++ t =
      sign b ++ natStr (n / 10 ^ d) ++ ('.' :: (fracStr d (n % 10 ^ d) ++ t)) by simp [List.append_assoc], h2]
    simp only [Option.bind_eq_bind, Option.bind_some, scanExp_none ht]
    simp only [zpow_zero, mul_one]
    congr 3
    rw [show e - 5 = -(d : ℤ) by omega, zpow_neg, zpow_natCast, div_eq_mul_inv]
  · have h2 := scanNum_pt b (n / 10 ^ 5) 5 (n % 10 ^ 5) (Nat.mod_lt _ (by positivity)) w (expText e ++ t) hw
      (by intro c hc; simp [expText] at hc; rw [← hc]; decide)
    rw [Nat.div_add_mod'] at h2
    unfold scanG
    rw [show sign b ++ (natStr (n / 10 ^ 5) ++ '.' :: fracStr 5 (n % 10 ^ 5) ++ expText e) ++ t =
      sign b ++ natStr (n / 10 ^ 5) ++ ('.' :: (fracStr 5 (n % 10 ^ 5) ++ (expText e ++ t))) by simp [List.append_assoc], h2]
    simp only [Option.bind_eq_bind, Option.bind_some, scanExp_text e t ht]
    congr 3
    rw [zpow_sub₀ (by norm_num), div_mul_eq_mul_div, mul_div_assoc]
    norm_cast

theorem dig_char {l : List Char} (h : ∀ c ∈ l, ∃ k < 10, c = digit k) : ∀ c ∈ l, c ∈ "0123456789+-.einfa".toList := by
  intro c hc
  obtain ⟨k, hk, rfl⟩ := h c hc
  have : ∀ k < 10, digit k ∈ "0123456789+-.einfa".toList := by decide
  exact this k hk

theorem ptText_chars (x : ℕ × ℤ) : ∀ c ∈ ptText x, c ∈ "0123456789+-.einfa".toList := by
  have hn : ∀ n, ∀ c ∈ natStr n, c ∈ "0123456789+-.einfa".toList := fun n => dig_char (natStr_dig n)
  have hf : ∀ d n, ∀ c ∈ '.' :: fracStr d n, c ∈ "0123456789+-.einfa".toList := by
    intro d n c hc
    rcases List.mem_cons.1 hc with rfl | hc
    · decide
    · exact dig_char (fracStr_dig d n) c hc
  have he : ∀ c ∈ expText x.2, c ∈ "0123456789+-.einfa".toList := by
    intro c hc
    unfold expText at hc
    rcases List.mem_cons.1 hc with rfl | hc
    · decide
    rcases List.mem_cons.1 hc with rfl | hc
    · split_ifs <;> decide
    split_ifs at hc
    · rcases List.mem_cons.1 hc with rfl | hc
      · decide
      · exact hn _ c hc
    · exact hn _ c hc
  intro c hc
  unfold ptText at hc
  dsimp only at hc
  split_ifs at hc
  · rcases List.mem_append.1 hc with hc | hc
    · exact hn _ c hc
    · exact hf _ _ c hc
  · rcases List.mem_append.1 hc with hc | hc
    · rcases List.mem_append.1 hc with hc | hc
      · exact hn _ c hc
      · exact hf _ _ c hc
    · exact he c hc

theorem ptText_ne (x : ℕ × ℤ) : ptText x ≠ [] := by
  unfold ptText
  dsimp only
  split_ifs <;> simp

theorem brk_stop {t : List Char} (h : DataRead.Brk t) : RText.Stop t := by
  have h1 : ∀ c : Char, isSpace c = true → isDig c = false ∧ c ≠ '.' ∧ c ≠ 'e' := by
    intro c hc
    simp only [isSpace, Bool.or_eq_true, decide_eq_true_eq] at hc
    rcases hc with ((((rfl | rfl) | rfl) | rfl) | rfl) | rfl <;> decide
  intro c hc
  rcases h with rfl | ⟨c', u, rfl, hs⟩
  · simp at hc
  · simp at hc; subst hc; exact h1 _ hs

/-- The printed numbers are read back. -/
theorem printer : C52.Printer scan prt rnd where
  ne x := by
    cases x with
    | none => decide
    | some x => simp [prt, ptText_ne]
  chars x c hc := by
    cases x with
    | none => revert c; decide
    | some x =>
      rcases List.mem_append.1 hc with hc | hc
      · unfold sign at hc
        split_ifs at hc
        · rw [List.mem_singleton.1 hc]; decide
        · simp at hc
      · exact ptText_chars _ c hc
  scan b t x hb ht := by
    have hw : ∀ c ∈ b, isSpace c = true := fun c hc => by rw [hb c hc]; decide
    show Option.map _ (scanG (b ++ (sign _ ++ ptText (dig |x|) ++ t))) = _
    rw [scanG_pt _ _ b t hw (brk_stop ht)]
    simp only [Option.map_some, Option.some.injEq, Prod.mk.injEq, and_true]
    unfold rnd
    by_cases h : x < 0
    · simp [h]
    · simp [h]

end Pdffit.SaveNum
