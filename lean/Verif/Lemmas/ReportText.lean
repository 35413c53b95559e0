import Verif.Model.ReportText
import Verif.Lemmas.StruNum
import Mathlib.Tactic.Linarith
import Mathlib.Tactic.Positivity
import Mathlib.Tactic.FieldSimp
import Mathlib.Tactic.NormNum
import Mathlib.Tactic.Ring

/-! # Lemmas about printed numbers -/

namespace Pdffit.RText
open DataRead (isSpace)
open Stru

/-! ## Rounding -/

theorem rhe_near {q : ℚ} (h : 0 ≤ q) : |(rhe q : ℚ) - q| ≤ 1 / 2 := by
  have h0 : 0 ≤ ⌊q⌋ := Int.floor_nonneg.2 h
  have e : ((⌊q⌋.toNat : ℕ) : ℚ) = (⌊q⌋ : ℚ) := by
    rw [← Int.cast_natCast, Int.toNat_of_nonneg h0]
  have h1 := Int.floor_le q
  have h2 := Int.lt_floor_add_one q
  unfold rhe
  split_ifs with a b c
  · rw [e, abs_le]; constructor <;> linarith
  · push_cast; rw [e, abs_le]; constructor <;> linarith
  · rw [e, abs_le]; constructor <;> linarith
  · push_cast; rw [e, abs_le]; constructor <;> linarith

theorem le_rhe {q : ℚ} {n : ℕ} (h : (n : ℚ) ≤ q) : n ≤ rhe q := by
  have h1 := rhe_near ((Nat.cast_nonneg n).trans h)
  rw [abs_le] at h1
  by_contra hc
  have : (rhe q : ℚ) + 1 ≤ n := by exact_mod_cast (by omega : rhe q + 1 ≤ n)
  linarith

theorem rhe_le {q : ℚ} {n : ℕ} (h0 : 0 ≤ q) (h : q ≤ (n : ℚ)) : rhe q ≤ n := by
  have h1 := rhe_near h0
  rw [abs_le] at h1
  by_contra hc
  have : (n : ℚ) + 1 ≤ rhe q := by exact_mod_cast (by omega : n + 1 ≤ rhe q)
  linarith

/-- The number denoted by the digits. -/
def gVal (p : ℕ) (q : ℚ) : ℚ := if q = 0 then 0 else (gDig p q).1 * 10 ^ ((gDig p q).2 - p + 1)

/-- `p` digits, the first is not zero. -/
theorem gDig_range {p : ℕ} (hp : 0 < p) {q : ℚ} (hq : 0 < q) : 10 ^ (p - 1) ≤ (gDig p q).1 ∧ (gDig p q).1 < 10 ^ p := by
  have l1 : (10 : ℚ) ^ Int.log 10 q ≤ q := by simpa using Int.zpow_log_le_self (b := 10) (by norm_num) hq
  have l2 : q < (10 : ℚ) ^ (Int.log 10 q + 1) := by simpa using Int.lt_zpow_succ_log_self (b := 10) (by norm_num) q
  have pos : (0 : ℚ) < 10 ^ ((p : ℤ) - 1 - Int.log 10 q) := zpow_pos (by norm_num) _
  have m1 : ((10 ^ (p - 1) : ℕ) : ℚ) ≤ q * 10 ^ ((p : ℤ) - 1 - Int.log 10 q) := by
    have := mul_le_mul_of_nonneg_right l1 pos.le
    rw [← zpow_add₀ (by norm_num : (10 : ℚ) ≠ 0)] at this
    refine le_trans (le_of_eq ?_) this
    rw [show Int.log 10 q + ((p : ℤ) - 1 - Int.log 10 q) = ((p - 1 : ℕ) : ℤ) by omega, zpow_natCast]
    push_cast
    rfl
  have m2 : q * 10 ^ ((p : ℤ) - 1 - Int.log 10 q) ≤ ((10 ^ p : ℕ) : ℚ) := by
    have := mul_le_mul_of_nonneg_right l2.le pos.le
    rw [← zpow_add₀ (by norm_num : (10 : ℚ) ≠ 0)] at this
    refine le_trans this (le_of_eq ?_)
    rw [show Int.log 10 q + 1 + ((p : ℤ) - 1 - Int.log 10 q) = ((p : ℕ) : ℤ) by omega, zpow_natCast]
    push_cast
    rfl
  have n1 := le_rhe m1
  have n2 := rhe_le (mul_pos hq pos).le m2
  unfold gDig
  dsimp only
  split_ifs with h
  · exact ⟨le_rfl, Nat.pow_lt_pow_right (by norm_num) (by omega)⟩
  · exact ⟨n1, by omega⟩

/-- The error is at most half a unit of the last digit. -/
theorem gVal_near {p : ℕ} (hp : 0 < p) {q : ℚ} (hq : 0 < q) : |gVal p q - q| ≤ 10 ^ (Int.log 10 q - p + 1) / 2 := by
  have pos : (0 : ℚ) < 10 ^ ((p : ℤ) - 1 - Int.log 10 q) := zpow_pos (by norm_num) _
  have h1 := rhe_near (mul_pos hq pos).le
  have e : gVal p q = rhe (q * 10 ^ ((p : ℤ) - 1 - Int.log 10 q)) * 10 ^ (Int.log 10 q - p + 1) := by
    unfold gVal
    rw [if_neg hq.ne']
    unfold gDig
    dsimp only
    split_ifs with h
    · rw [h]
      push_cast
      rw [← zpow_natCast, ← zpow_natCast, ← zpow_add₀ (by norm_num), ← zpow_add₀ (by norm_num)]
      congr 1
      omega
    · rfl
  have e2 : q = q * 10 ^ ((p : ℤ) - 1 - Int.log 10 q) * 10 ^ (Int.log 10 q - p + 1) := by
    rw [mul_assoc, ← zpow_add₀ (by norm_num), show (p : ℤ) - 1 - Int.log 10 q + (Int.log 10 q - p + 1) = 0 by ring, zpow_zero, mul_one]
  have e3 : gVal p q - q = (rhe (q * 10 ^ ((p : ℤ) - 1 - Int.log 10 q)) - q * 10 ^ ((p : ℤ) - 1 - Int.log 10 q)) *
      10 ^ (Int.log 10 q - p + 1) := by rw [sub_mul, ← e, ← e2]
  rw [e3, abs_mul, abs_of_pos (zpow_pos (by norm_num) _ : (0 : ℚ) < 10 ^ (Int.log 10 q - p + 1))]
  have := mul_le_mul_of_nonneg_right h1 (zpow_pos (by norm_num) _ : (0 : ℚ) < 10 ^ (Int.log 10 q - p + 1)).le
  linarith

/-- Relative error of a printed number. -/
theorem gVal_rel {p : ℕ} (hp : 0 < p) {q : ℚ} (hq : 0 ≤ q) : |gVal p q - q| ≤ q * 10 ^ (1 - p : ℤ) / 2 := by
  rcases hq.eq_or_lt with rfl | hq
  · simp [gVal]
  · refine (gVal_near hp hq).trans ?_
    have l1 : (10 : ℚ) ^ Int.log 10 q ≤ q := by simpa using Int.zpow_log_le_self (b := 10) (by norm_num) hq
    have : (10 : ℚ) ^ (Int.log 10 q - p + 1) = 10 ^ Int.log 10 q * 10 ^ (1 - p : ℤ) := by
      rw [← zpow_add₀ (by norm_num)]; congr 1; ring
    rw [this]
    have := mul_le_mul_of_nonneg_right l1 (zpow_pos (by norm_num) _ : (0 : ℚ) < 10 ^ (1 - p : ℤ)).le
    linarith

/-! ## Digits -/

theorem trim_split (l : List Char) : ∃ k, l = trim l ++ List.replicate k '0' := by
  refine ⟨(l.rtakeWhile (· == '0')).length, ?_⟩
  conv_lhs => rw [← List.rdropWhile_append_rtakeWhile (p := (· == '0')) (l := l)]
  unfold trim
  congr 1
  rw [List.eq_replicate_iff]
  refine ⟨rfl, fun c hc => ?_⟩
  have := List.mem_rtakeWhile_imp hc
  simpa using this

theorem val_zeros (a : List Char) (k : ℕ) : val (a ++ List.replicate k '0') = val a * 10 ^ k := by
  induction k with
  | zero => simp
  | succ k ih =>
    rw [List.replicate_succ', ← List.append_assoc, val_append, ih, pow_succ]
    simp
    ring

theorem trim_dig {l : List Char} (h : ∀ c ∈ l, ∃ k < 10, c = digit k) : ∀ c ∈ trim l, ∃ k < 10, c = digit k :=
  fun c hc => h c ((List.rdropWhile_prefix _ (l := l)).subset hc)

/-- What may follow a number. -/
def Stop (t : List Char) : Prop := ∀ c, t.head? = some c → isDig c = false ∧ c ≠ '.' ∧ c ≠ 'e'

/-- The digits before and after the point. -/
theorem scanNum_frac (b : Bool) (a d r : ℕ) (hr : r < 10 ^ d) (w t : List Char) (hw : ∀ c ∈ w, isSpace c = true)
    (ht : ∀ c, t.head? = some c → isDig c = false ∧ c ≠ '.') :
    scanNum (w ++ (sign b ++ natStr a ++ (frac (fracStr d r) ++ t))) = some (⟨b, ((a * 10 ^ d + r : ℕ) : ℚ) / 10 ^ d⟩, t) := by
  obtain ⟨k, hk⟩ := trim_split (fracStr d r)
  have hlen : (trim (fracStr d r)).length + k = d := by
    have := congrArg List.length hk
    rw [fracStr_length] at this
    simpa using this.symm
  have hv := val_frac d (natStr a) r hr
  rw [val_natStr] at hv
  have hv2 : a * 10 ^ d + r = val (natStr a ++ trim (fracStr d r)) * 10 ^ k := by
    rw [← hv, ← val_zeros, List.append_assoc, ← hk]
  have hmag : ((a * 10 ^ d + r : ℕ) : ℚ) / 10 ^ d = (val (natStr a ++ trim (fracStr d r)) : ℚ) / 10 ^ (trim (fracStr d r)).length := by
    have : (10 : ℚ) ^ d = 10 ^ (trim (fracStr d r)).length * 10 ^ k := by rw [← pow_add, hlen]
    rw [hv2, this]
    push_cast
    field_simp
  have hdig := trim_dig (fracStr_dig d r)
  obtain ⟨h1, h2⟩ := drop_spaces w hw b a (frac (fracStr d r) ++ t)
  unfold scanNum
  simp only [h1, h2]
  by_cases he : trim (fracStr d r) = []
  · have hf : frac (fracStr d r) = [] := by unfold frac; rw [if_pos he]
    rw [hf]
    obtain ⟨h3, h4⟩ := span_dig (natStr a) t (natStr_dig _) fun c hc => (ht c hc).1
    simp only [List.nil_append]
    rw [h3, h4]
    have h5 : getFrac t = ([], t) := by
      cases t with
      | nil => rfl
      | cons c t => simp [getFrac, (ht c rfl).2]
    rw [h5, if_neg (by simp [natStr_ne]), hmag, he]
  · have hf : frac (fracStr d r) = '.' :: trim (fracStr d r) := by unfold frac; rw [if_neg he]
    rw [hf]
    obtain ⟨h3, h4⟩ := span_dig (natStr a) ('.' :: trim (fracStr d r) ++ t) (natStr_dig _)
      (by intro c hc; simp at hc; rw [← hc]; decide)
    obtain ⟨h5, h6⟩ := span_dig (trim (fracStr d r)) t hdig fun c hc => (ht c hc).1
    rw [h3, h4]
    have h7 : getFrac ('.' :: trim (fracStr d r) ++ t) = (trim (fracStr d r), t) := by
      simp only [List.cons_append, getFrac, if_true, h5, h6]
    rw [h7, if_neg (by simp [natStr_ne]), hmag]

theorem scanExp_none {t : List Char} (ht : Stop t) : scanExp t = some (0, t) := by
  unfold scanExp
  split
  · exact absurd rfl (ht 'e' rfl).2.2
  · rfl

theorem scanExp_text (e : ℤ) (t : List Char) (ht : Stop t) : scanExp (expText e ++ t) = some (e, t) := by
  have h0 : ∀ c ∈ (if e.natAbs < 10 then '0' :: natStr e.natAbs else natStr e.natAbs), ∃ k < 10, c = digit k := by
    split_ifs
    · intro c hc
      rcases List.mem_cons.1 hc with rfl | hc
      · exact ⟨0, by norm_num, by decide⟩
      · exact natStr_dig _ c hc
    · exact natStr_dig _
  have hne : (if e.natAbs < 10 then '0' :: natStr e.natAbs else natStr e.natAbs) ≠ [] := by
    split_ifs
    · simp
    · exact natStr_ne _
  have hv : val (if e.natAbs < 10 then '0' :: natStr e.natAbs else natStr e.natAbs) = e.natAbs := by
    split_ifs
    · show val (natStr e.natAbs) = _
      exact val_natStr _
    · exact val_natStr _
  obtain ⟨h3, h4⟩ := span_dig _ t h0 fun c hc => (ht c hc).1
  have hs : getSign ((if e < 0 then '-' else '+') :: ((if e.natAbs < 10 then '0' :: natStr e.natAbs else natStr e.natAbs) ++ t)) =
      (decide (e < 0), (if e.natAbs < 10 then '0' :: natStr e.natAbs else natStr e.natAbs) ++ t) := by
    unfold getSign
    by_cases h : e < 0
    · simp [h]
    · simp [h]
  unfold scanExp expText
  simp only [List.cons_append]
  rw [hs]
  dsimp only
  rw [h3, h4, if_neg hne, hv]
  by_cases h : e < 0
  · simp only [h, decide_true, if_true, Option.some.injEq, Prod.mk.injEq, and_true]; omega
  · simp only [h, decide_false, Bool.false_eq_true, if_false, Option.some.injEq, Prod.mk.injEq, and_true]; omega

/-- The printed number as a number. -/
def rndG (p : ℕ) (x : Num) : Num := ⟨x.neg, gVal p x.mag⟩

/-- A printed number is read back. -/
theorem scanG_text {p : ℕ} (hp : 0 < p) (x : Num) (hx : 0 ≤ x.mag) (w t : List Char) (hw : ∀ c ∈ w, isSpace c = true) (ht : Stop t) :
    scanG (w ++ (sign x.neg ++ gMag p x.mag ++ t)) = some (rndG p x, t) := by
  have ht' : ∀ c, t.head? = some c → isDig c = false ∧ c ≠ '.' := fun c hc => ⟨(ht c hc).1, (ht c hc).2.1⟩
  unfold rndG gVal gMag
  split_ifs with h0
  · have h1 := scanNum_frac x.neg 0 0 0 (by norm_num) w t hw ht'
    have e1 : natStr 0 = ['0'] := by rw [natStr]; decide
    have e2 : frac (fracStr 0 0) = [] := rfl
    rw [e1, e2, List.nil_append] at h1
    unfold scanG
    rw [h1]
    simp only [Option.bind_eq_bind, Option.bind_some, scanExp_none ht]
    simp
  · have hq : 0 < x.mag := lt_of_le_of_ne hx (Ne.symm h0)
    obtain ⟨r1, r2⟩ := gDig_range hp hq
    set n := (gDig p x.mag).1 with hn
    set e := (gDig p x.mag).2 with he
    dsimp only
    split_ifs with h1
    · set d := ((p : ℤ) - 1 - e).toNat with hd
      have hm : n % 10 ^ d < 10 ^ d := Nat.mod_lt _ (by positivity)
      have h2 := scanNum_frac x.neg (n / 10 ^ d) d (n % 10 ^ d) hm w t hw ht'
      rw [Nat.div_add_mod'] at h2
      unfold scanG
      rw [show sign x.neg ++ (natStr (n / 10 ^ d) ++ frac (fracStr d (n % 10 ^ d))) ++ t =
        sign x.neg ++ natStr (n / 10 ^ d) ++ (frac (fracStr d (n % 10 ^ d)) ++ t) by simp [List.append_assoc], h2]
      simp only [Option.bind_eq_bind, Option.bind_some, scanExp_none ht]
      simp only [zpow_zero, mul_one]
      congr 3
      rw [show e - p + 1 = -(d : ℤ) by omega, zpow_neg, zpow_natCast, div_eq_mul_inv]
    · have hm : n % 10 ^ (p - 1) < 10 ^ (p - 1) := Nat.mod_lt _ (by positivity)
      have h2 := scanNum_frac x.neg (n / 10 ^ (p - 1)) (p - 1) (n % 10 ^ (p - 1)) hm w (expText e ++ t) hw
        (by intro c hc; simp [expText] at hc; rw [← hc]; decide)
      rw [Nat.div_add_mod'] at h2
      unfold scanG
      rw [show sign x.neg ++ (natStr (n / 10 ^ (p - 1)) ++ frac (fracStr (p - 1) (n % 10 ^ (p - 1))) ++ expText e) ++ t =
        sign x.neg ++ natStr (n / 10 ^ (p - 1)) ++ (frac (fracStr (p - 1) (n % 10 ^ (p - 1))) ++ (expText e ++ t)) by
          simp [List.append_assoc], h2]
      simp only [Option.bind_eq_bind, Option.bind_some, scanExp_text e t ht]
      congr 3
      rw [div_eq_mul_inv, mul_assoc, ← zpow_natCast (10 : ℚ) (p - 1), ← zpow_neg, ← zpow_add₀ (by norm_num)]
      congr 2
      omega

/-! ## Values with standard deviation -/

/-- The magnitude is not negative. -/
def Ok : Val → Prop
  | .num x => 0 ≤ x.mag
  | _ => True

/-- The printed value. -/
def rnd (p : ℕ) : Val → Val
  | .num x => .num (rndG p x)
  | v => v

/-- What is printed of the standard deviation. -/
def seen (q : ℕ) (x dx : Val) : Option Val := if shows x dx then some (rnd q dx) else if isNan dx then some (.nan false) else none

theorem gMag_head (p : ℕ) (q : ℚ) : ∃ k < 10, ∃ l, gMag p q = digit k :: l := by
  have : ∀ (n : ℕ) (t : List Char), ∃ k < 10, ∃ l, natStr n ++ t = digit k :: l := by
    intro n t
    obtain ⟨c, l, hl⟩ := List.exists_cons_of_ne_nil (natStr_ne n)
    obtain ⟨k, hk, rfl⟩ := natStr_dig n c (by rw [hl]; simp)
    exact ⟨k, hk, l ++ t, by rw [hl]; rfl⟩
  unfold gMag
  dsimp only
  split_ifs
  · exact ⟨0, by norm_num, [], rfl⟩
  · exact this _ _
  · rw [List.append_assoc]; exact this _ _

/-- First character of a number. -/
theorem text_head (p : ℕ) (v : Val) : ∃ c l, text p v = c :: l ∧ isSpace c = false ∧ c ≠ '(' ∧ c ≠ '\n' := by
  have hd : ∀ k < 10, isSpace (digit k) = false ∧ digit k ≠ '(' ∧ digit k ≠ '\n' := by decide
  cases v with
  | num x =>
    obtain ⟨k, hk, l, hl⟩ := gMag_head p x.mag
    simp only [text, hl]
    cases x.neg
    · exact ⟨_, _, rfl, hd k hk⟩
    · exact ⟨_, _, rfl, by decide⟩
  | inf b => cases b <;> exact ⟨_, _, rfl, by decide⟩
  | nan b => cases b <;> exact ⟨_, _, rfl, by decide⟩

theorem readVal_text {p : ℕ} (hp : 0 < p) (v : Val) (hv : Ok v) (w t : List Char) (hw : ∀ c ∈ w, isSpace c = true) (ht : Stop t) :
    readVal (w ++ (text p v ++ t)) = some (rnd p v, t) := by
  have hdrop : (w ++ (text p v ++ t)).dropWhile isSpace = text p v ++ t := by
    obtain ⟨c, l, hl, hs, -⟩ := text_head p v
    rw [List.dropWhile_append_of_pos hw, hl]
    simp [hs]
  cases v with
  | num x =>
    obtain ⟨k, hk, l, hl⟩ := gMag_head p x.mag
    have h0 : ∀ k < 10, digit k ≠ '-' ∧ digit k ≠ '+' ∧ digit k ≠ 'i' ∧ digit k ≠ 'n' := by decide
    have hs : getSign (text p (.num x) ++ t) = (x.neg, digit k :: l ++ t) := by
      simp only [text, hl]
      cases x.neg
      · simp [sign, getSign, (h0 k hk).1, (h0 k hk).2.1]
      · simp [sign, getSign]
    unfold readVal
    rw [hdrop, hs]
    dsimp only
    rw [if_neg (by intro e; simp at e; exact (h0 k hk).2.2.1 e.1), if_neg (by intro e; simp at e; exact (h0 k hk).2.2.2 e.1)]
    show Option.map _ (scanG (w ++ (sign x.neg ++ gMag p x.mag ++ t))) = _
    rw [scanG_text hp x hv w t hw ht]
    rfl
  | inf b =>
    unfold readVal
    rw [hdrop]
    cases b <;> simp [text, sign, getSign, rnd]
  | nan b =>
    unfold readVal
    rw [hdrop]
    cases b <;> simp [text, sign, getSign, rnd]

/-- What may follow a value with or without standard deviation. -/
def After (t : List Char) : Prop := Stop t ∧ t.take 2 ≠ " (".toList ∧ t.head? ≠ some '('

theorem stop_blank (t : List Char) : Stop (' ' :: t) := by
  intro c hc
  simp at hc
  rw [← hc]
  decide

theorem after_nil : After [] := ⟨by intro c hc; simp at hc, by decide, by decide⟩

theorem after_nl (t : List Char) : After ('\n' :: t) :=
  ⟨by intro c hc; simp at hc; rw [← hc]; decide, by simp, by simp⟩

theorem after_blank {t : List Char} (h : t.head? ≠ some '(') : After (' ' :: t) := by
  refine ⟨stop_blank t, ?_, by simp⟩
  cases t with
  | nil => simp
  | cons c t =>
    intro e
    simp at e
    simp at h
    exact h e

theorem after_blanks {t : List Char} (h : After t) (k : ℕ) : After (List.replicate k ' ' ++ t) := by
  induction k with
  | zero => simpa using h
  | succ k ih => exact after_blank ih.2.2

theorem readCell_text {p q : ℕ} (hp : 0 < p) (hq : 0 < q) (x dx : Val) (hx : Ok x) (hd : Ok dx) (w t : List Char)
    (hw : ∀ c ∈ w, isSpace c = true) (ht : After t) :
    readCell (w ++ (text p x ++ (std q x dx ++ t))) = some ((rnd p x, seen q x dx), t) := by
  have hst : Stop (std q x dx ++ t) := by
    unfold std
    split_ifs
    · exact stop_blank _
    · exact stop_blank _
    · exact ht.1
  unfold readCell
  rw [readVal_text hp x hx w _ hw hst]
  simp only [Option.bind_eq_bind, Option.bind_some]
  unfold std seen
  by_cases h1 : shows x dx = true
  · have hn : isNan dx = false := by
      cases x <;> cases dx <;> simp_all [shows, isNan]
    rw [if_pos h1, if_pos h1]
    have e : " (".toList ++ text q dx ++ [')'] ++ t = ' ' :: '(' :: (text q dx ++ (')' :: t)) := by simp
    rw [e, if_pos (by rfl)]
    have hstop : Stop (')' :: t) := by intro c hc; simp at hc; rw [← hc]; decide
    have h2 := readVal_text hq dx hd [] (')' :: t) (by simp) hstop
    rw [List.nil_append] at h2
    have h3 : ((' ' :: '(' :: (text q dx ++ (')' :: t))).drop 2).take 4 ≠ "NaN)".toList := by
      obtain ⟨c, l, hl, -⟩ := text_head q dx
      have hc : c ≠ 'N' := by
        cases dx with
        | num d =>
          obtain ⟨k, hk, l', hl'⟩ := gMag_head q d.mag
          have h0 : ∀ k < 10, digit k ≠ 'N' := by decide
          simp only [text, hl'] at hl
          cases hn : d.neg <;> rw [hn] at hl <;> simp [sign] at hl <;> rw [← hl.1]
          · exact h0 k hk
          · decide
        | inf b => cases b <;> simp [text, sign] at hl <;> rw [← hl.1] <;> decide
        | nan b => cases b <;> simp [text, sign] at hl <;> rw [← hl.1] <;> decide
      rw [hl]
      intro e
      simp at e
      exact hc e.1
    rw [if_neg h3]
    show (readVal (text q dx ++ (')' :: t))).bind _ = _
    rw [h2]
    simp
  · rw [if_neg h1, if_neg h1]
    by_cases h2 : isNan dx = true
    · rw [if_pos h2, if_pos h2]
      have e : " (NaN)".toList ++ t = ' ' :: '(' :: 'N' :: 'a' :: 'N' :: ')' :: t := rfl
      rw [e, if_pos (by rfl), if_pos (by rfl)]
      rfl
    · rw [if_neg h2, if_neg h2, List.nil_append, if_neg ht.2.1]

/-- The columns of a line: width, value, standard deviation. -/
def cellsText (l : List (ℕ × Val × Val)) : List Char := l.flatMap fun c => cell true c.1 c.2.1 c.2.2

theorem cell_form (lead : Bool) (n : ℕ) (x dx : Val) : ∃ k, cell lead n x dx =
    (if lead then [' '] else []) ++ (text 6 x ++ (std 2 x dx ++ List.replicate k ' ')) := by
  unfold cell padr
  exact ⟨_, by rw [List.append_assoc, List.append_assoc]⟩

theorem after_cells {l : List (ℕ × Val × Val)} {t : List Char} (ht : After t) : After (cellsText l ++ t) := by
  cases l with
  | nil => exact ht
  | cons c l =>
    obtain ⟨k, hk⟩ := cell_form true c.1 c.2.1 c.2.2
    obtain ⟨c', l', hl', -, h2, -⟩ := text_head 6 c.2.1
    have : cellsText (c :: l) ++ t = ' ' :: (text 6 c.2.1 ++ (std 2 c.2.1 c.2.2 ++ List.replicate k ' ') ++ cellsText l ++ t) := by
      simp only [cellsText, List.flatMap_cons, hk]
      simp [List.append_assoc]
    rw [this]
    apply after_blank
    rw [hl']
    simpa using h2

theorem readCells_text (l : List (ℕ × Val × Val)) (hl : ∀ c ∈ l, Ok c.2.1 ∧ Ok c.2.2) (t : List Char) (ht : After t) :
    ∀ w : List Char, (∀ c ∈ w, isSpace c = true) → ∃ w' : List Char, (∀ c ∈ w', isSpace c = true) ∧
      readCells l.length (w ++ (cellsText l ++ t)) = some (l.map fun c => (rnd 6 c.2.1, seen 2 c.2.1 c.2.2), w' ++ t) := by
  induction l with
  | nil => intro w hw; exact ⟨w, hw, rfl⟩
  | cons c l ih =>
    intro w hw
    obtain ⟨k, hk⟩ := cell_form true c.1 c.2.1 c.2.2
    have e : w ++ (cellsText (c :: l) ++ t) = (w ++ [' ']) ++ (text 6 c.2.1 ++ (std 2 c.2.1 c.2.2 ++
        (List.replicate k ' ' ++ (cellsText l ++ t)))) := by
      simp only [cellsText, List.flatMap_cons, hk]
      simp [List.append_assoc]
    have hb : ∀ c ∈ List.replicate k ' ', isSpace c = true := by
      intro c hc; rw [List.eq_of_mem_replicate hc]; decide
    obtain ⟨w', hw', h1⟩ := ih (fun c hc => hl c (by simp [hc])) (List.replicate k ' ') hb
    refine ⟨w', hw', ?_⟩
    rw [e, List.length_cons, readCells, readCell_text (by norm_num) (by norm_num) _ _ (hl c (by simp)).1 (hl c (by simp)).2 _ _
      (by
        intro c hc
        rcases List.mem_append.1 hc with hc | hc
        · exact hw c hc
        · rw [List.mem_singleton.1 hc]; decide)
      (after_blanks (after_cells ht) k)]
    simp only [Option.bind_eq_bind, Option.bind_some, h1, List.map_cons]

/-! ## No line end in a printed value -/

theorem dig_nl {l : List Char} (h : ∀ c ∈ l, ∃ k < 10, c = digit k) : '\n' ∉ l := by
  intro hc
  obtain ⟨k, hk, e⟩ := h _ hc
  have : ∀ k < 10, digit k ≠ '\n' := by decide
  exact this k hk e.symm

theorem frac_nl (d r : ℕ) : '\n' ∉ frac (fracStr d r) := by
  unfold frac
  split_ifs
  · simp
  · rw [List.mem_cons, not_or]
    exact ⟨by decide, dig_nl (trim_dig (fracStr_dig d r))⟩

theorem gMag_nl (p : ℕ) (q : ℚ) : '\n' ∉ gMag p q := by
  unfold gMag
  dsimp only
  split_ifs
  · decide
  · rw [List.mem_append, not_or]
    exact ⟨dig_nl (natStr_dig _), frac_nl _ _⟩
  · rw [List.mem_append, List.mem_append, not_or, not_or]
    refine ⟨⟨dig_nl (natStr_dig _), frac_nl _ _⟩, ?_⟩
    unfold expText
    split_ifs <;> simp only [List.mem_cons, not_or] <;> refine ⟨by decide, by decide, ?_⟩
    · exact ⟨by decide, dig_nl (natStr_dig _)⟩
    · exact dig_nl (natStr_dig _)
    · exact ⟨by decide, dig_nl (natStr_dig _)⟩
    · exact dig_nl (natStr_dig _)

theorem text_nl (p : ℕ) (v : Val) : '\n' ∉ text p v := by
  cases v with
  | num x =>
    unfold text
    rw [List.mem_append, not_or]
    exact ⟨by cases x.neg <;> decide, gMag_nl _ _⟩
  | inf b => cases b <;> simp [text, sign]
  | nan b => cases b <;> simp [text, sign]

theorem std_nl (q : ℕ) (x dx : Val) : '\n' ∉ std q x dx := by
  unfold std
  split_ifs
  · rw [List.mem_append, List.mem_append, not_or, not_or]
    exact ⟨⟨by decide, text_nl _ _⟩, by decide⟩
  · decide
  · simp

theorem cell_nl (lead : Bool) (n : ℕ) (x dx : Val) : '\n' ∉ cell lead n x dx := by
  obtain ⟨k, hk⟩ := cell_form lead n x dx
  rw [hk]
  simp only [List.mem_append, not_or]
  exact ⟨by cases lead <;> decide, text_nl _ _, std_nl _ _ _, by simp⟩

theorem cells_nl (l : List (ℕ × Val × Val)) : '\n' ∉ cellsText l := by
  unfold cellsText
  rw [List.mem_flatMap]
  rintro ⟨c, -, hc⟩
  exact cell_nl _ _ _ _ hc

/-- Lines are found again. -/
theorem lines_unlines (l : List (List Char)) (h : ∀ x ∈ l, '\n' ∉ x) : lines (unlines l) = l := by
  have go : ∀ (x acc t : List Char), '\n' ∉ x → lines.go acc (x ++ '\n' :: t) = (acc.reverse ++ x) :: lines.go [] t := by
    intro x
    induction x with
    | nil => intro acc t _; simp [lines.go]
    | cons c x ih =>
      intro acc t hx
      rw [List.mem_cons, not_or] at hx
      rw [List.cons_append, lines.go, if_neg (Ne.symm hx.1), ih _ _ hx.2]
      simp
  unfold lines
  induction l with
  | nil => rfl
  | cons x l ih =>
    have e : unlines (x :: l) = x ++ '\n' :: unlines l := by simp [unlines]
    rw [e, go x [] _ (h x (by simp)), ih fun y hy => h y (by simp [hy])]
    rfl

end Pdffit.RText
