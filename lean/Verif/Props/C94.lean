import Verif.Lemmas.Progress
import Verif.Lemmas.ProgressText
import Verif.Props.RefineDemo
import Verif.Props.C46
import Verif.Props.C64

/-!
# C94: the messages of a refinement

The messages of a completed refinement tell its course: start, first evaluation, the iterations, final figures.
-/

namespace Pdffit.C94
open Progress

section
variable {K W : Type} [Field K] [LinearOrder K] [IsStrictOrderedRing K]

/-- The improvement from message `k - 1` to message `k` is below the tolerance; not for the first two messages. -/
def Small (toler : K) (f : ℕ → Figs K) (k : ℕ) : Prop := 2 ≤ k ∧ (f (k - 1)).chisq - (f k).chisq ≤ toler * (f (k - 1)).chisq

instance (toler : K) (f : ℕ → Figs K) (k : ℕ) : Decidable (Small toler f k) := by unfold Small; infer_instance

/-- Three small improvements in a row, the last one at message `k`. -/
def Three (toler : K) (f : ℕ → Figs K) (k : ℕ) : Prop := Small toler f k ∧ Small toler f (k - 1) ∧ Small toler f (k - 2)

/-- The course of a refinement as its messages tell it: messages 0 to `n` with figures `f`. -/
structure Course (toler : K) (f : ℕ → Figs K) (n : ℕ) : Prop where
  three : 3 ≤ n
  most : n ≤ 100
  mono : ∀ k < n, (f (k + 1)).chisq ≤ (f k).chisq
  stop : n < 100 → Three toler f n
  goes : ∀ k, 3 ≤ k → k < n → ¬ Three toler f k

/-- The messages of such a course. -/
def courseMsgs (sets : List (ℕ × List ℕ)) (toler : K) (f : ℕ → Figs K) (n : ℕ) : List (Msg K) :=
  .start sets :: (List.range (n + 1)).map (fun k => .iter k (f k) (decide (Small toler f k))) ++ [.finalHead, .final (f n)]

theorem loop_run (th : Theory K W) (sets : W → List (ℕ × List ℕ)) (toler : K) (fuel : ℕ) : ∀ (s : Statics K) (e : Eng K W), Run th s e → e.iter ≤ 100 →
    (refineLoop th toler fuel (s, e)).2.1 = .done →
    ∃ n, (refineLoop th toler fuel (s, e)).2.2 = n + 1 ∧ 3 ≤ e.iter + n ∧ e.iter + n ≤ 100 ∧
      loopMsgs th sets toler fuel (s, e) = (List.range n).map (fun k => .iter (e.iter + k + 1) (figs th (stepN th toler (k + 1) (s, e)).2)
        (decide ((stepN th toler (k + 1) (s, e)).2.stagnating ≠ 0))) ++ [.finalHead, .final (figs th (stepN th toler n (s, e)).2)] ∧
      (∀ k < n, (stepN th toler (k + 1) (s, e)).2.chisq ≤ (stepN th toler k (s, e)).2.chisq ∧
        (stepN th toler (k + 1) (s, e)).2.stagnating = (if (stepN th toler k (s, e)).2.chisq - (stepN th toler (k + 1) (s, e)).2.chisq ≤
          toler * (stepN th toler k (s, e)).2.chisq then (stepN th toler k (s, e)).2.stagnating + 1 else 0) ∧
        (e.iter + k < 3 ∨ (stepN th toler k (s, e)).2.stagnating < 3)) ∧
      (e.iter + n < 100 → 3 ≤ (stepN th toler n (s, e)).2.stagnating) ∧
      (refineLoop th toler fuel (s, e)).1.2.par = (stepN th toler n (s, e)).2.par ∧
      (refineLoop th toler fuel (s, e)).1.2.chisq = (stepN th toler n (s, e)).2.chisq ∧
      (refineLoop th toler fuel (s, e)).1.2.rw2 = (stepN th toler n (s, e)).2.rw2 := by
  induction fuel with
  | zero => intro s e _ _ h; cases h
  | succ fuel ih =>
    intro s e R hle h
    unfold refineLoop at h ⊢
    unfold loopMsgs
    dsimp only at h ⊢
    rcases ho : (refineStep th toler s e).2.2 with _ | _ | _ | _
    all_goals rw [ho] at h
    all_goals dsimp only at h ⊢
    all_goals try cases h
    · obtain ⟨hc, R', h1, h2, h3, h4⟩ := step_more th sets toler R ho
      obtain ⟨n, i1, i2, i3, i4, i5, i6, i7⟩ := ih _ _ R' (by omega) h
      refine ⟨n + 1, by rw [i1], by omega, by omega, ?_, ?_, fun hh => i6 (by omega), i7⟩
      · rw [h4, i4, h2, List.range_succ_eq_map]
        simp only [List.map_cons, List.map_map, List.cons_append, List.nil_append]
        refine congrArg₂ _ rfl (congrArg₂ _ (List.map_congr_left fun k _ => ?_) rfl)
        have : e.iter + 1 + k + 1 = e.iter + (k + 1) + 1 := by omega
        rw [this]
        rfl
      · intro k hk
        cases k with
        | zero => exact ⟨h1, h3, by show e.iter + 0 < 3 ∨ e.stagnating < 3; omega⟩
        | succ k =>
          obtain ⟨j1, j2, j3⟩ := i5 k (by omega)
          exact ⟨j1, j2, j3.imp_left fun j => by omega⟩
    · obtain ⟨h1, h2, h3, h4⟩ := step_done th sets toler R ho
      refine ⟨0, rfl, h2, hle, ?_, by simp, ?_, h4⟩
      · rw [h1]; rfl
      · intro hh
        show 3 ≤ e.stagnating
        omega

omit [IsStrictOrderedRing K] in
theorem stag_three (toler : K) (f : ℕ → Figs K) (st : ℕ → ℕ) (n : ℕ) (h1 : st 1 = 0)
    (hs : ∀ k, 1 ≤ k → k < n → st (k + 1) = if Small toler f (k + 1) then st k + 1 else 0) :
    ∀ k, 1 ≤ k → k ≤ n → (st k ≠ 0 ↔ Small toler f k) ∧ (3 ≤ st k ↔ Three toler f k) := by
  have h0 : ¬ Small toler f 1 := fun h => absurd h.1 (by omega)
  have h00 : ¬ Small toler f 0 := fun h => absurd h.1 (by omega)
  have hp : ∀ k, 1 ≤ k → k ≤ n → (st k ≠ 0 ↔ Small toler f k) ∧ (2 ≤ st k ↔ Small toler f k ∧ Small toler f (k - 1)) ∧ (3 ≤ st k ↔ Three toler f k) := by
    intro k hk
    induction k, hk using Nat.le_induction with
    | base => intro _; unfold Three; simp [h1, h0]
    | succ k hk ih =>
      intro hn
      obtain ⟨a, b, c⟩ := ih (by omega)
      rw [hs k hk (by omega)]
      have e2 : k + 1 - 2 = k - 1 := by omega
      unfold Three
      rw [Nat.add_sub_cancel, e2, ← a]
      by_cases hq : Small toler f (k + 1)
      · rw [if_pos hq]
        simp only [hq, true_and]
        refine ⟨by simp, by omega, ?_⟩
        rw [a, ← b]
        omega
      · rw [if_neg hq]; simp [hq]
  exact fun k hk hn => ⟨(hp k hk hn).1, (hp k hk hn).2.2⟩

/-- The messages of a completed refinement that is begun afresh: they tell its course. The last figures are those of the final state. -/
theorem C94_course (th : Theory K W) (sets : W → List (ℕ × List ℕ)) (toler : K) (fuel : ℕ) (s : Statics K) (e : Eng K W)
    (hf : ¬ (s.fitRunning = true ∧ e.iter ≠ 0)) (h : (refineLoop th toler fuel (s, e)).2.1 = .done) :
    ∃ n f, Course toler f n ∧ (refineLoop th toler fuel (s, e)).2.2 = n + 1 ∧ loopMsgs th sets toler fuel (s, e) = courseMsgs (sets e.world) toler f n ∧
      (f 0).pars = shown e.par ∧ (f n).pars = shown (refineLoop th toler fuel (s, e)).1.2.par ∧
      (f n).chisq = (refineLoop th toler fuel (s, e)).1.2.chisq ∧ (f n).rw2 = (refineLoop th toler fuel (s, e)).1.2.rw2 := by
  cases fuel with
  | zero => cases h
  | succ fuel =>
  have hcnt := refineStep_counters th toler s e
  unfold refineLoop at h ⊢
  unfold loopMsgs
  dsimp only at h ⊢
  rcases ho : (refineStep th toler s e).2.2 with _ | _ | _ | _
  all_goals rw [ho] at h
  all_goals dsimp only at h ⊢
  all_goals try cases h
  · obtain ⟨f0, p0, R, c0, i0, s0, m0⟩ := step_first th sets toler hf ho
    obtain ⟨n, i1, i2, i3, i4, i5, i6, i7⟩ := loop_run th sets toler fuel _ _ R (by omega) h
    generalize hS : ((refineStep th toler s e).1, (refineStep th toler s e).2.1) = S at *
    have hS0 : (stepN th toler 0 S).2 = (refineStep th toler s e).2.1 := by rw [← hS]; rfl
    let f : ℕ → Figs K := fun k => if k = 0 then f0 else figs th (stepN th toler (k - 1) S).2
    have fs : ∀ k, f (k + 1) = figs th (stepN th toler k S).2 := fun k => rfl
    have hst := stag_three toler f (fun k => (stepN th toler (k - 1) S).2.stagnating) (n + 1) (by show (stepN th toler 0 S).2.stagnating = 0; rw [hS0, s0]) (by
      intro k hk hn
      obtain ⟨k, rfl⟩ := Nat.exists_eq_add_of_le' hk
      obtain ⟨-, j2, -⟩ := i5 k (by omega)
      show (stepN th toler (k + 1) S).2.stagnating = _
      rw [j2]
      refine if_congr ?_ rfl rfl
      unfold Small
      rw [Nat.add_sub_cancel, fs, fs]
      exact ⟨fun hh => ⟨by omega, hh⟩, fun hh => hh.2⟩)
    rw [i0] at i2 i3 i4 i5 i6
    refine ⟨n + 1, f, ⟨by omega, by omega, ?_, ?_, ?_⟩, by rw [i1], ?_, p0, ?_, ?_, ?_⟩
    · intro k hk
      cases k with
      | zero => rw [fs, hS0]; exact c0
      | succ k => exact (i5 k (by omega)).1
    · intro hh
      exact ((hst (n + 1) (by omega) le_rfl).2).1 (i6 (by omega))
    · intro k h3 hk hT
      obtain ⟨k, rfl⟩ := Nat.exists_eq_add_of_le' (show 1 ≤ k by omega)
      have := ((hst (k + 1) (by omega) (by omega)).2).2 hT
      obtain ⟨-, -, j3⟩ := i5 k (by omega)
      change 3 ≤ (stepN th toler k S).2.stagnating at this
      omega
    · rw [m0, i4]
      unfold courseMsgs
      rw [List.range_succ_eq_map, List.range_succ_eq_map]
      simp only [List.map_cons, List.map_map, List.cons_append, List.nil_append]
      have d0 : decide (Small toler f 0) = false := decide_eq_false fun hh => absurd hh.1 (by omega)
      have d1 : decide (Small toler f (Nat.succ 0)) = false := decide_eq_false fun hh => absurd hh.1 (by simp)
      rw [d0, d1, hS0.symm]
      refine congrArg _ (congrArg _ (congrArg _ (congrArg₂ _ (List.map_congr_left fun k hk => ?_) rfl)))
      have hk := List.mem_range.1 hk
      have : 1 + k + 1 = k + 2 := by omega
      rw [this]
      show Msg.iter (k + 2) _ _ = Msg.iter (k + 2) _ _
      congr 1
      exact decide_eq_decide.2 (hst (k + 2) (by omega) (by omega)).1
    · rw [fs, i7.1]; rfl
    · rw [fs, i7.2.1]; rfl
    · rw [fs, i7.2.2]; rfl
  · have := (hcnt.2 ho).1
    rw [if_neg hf] at this
    omega


omit [LinearOrder K] [IsStrictOrderedRing K] in
/-- The printed parameters: exactly the free ones, in the order of their numbers. -/
theorem C94_shown {s : ParStore K} (w : s.Wf) : ((shown s).map Prod.fst).Pairwise (· < ·) ∧
    ∀ i x, (i, x) ∈ shown s ↔ ∃ k : ℕ, s.id[k]? = some i ∧ s.ip[k]? = some true ∧ s.p[k]? = some x := by
  have hp := C46.order_perm s.id
  constructor
  · have h := C46.order_strict s.id w.nd
    unfold shown
    rw [List.map_filterMap]
    rw [List.pairwise_map] at h
    refine List.Pairwise.filterMap _ ?_ h
    intro a a' haa b hb b' hb'
    have : ∀ (a b : ℕ), b ∈ Option.map Prod.fst (if s.ip.getD a false = true then some (s.id.getD a 0, s.p.getD a 0) else none) → b = s.id[a]?.getD 0 := by
      intro a b hb
      split_ifs at hb
      · simpa [List.getD_eq_getElem?_getD, eq_comm] using hb
      · simp at hb
    rw [this a b hb, this a' b' hb']
    exact haa
  · intro i x
    unfold shown
    rw [List.mem_filterMap]
    have hm : ∀ k, k ∈ Report.orderById s.id ↔ k < s.id.length := fun k => by rw [hp.mem_iff, List.mem_range]
    constructor
    · rintro ⟨k, hk, h⟩
      rw [hm] at hk
      have h1 : k < s.ip.length := by have := w.li; omega
      have h2 : k < s.p.length := by have := w.lp; omega
      split_ifs at h with hf
      rw [Option.some.injEq, Prod.mk.injEq] at h
      simp only [List.getD_eq_getElem?_getD, List.getElem?_eq_getElem hk, List.getElem?_eq_getElem h1, List.getElem?_eq_getElem h2, Option.getD_some] at h hf
      exact ⟨k, by rw [List.getElem?_eq_getElem hk, h.1], by rw [List.getElem?_eq_getElem h1, hf], by rw [List.getElem?_eq_getElem h2, h.2]⟩
    · rintro ⟨k, h1, h2, h3⟩
      refine ⟨k, (hm k).2 (List.getElem?_eq_some_iff.1 h1).1, ?_⟩
      simp [List.getD_eq_getElem?_getD, h1, h2, h3]

end

/-! ## The text -/

section
open Stru (Num fixNum rndNum rhe)
open RText (Val rnd gVal gDig)

/-- All figures can be printed. -/
structure Prints {K : Type} (S : Shw K) : Prop where
  chisq : ∀ x, RText.Ok (S.chisq x)
  red : ∀ x n, RText.Ok (S.red x n)
  rw : ∀ x, RText.Ok (S.rw x)

/-- What can be read of the parameters of a message. -/
def readPars {K : Type} (S : Shw K) (f : Figs K) : List (ℕ × Val) := f.pars.map fun x => (x.1, seenPar (S.par x.2))

/-- All that can be read in the printed messages. -/
def readCourse {K : Type} [Field K] [LinearOrder K] (S : Shw K) (sets : List (ℕ × List ℕ)) (toler : K) (f : ℕ → Figs K) (n : ℕ) : List MsgS :=
  .start sets :: (List.range (n + 1)).map (fun k => .iter k (readPars S (f k)) (rnd 6 (S.chisq (f k).chisq)) (rnd 6 (S.red (f k).chisq (f k).nred))
    (rnd 6 (S.rw (f k).rw2)) (decide (Small toler f k))) ++
    [.finalHead, .final (readPars S (f n)) (rnd 6 (S.chisq (f n).chisq)) (rnd 6 (S.red (f n).chisq (f n).nred)) (rnd 6 (S.rw (f n).rw2))]

/-- The text of a completed refinement can be read, whatever the number of parameters, of data sets and of iterations: every message is found with its
number, its parameters with six decimal places and its figures with six digits.
Missing: small parameters (`C94_small`). -/
theorem C94_read_partial {K W : Type} [Field K] [LinearOrder K] [IsStrictOrderedRing K] (S : Shw K) (hS : Prints S) (th : Theory K W)
    (sets : W → List (ℕ × List ℕ)) (toler : K) (fuel : ℕ) (s : Statics K) (e : Eng K W) (hf : ¬ (s.fitRunning = true ∧ e.iter ≠ 0))
    (h : (refineLoop th toler fuel (s, e)).2.1 = .done) :
    ∃ n f, Course toler f n ∧ (refineLoop th toler fuel (s, e)).2.2 = n + 1 ∧
      readText (logText S (loopMsgs th sets toler fuel (s, e))) = some (readCourse S (sets e.world) toler f n) ∧
      (f 0).pars = shown e.par ∧ (f n).pars = shown (refineLoop th toler fuel (s, e)).1.2.par ∧
      (f n).chisq = (refineLoop th toler fuel (s, e)).1.2.chisq ∧ (f n).rw2 = (refineLoop th toler fuel (s, e)).1.2.rw2 := by
  obtain ⟨n, f, h1, h2, h3, h4⟩ := C94_course th sets toler fuel s e hf h
  refine ⟨n, f, h1, h2, ?_, h4⟩
  have ok : ∀ m : Msg K, MsgOk S m := by
    intro m
    cases m with
    | start => trivial
    | finalHead => trivial
    | iter n f st => exact ⟨hS.chisq _, hS.red _ _, hS.rw _⟩
    | final f => exact ⟨hS.chisq _, hS.red _ _, hS.rw _⟩
  rw [readText_log S _ fun m _ => ok m, h3]
  simp [courseMsgs, readCourse, seenMsg, valPars, readPars, Function.comp_def]

/-- The printed parameter differs from its value by at most half a unit of the sixth decimal place. -/
theorem C94_near (x : Num) (h : 0 ≤ x.mag) : ∃ y : Num, seenPar (.num x) = .num y ∧ y.neg = x.neg ∧ |y.mag - x.mag| ≤ 5 / 10 ^ 7 := by
  refine ⟨rndNum 6 x, rfl, rfl, ?_⟩
  have := RText.rhe_near (q := x.mag * 10 ^ 6) (by positivity)
  show |(rhe (x.mag * 10 ^ 6) : ℚ) / 10 ^ 6 - x.mag| ≤ _
  rw [show (rhe (x.mag * 10 ^ 6) : ℚ) / 10 ^ 6 - x.mag = ((rhe (x.mag * 10 ^ 6) : ℚ) - x.mag * 10 ^ 6) / 10 ^ 6 by ring, abs_div, abs_of_pos (by norm_num : (0 : ℚ) < 10 ^ 6),
    div_le_iff₀ (by norm_num)]
  norm_num at this ⊢
  exact this

/-- Of a parameter below 5e-7 no digit is printed, though the report of the same refinement has six significant ones. -/
theorem C94_small (x : Num) (h0 : 0 < x.mag) (h : x.mag < 5 / 10 ^ 7) : fixText (.num x) = Stru.sign x.neg ++ "0.000000".toList ∧
    ∃ y : Num, rnd 6 (.num x) = .num y ∧ y.neg = x.neg ∧ |y.mag - x.mag| ≤ x.mag * (5 / 10 ^ 6) := by
  constructor
  · have hr : rhe (x.mag * 10 ^ 6) = 0 := by
      have hlt : x.mag * 10 ^ 6 < 1 / 2 := by norm_num at h ⊢; linarith
      have hfl : ⌊x.mag * 10 ^ 6⌋ = 0 := by
        rw [Int.floor_eq_zero_iff]
        exact ⟨by positivity, by linarith⟩
      unfold rhe
      rw [hfl, if_pos (by push_cast; linarith)]
      rfl
    unfold fixText fixNum
    simp only [hr]
    rw [List.append_assoc]
    refine congrArg _ ?_
    decide +kernel
  · refine ⟨RText.rndG 6 x, rfl, rfl, ?_⟩
    refine (RText.gVal_rel (p := 6) (by norm_num) h0.le).trans (le_of_eq ?_)
    norm_num [zpow_neg]
    ring

theorem rhe_mono {q r : ℚ} (h0 : 0 ≤ q) (h : q ≤ r) : rhe q ≤ rhe r := by
  by_contra hc
  rw [not_le] at hc
  have h1 := abs_le.1 (RText.rhe_near h0)
  have h2 := abs_le.1 (RText.rhe_near (h0.trans h))
  have h3 : ((rhe r : ℕ) : ℚ) + 1 ≤ rhe q := by exact_mod_cast hc
  have : q = r := by linarith [h1.1, h1.2, h2.1, h2.2]
  subst this
  omega

theorem gVal_bounds {p : ℕ} (hp : 0 < p) {q : ℚ} (hq : 0 < q) : (10 : ℚ) ^ Int.log 10 q ≤ gVal p q ∧ gVal p q ≤ 10 ^ (Int.log 10 q + 1) ∧
    gVal p q = rhe (q * 10 ^ ((p : ℤ) - 1 - Int.log 10 q)) * 10 ^ (Int.log 10 q - p + 1) := by
  have h10 : (10 : ℚ) ≠ 0 := by norm_num
  have e : gVal p q = rhe (q * 10 ^ ((p : ℤ) - 1 - Int.log 10 q)) * 10 ^ (Int.log 10 q - p + 1) := by
    unfold gVal gDig
    rw [if_neg hq.ne']
    dsimp only
    split_ifs with h
    · dsimp only
      rw [h]
      push_cast
      rw [← zpow_natCast (10 : ℚ) (p - 1), ← zpow_natCast (10 : ℚ) p, ← zpow_add₀ h10, ← zpow_add₀ h10]
      congr 1
      omega
    · rfl
  have l1 : (10 : ℚ) ^ Int.log 10 q ≤ q := by exact_mod_cast Int.zpow_log_le_self (by norm_num : 1 < 10) hq
  have l2 : q ≤ (10 : ℚ) ^ (Int.log 10 q + 1) := by exact_mod_cast (Int.lt_zpow_succ_log_self (by norm_num : 1 < 10) q).le
  have hpos : (0 : ℚ) < 10 ^ (Int.log 10 q - p + 1) := zpow_pos (by norm_num) _
  have ha : (10 : ℚ) ^ (p - 1) = 10 ^ Int.log 10 q * 10 ^ ((p : ℤ) - 1 - Int.log 10 q) := by
    rw [← zpow_natCast, ← zpow_add₀ h10]; congr 1; omega
  have hb : (10 : ℚ) ^ p = 10 ^ (Int.log 10 q + 1) * 10 ^ ((p : ℤ) - 1 - Int.log 10 q) := by
    rw [← zpow_natCast, ← zpow_add₀ h10]; congr 1; omega
  have hm : (0 : ℚ) < 10 ^ ((p : ℤ) - 1 - Int.log 10 q) := zpow_pos (by norm_num) _
  have r1 : 10 ^ (p - 1) ≤ rhe (q * 10 ^ ((p : ℤ) - 1 - Int.log 10 q)) := RText.le_rhe (by push_cast; rw [ha]; exact mul_le_mul_of_nonneg_right l1 hm.le)
  have r2 : rhe (q * 10 ^ ((p : ℤ) - 1 - Int.log 10 q)) ≤ 10 ^ p := RText.rhe_le (mul_nonneg hq.le hm.le) (by push_cast; rw [hb]; exact mul_le_mul_of_nonneg_right l2 hm.le)
  refine ⟨?_, ?_, e⟩
  · rw [e]
    calc (10 : ℚ) ^ Int.log 10 q = 10 ^ (p - 1) * 10 ^ (Int.log 10 q - p + 1) := by rw [← zpow_natCast, ← zpow_add₀ h10]; congr 1; omega
      _ ≤ _ := mul_le_mul_of_nonneg_right (by exact_mod_cast r1) hpos.le
  · rw [e]
    calc _ ≤ (10 : ℚ) ^ p * 10 ^ (Int.log 10 q - p + 1) := mul_le_mul_of_nonneg_right (by exact_mod_cast r2) hpos.le
      _ = _ := by rw [← zpow_natCast, ← zpow_add₀ h10]; congr 1; omega

/-- Printing with `p` digits keeps the order. -/
theorem gVal_mono {p : ℕ} (hp : 0 < p) {q r : ℚ} (h0 : 0 ≤ q) (h : q ≤ r) : gVal p q ≤ gVal p r := by
  rcases h0.eq_or_lt with rfl | hq
  · rcases h.eq_or_lt with rfl | hr
    · exact le_rfl
    · have := (gVal_bounds hp hr).1
      have h0 : gVal p 0 = 0 := by simp [gVal]
      rw [h0]
      exact le_trans (zpow_pos (by norm_num) _).le this
  · have hr := hq.trans_le h
    obtain ⟨a1, a2, a3⟩ := gVal_bounds hp hq
    obtain ⟨b1, b2, b3⟩ := gVal_bounds hp hr
    rcases (Int.log_mono_right (b := 10) hq h).eq_or_lt with e | l
    · rw [a3, b3, e]
      have z : ∀ k : ℤ, (0 : ℚ) ≤ 10 ^ k := fun k => (zpow_pos (by norm_num) k).le
      refine mul_le_mul_of_nonneg_right ?_ (z _)
      exact_mod_cast rhe_mono (mul_nonneg hq.le (z _)) (mul_le_mul_of_nonneg_right h (z _))
    · exact a2.trans ((zpow_le_zpow_right₀ (by norm_num) (by omega)).trans b1)

/-- The printed chi-square never increases either. -/
theorem C94_printed {K : Type} [Field K] [LinearOrder K] {toler : K} {f : ℕ → Figs K} {n : ℕ} (C : Course toler f n) (S : Shw K) (r : K → ℚ)
    (h0 : ∀ x, 0 ≤ r x) (hr : Monotone r) (hS : ∀ x, S.chisq x = .num ⟨false, r x⟩) (k : ℕ) (hk : k < n) :
    ∃ a b : ℚ, rnd 6 (S.chisq (f k).chisq) = .num ⟨false, a⟩ ∧ rnd 6 (S.chisq (f (k + 1)).chisq) = .num ⟨false, b⟩ ∧ b ≤ a := by
  refine ⟨gVal 6 (r (f k).chisq), gVal 6 (r (f (k + 1)).chisq), by rw [hS]; rfl, by rw [hS]; rfl, gVal_mono (by norm_num) (h0 _) (hr (C.mono k hk))⟩

/-! ## Examples -/

/-- Rational numbers as they are; the square root of `rw` is left out. -/
def demoShw : Shw ℚ where
  par := fun x => .num ⟨decide (x < 0), |x|⟩
  chisq := fun x => .num ⟨decide (x < 0), |x|⟩
  red := fun x n => if n = 0 then .nan false else .num ⟨decide (x / n < 0), |x / n|⟩
  rw := fun x => .num ⟨decide (x < 0), |x|⟩

theorem demo_prints : Prints demoShw where
  chisq := fun x => abs_nonneg x
  red := by
    intro x n
    unfold demoShw
    dsimp only
    split_ifs
    · trivial
    · exact abs_nonneg _
  rw := fun x => abs_nonneg x

set_option maxRecDepth 4000 in
theorem demo_done : (refineLoop demoTheory (1/100000000) 101 ({}, demoEng 0)).2 = (.done, 5) := by decide +kernel

/-- The hypotheses hold for a refinement with four iterations. -/
example : ∃ f, Course (1 / 100000000) f 4 ∧
    readText (logText demoShw (loopMsgs demoTheory (fun _ => [(1, [1, 2])]) (1 / 100000000) 101 ({}, demoEng 0))) =
      some (readCourse demoShw [(1, [1, 2])] (1 / 100000000) f 4) ∧ (f 0).pars = [(1, 0)] := by
  obtain ⟨n, f, h1, h2, h3, h4, -⟩ := C94_read_partial demoShw demo_prints demoTheory (fun _ => [(1, [1, 2])]) (1 / 100000000) 101 {} (demoEng 0)
    (by decide) (by rw [demo_done])
  rw [demo_done] at h2
  obtain rfl : n = 4 := by simpa using h2.symm
  exact ⟨f, h1, h3, h4.trans (by decide +kernel)⟩

/-- Its first 11 lines. -/
example : (RText.lines (logText demoShw (stepMsgs demoTheory (fun _ => [(1, [1, 2])]) (1 / 100000000) {} (demoEng 0)))).take 11 =
    ["*******************".toList, "Starting refinement".toList, "*******************".toList, " Dataset: 1   Phase: 1  2  ".toList, [],
      "******************************** ITER: 0 ********************************".toList, [], " Refinement parameters :".toList,
      "   1:  0.000000  ".toList, [], " chisq.: 1   red.chisq.: nan   Rw: 0.25".toList] := by decide +kernel

/-- Five parameters, after a small improvement. -/
example : (RText.lines (logText demoShw [.iter 12 ⟨[(1, 1 / 2), (2, -3), (7, 1 / 3), (10, 12345 / 10), (1000, 3 / 10 ^ 7)], 123456789, 10, 1 / 8⟩ true])).drop 1 =
    ["******************************** ITER: 12 ********************************".toList, [], " Refinement parameters :".toList,
      "   1:  0.500000     2: -3.000000     7:  0.333333    10: 1234.500000".toList, "1000:  0.000000  ".toList, [],
      " chisq.: 1.23457e+08   red.chisq.: 1.23457e+07   Rw: 0.125    stagnating".toList] := by decide +kernel

/-- Two refinements that differ in a small parameter have the same messages, whereas their reports differ. -/
theorem C94_same : logText demoShw [.final ⟨[(1, 3 / 10 ^ 7)], 1, 10, 1 / 8⟩] = logText demoShw [.final ⟨[(1, 4 / 10 ^ 7)], 1, 10, 1 / 8⟩] ∧
    RText.text 6 (demoShw.par (3 / 10 ^ 7)) = "3e-07".toList ∧ RText.text 6 (demoShw.par (4 / 10 ^ 7)) = "4e-07".toList := by decide +kernel

example : shown ({ p := [5, 6, 7], ip := [true, false, true], id := [20, 3, 4] } : ParStore ℚ) = [(4, 7), (20, 5)] := by decide +kernel

end
end Pdffit.C94
