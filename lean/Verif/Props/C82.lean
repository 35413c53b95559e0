import Verif.Lemmas.ArithExact
import Verif.Lemmas.Binary
import Verif.Props.RefineDemo

/-!
# C82  The guarantees of a refinement hold in the arithmetic of the machine, not only in exact arithmetic

The other properties of a refinement are proved with exact numbers. Here the operations are rounded, or are any functions at all.
-/

namespace Pdffit.C82
open Arith
variable {F W : Type}

/-- `refine()` in the arithmetic `A`; it needs no more than 101 calls (`C82_terminates`). -/
def refineIn (A : Arith F) (th : Theory F W) (toler : F) (s : Statics F) (e : Eng F W) : (Statics F × Eng F W) × Outcome × ℕ :=
  Any.refineLoop th toler 101 (s, e)

/-- The weighted sum of squares of all data sets as the machine computes it. -/
def sumSquares (A : Arith F) (dss : List (List (Pt F))) : F :=
  dss.foldl (fun c l => A.add c (l.foldl (fun x p => A.madd x (A.mul (A.sub p.obs p.mod) (A.sub p.obs p.mod)) p.w) A.zero)) A.zero

/-- No refinement is running. -/
def Fresh (s : Statics F) (e : Eng F W) : Prop := ¬(s.fitRunning = true ∧ e.iter ≠ 0)

/-- **C82** With exact operations this is the machine of the other properties. -/
theorem C82_exact {K : Type} [Field K] [LinearOrder K] [IsStrictOrderedRing K] (th : Theory K W) (toler : K) (s : Statics K) (e : Eng K W) :
    refineIn (Arith.exact K) th toler s e = refineLoop th toler 101 (s, e) :=
  Any.refineLoop_exact th toler 101 (s, e)

/-- **C82** `refine()` ends after at most 101 calls, from every state and whatever the operations and comparisons give. No law is assumed. -/
theorem C82_terminates (A : Arith F) (th : Theory F W) (toler : F) (s : Statics F) (e : Eng F W) :
    (∀ fuel, 101 ≤ fuel → Any.refineLoop th toler fuel (s, e) = refineIn A th toler s e) ∧
    (refineIn A th toler s e).2.1 ≠ .more ∧ (refineIn A th toler s e).2.2 ≤ 101 := by
  have main : (refineIn A th toler s e).2.1 ≠ .more ∧ (refineIn A th toler s e).2.2 ≤ 101 := by
    by_cases h : (if s.fitRunning = true ∧ e.iter ≠ 0 then e.iter else 0) ≤ 100
    · obtain ⟨h1, h2⟩ := Any.refineLoop_spec th toler 101 s e _ rfl (by omega) h
      exact ⟨h1, by unfold refineIn; omega⟩
    · have hc := Any.refineStep_counters th toler s e
      unfold refineIn
      rw [Any.refineLoop]
      dsimp only
      rcases hr : Any.refineStep th toler s e with ⟨s1, e1, _ | _ | x | _⟩
      · rw [hr] at hc
        exact absurd (hc rfl).1 (by omega)
      all_goals simp
  refine ⟨fun fuel hf => ?_, main⟩
  obtain ⟨k, rfl⟩ := Nat.exists_eq_add_of_le hf
  exact Any.refineLoop_mono th toler 101 k (s, e) main.1

/-- **C82** A refinement that starts afresh finishes or raises: it never reaches undefined behaviour. -/
theorem C82_defined (A : Arith F) (hl : Any.Lawful F) (th : Theory F W) (toler : F) (s : Statics F) (e : Eng F W) (hf : Fresh s e) :
    (refineIn A th toler s e).2.1 = .done ∨ ∃ x, (refineIn A th toler s e).2.1 = .exc x := by
  have hne := (C82_terminates A th toler s e).2.1
  rcases Any.refineLoop_first th hl toler 100 s e hf with ⟨x, h, -⟩ | ⟨w0, w1, -, -, ⟨h, -⟩ | ⟨h, -⟩ | ⟨x, h, -⟩⟩
  · exact .inr ⟨x, h⟩
  · exact absurd h hne
  · exact .inl h
  · exact .inr ⟨x, h⟩

/-- **C82** `getpar` of a fixed parameter gives the same after the refinement, whether it finished or raised. -/
theorem C82_fixed (A : Arith F) (hl : Any.Lawful F) (th : Theory F W) (toler : F) (s : Statics F) (e : Eng F W) (hf : Fresh s e)
    (id i : ℕ) (hi : e.par.parfind id = some i) (hfix : e.par.ip.getD i false = false) :
    (refineIn A th toler s e).1.2.par.getpar id = e.par.getpar id := by
  have h : Any.SameFixed e.par (refineIn A th toler s e).1.2.par := by
    have hne := (C82_terminates A th toler s e).2.1
    rcases Any.refineLoop_first th hl toler 100 s e hf with ⟨x, -, h⟩ | ⟨w0, w1, -, -, ⟨h, -⟩ | ⟨-, -, h⟩ | ⟨x, -, h⟩⟩
    · exact h
    · exact absurd h hne
    · exact h.fix
    · exact h
  have hpf : (refineIn A th toler s e).1.2.par.parfind id = e.par.parfind id := by
    unfold ParStore.parfind; rw [h.id]
  unfold ParStore.getpar
  rw [hpf, hi]
  simp only [Res.at?]
  by_cases hlt : i < e.par.p.length
  · have hv := h.val i hlt hfix
    have hlt' : i < (refineIn A th toler s e).1.2.par.p.length := by rw [h.len]; exact hlt
    rw [List.getElem?_eq_getElem hlt, List.getElem?_eq_getElem hlt']
    simp only [List.getD_eq_getElem?_getD, List.getElem?_eq_getElem hlt, List.getElem?_eq_getElem hlt', Option.getD_some] at hv
    rw [hv]
  · have hlt' : ¬ i < (refineIn A th toler s e).1.2.par.p.length := by rw [h.len]; exact hlt
    rw [List.getElem?_eq_none (not_lt.1 hlt), List.getElem?_eq_none (not_lt.1 hlt')]

/-- **C82** A refinement that finishes: its first evaluation `w1` was at the start parameters; the sum of squares it stores is that of an evaluation
at the final parameters, and is the first sum or comes from it by steps each of which is less in the comparison of the machine; the state that is
left is an evaluation at the final parameters; the figure of merit is the stored sum over the norm of the data; and no refinement is running. -/
theorem C82_descends (A : Arith F) (hl : Any.Lawful F) (th : Theory F W) (toler : F) (s : Statics F) (e : Eng F W) (hf : Fresh s e)
    (hd : (refineIn A th toler s e).2.1 = .done) :
    let r := refineIn A th toler s e
    ∃ w0 w1, th.setup e.par e.world = (w0, none) ∧ th.eval e.par w0 = (w1, none) ∧
      Relation.ReflTransGen (fun a b => A.lt b a = true) (sumSquares A (th.pts w1)) r.1.2.chisq ∧
      (∃ w w', th.eval r.1.2.par w = (w', none) ∧ sumSquares A (th.pts w') = r.1.2.chisq) ∧
      (∃ w, th.eval r.1.2.par w = (r.1.2.world, none)) ∧
      (∃ w, r.1.2.rw2 = A.div r.1.2.chisq (Any.wnormOf (th.pts w))) ∧
      r.1.1.fitRunning = false := by
  intro r
  rcases Any.refineLoop_first th hl toler 100 s e hf with ⟨x, h, -⟩ | ⟨w0, w1, h0, h1, ⟨h, -⟩ | ⟨-, hs, h⟩ | ⟨x, h, -⟩⟩
  · exact absurd (hd.symm.trans h) (by simp)
  · exact absurd (hd.symm.trans h) (by simp)
  · exact ⟨w0, w1, h0, h1, h.down, h.seen, h.world, h.rw, hs⟩
  · exact absurd (hd.symm.trans h) (by simp)

/-- **C82** When `<` of the machine is transitive, the sum at the end is the one at the start or less. -/
theorem C82_not_worse (A : Arith F) (hl : Any.Lawful F) (ht : ∀ a b c : F, A.lt a b = true → A.lt b c = true → A.lt a c = true)
    (th : Theory F W) (toler : F) (s : Statics F) (e : Eng F W) (hf : Fresh s e) (hd : (refineIn A th toler s e).2.1 = .done) :
    ∃ w0 w1, th.setup e.par e.world = (w0, none) ∧ th.eval e.par w0 = (w1, none) ∧
      ((refineIn A th toler s e).1.2.chisq = sumSquares A (th.pts w1) ∨ A.lt (refineIn A th toler s e).1.2.chisq (sumSquares A (th.pts w1)) = true) := by
  obtain ⟨w0, w1, h0, h1, h2, -⟩ := C82_descends A hl th toler s e hf hd
  refine ⟨w0, w1, h0, h1, ?_⟩
  generalize (refineIn A th toler s e).1.2.chisq = c at h2 ⊢
  induction h2 with
  | refl => exact .inl rfl
  | tail _ hlt ih =>
    rcases ih with h | h
    · exact .inr (h ▸ hlt)
    · exact .inr (ht _ _ _ hlt h)

section Rounded
variable {K : Type} [Field K] [LinearOrder K] [IsStrictOrderedRing K]

/-- Arithmetic with rounding has the laws when rounding keeps positive numbers positive. -/
theorem C82_lawful_rounded (rnd : K → K) (hpos : ∀ x, 0 < x → 0 < rnd x) : @Any.Lawful K (Arith.rounded rnd) := by
  have ht : (0 : K) < rnd (1 / 10) := hpos _ (by positivity)
  have key : ∀ (l : List Bool) (x : K), 0 < x → 0 < l.foldl (fun x b => rnd (x * if b then rnd (1 / 10) else 10)) x := by
    intro l
    induction l with
    | nil => intro x hx; exact hx
    | cons b l ih =>
      intro x hx
      apply ih
      apply hpos
      cases b
      · exact mul_pos hx (by norm_num)
      · exact mul_pos hx ht
  refine @Any.Lawful.mk K (Arith.rounded rnd) (decide_eq_true (by norm_num : (-1 : K) < 0))
    (decide_eq_false (lt_irrefl (0 : K))) (decide_eq_true (rfl : (0 : K) = 0)) fun l _ => ?_
  have h := key l (rnd (1 / 1000)) (hpos _ (by positivity))
  exact ⟨decide_eq_false (not_lt.2 h.le), decide_eq_false h.ne'⟩

/-- **C82** With monotone rounding and a norm of the data that the model does not change, `rw` at the end is not above the one at the start. -/
theorem C82_rounded (rnd : K → K) (hpos : ∀ x, 0 < x → 0 < rnd x) (hmono : Monotone rnd) (th : Theory K W) (toler : K) (s : Statics K) (e : Eng K W)
    (hf : Fresh s e) (nrm : K) (hn : 0 < nrm) (hw : ∀ w, @Any.wnormOf K (Arith.rounded rnd) (th.pts w) = nrm)
    (hd : (refineIn (Arith.rounded rnd) th toler s e).2.1 = .done) :
    let r := refineIn (Arith.rounded rnd) th toler s e
    ∃ w0 w1, th.setup e.par e.world = (w0, none) ∧ th.eval e.par w0 = (w1, none) ∧
      r.1.2.chisq ≤ sumSquares (Arith.rounded rnd) (th.pts w1) ∧ r.1.2.rw2 ≤ rnd (sumSquares (Arith.rounded rnd) (th.pts w1) / nrm) := by
  intro r
  obtain ⟨w0, w1, h0, h1, h2, -, -, ⟨w, h3⟩, -⟩ := C82_descends (Arith.rounded rnd) (C82_lawful_rounded rnd hpos) th toler s e hf hd
  have hc : r.1.2.chisq ≤ sumSquares (Arith.rounded rnd) (th.pts w1) := by
    show (refineIn (Arith.rounded rnd) th toler s e).1.2.chisq ≤ _
    clear h3
    generalize (refineIn (Arith.rounded rnd) th toler s e).1.2.chisq = c at h2 ⊢
    induction h2 with
    | refl => exact le_refl _
    | tail _ hlt ih => exact (of_decide_eq_true hlt).le.trans ih
  refine ⟨w0, w1, h0, h1, hc, ?_⟩
  show (refineIn (Arith.rounded rnd) th toler s e).1.2.rw2 ≤ _
  rw [h3, hw]
  exact hmono (div_le_div_of_nonneg_right hc hn.le)

end Rounded

/-- **C82** Double arithmetic (53 bits, to nearest, ties to even) keeps positive numbers positive and is monotone, so that the above holds for it. -/
theorem C82_binary64 : (∀ x, 0 < x → 0 < Binary.rnd53 x) ∧ Monotone Binary.rnd53 ∧ (∀ x, |Binary.rnd53 x - x| ≤ |x| / 2 ^ 53) ∧
    @Any.Lawful ℚ Binary.binary64 :=
  ⟨fun _ => Binary.rnd53_pos, Binary.rnd53_mono, Binary.rnd53_err, C82_lawful_rounded _ fun _ => Binary.rnd53_pos⟩

/-- **C82** The rounding is that of IEEE 754 for doubles without limits of the exponent: the result is a number with 53 bits, no other one is nearer, and of
two equally near ones it is the one whose last bit is zero. -/
theorem C82_nearest (x : ℚ) :
    (∀ m e : ℤ, |m| ≤ 2 ^ 53 → |Binary.rnd53 x - x| ≤ |m * (2 : ℚ) ^ e - x|) ∧
    (x ≠ 0 → ∃ m e : ℤ, Binary.rnd53 x = m * (2 : ℚ) ^ e ∧ 2 ^ 52 ≤ |m| ∧ |m| ≤ 2 ^ 53 ∧ (|Binary.rnd53 x - x| = (2 : ℚ) ^ e / 2 → Even m)) := by
  refine ⟨fun m e hm => Binary.rnd53_best x ⟨m, e, hm, by rw [Binary.pow2_eq]⟩, fun hx => ?_⟩
  obtain ⟨m, e, h⟩ := Binary.rnd53_form x hx
  rw [Binary.pow2_eq] at h
  exact ⟨m, e, h⟩

/-- A tie: `2^53 + 1` and `2^53 + 3` lie in the middle of two doubles. -/
example : Binary.rnd53 (2 ^ 53 + 1) = 2 ^ 53 ∧ Binary.rnd53 (2 ^ 53 + 3) = 2 ^ 53 + 4 := by decide +kernel

set_option maxRecDepth 4000 in
/-- Non-trivial case: a refinement with rounding at every step. -/
example : (refineIn Binary.binary64 demoTheory (1 / 100000000) {} (demoEng 0)).2 = (.done, 5) := by decide +kernel

/-- Doubles with overflow and NaN: the loop ends. -/
example (th : Theory Float W) (toler : Float) (s : Statics Float) (e : Eng Float W) :
    (refineIn Arith.float th toler s e).2.2 ≤ 101 := (C82_terminates Arith.float th toler s e).2.2

end Pdffit.C82
