import Verif.Lemmas.NanLift
import Verif.Model.DataRead
import Mathlib.Tactic.FinCases

/-!
# C81: NaN in a refinement

A NaN among the data or in the calculated curve must not go unnoticed: `refine()` should raise, and leave the parameters as they were.

The machine of `Model/Nan.lean` is that of `Model/Refine.lean` when all numbers are numbers (`C81_same`). Whatever is NaN, a refinement ends
(`C81_terminates`), and a trial is adopted only if its sum of squares is a number (`C81_adopts`). A NaN uncertainty, or a NaN derivative
(which spoils the derivatives with respect to all parameters, `C81_row`), makes `refine()` raise and keep the parameters (`C81_raises_partial`).
With a NaN observed value it raises or ends with the parameters unchanged and NaN as `getrw()` (`C81_never_moves`). The claim fails
there: if the weights and derivatives determine the parameters it returns normally after all 100 iterations (`C81_silent`, `C81_silent_witness`).
Grids with NaN are accepted (`C81_grid`).
-/

namespace Pdffit.C81
open Nan Nan.Nm
set_option linter.unusedSectionVars false
variable {K W : Type} [Field K] [LinearOrder K]

/-- **C81** With numbers only the machine is the one of the other properties. -/
theorem C81_same [IsStrictOrderedRing K] {th : Theory K W} {thN : Theory (Nm K) W} (h : Same th thN) (toler : K) (n : ℕ) (s : Statics K) (e : Eng K W) :
    Nan.refineLoop thN (num toler) n (liftS s, liftE e) =
      ((liftS (Pdffit.refineLoop th toler n (s, e)).1.1, liftE (Pdffit.refineLoop th toler n (s, e)).1.2), (Pdffit.refineLoop th toler n (s, e)).2) :=
  refineLoop_lift h toler n s e

/-- **C81** A refinement ends after at most 101 calls of `refine_step`, whatever is NaN. -/
theorem C81_terminates (th : Theory (Nm K) W) (toler : Nm K) (s : Statics (Nm K)) (e : Eng (Nm K) W) (h : ¬(s.fitRunning = true ∧ e.iter ≠ 0)) :
    (Nan.refineLoop th toler 101 (s, e)).2.1 ≠ .more ∧ (Nan.refineLoop th toler 101 (s, e)).2.2 ≤ 101 := by
  have := Nan.refineLoop_spec th toler 101 s e 0 (by rw [if_neg h]) (by omega) (by omega)
  exact ⟨this.1, by omega⟩

/-- The parameters `par` have been evaluated, and the sum of squares was a number. -/
def Seen (th : Theory (Nm K) W) (par : ParStore (Nm K)) : Prop := ∃ w w' x, th.eval par w = (w', none) ∧ chi2 (th.pts w') = num x

theorem mrqmin_seen (th : Theory (Nm K) W) (old) (e : Eng (Nm K) W) (h : (Nan.mrqmin th old e).2.2 = .more) :
    (Nan.mrqmin th old e).2.1.par = e.par ∨ Seen th (Nan.mrqmin th old e).2.1.par := by
  have key : ∀ wk (e1 : Eng (Nm K) W), (Nan.mrqTry th wk e1).2.2 = .more →
      (Nan.mrqTry th wk e1).2.1.par = e1.par ∨ Seen th (Nan.mrqTry th wk e1).2.1.par := by
    intro wk e1 h
    rcases Nan.mrqTry_kept th wk e1 h with h1 | ⟨w, x, y, h1, h2, -⟩
    · exact .inl h1
    · exact .inr ⟨w, _, x, h1, h2⟩
  revert h
  unfold Nan.mrqmin
  split
  · split
    · simp
    · rename_i wk e1 heq
      have hp : e1.par = e.par := by
        unfold Nan.mrqInit at heq
        dsimp only at heq
        split at heq
        · cases heq
        · rename_i e2 al be hm
          cases heq
          exact (Nan.mrqcof_ok _ _ _ _ _ hm).1.trans (Nan.setP_self { e with alambda := num (1 / 1000) })
      rw [← hp]
      exact key wk e1
  · split
    · simp
    · split
      · exact key _ e
      · simp

theorem refineStep_seen (th : Theory (Nm K) W) (toler : Nm K) (s : Statics (Nm K)) (e : Eng (Nm K) W)
    (h : (Nan.refineStep th toler s e).2.2 = .more ∨ (Nan.refineStep th toler s e).2.2 = .done) :
    (Nan.refineStep th toler s e).2.1.par = e.par ∨ Seen th (Nan.refineStep th toler s e).2.1.par := by
  have key : ∀ work (e : Eng (Nm K) W), (Nan.refineBody th toler work e).2.2 = .more ∨ (Nan.refineBody th toler work e).2.2 = .done →
      (Nan.refineBody th toler work e).2.1.par = e.par ∨ Seen th (Nan.refineBody th toler work e).2.1.par := by
    intro work e
    unfold Nan.refineBody
    split
    · have hm := mrqmin_seen th work { e with ochisq := e.chisq }
      have hd := Nan.mrqmin_ne_done th work { e with ochisq := e.chisq }
      split
      · rename_i wk e1 heq
        rw [heq] at hm
        exact fun _ => hm rfl
      · rename_i wk e1 o hne heq
        rw [heq] at hd
        rintro (h | h)
        · exact absurd h hne
        · exact absurd h hd
    · have hm := mrqmin_seen th work { e with alambda := 0 }
      have hd := Nan.mrqmin_ne_done th work { e with alambda := 0 }
      split
      · rename_i wk e1 heq
        rw [heq] at hm
        dsimp only
        split
        · simp
        · exact fun _ => hm rfl
      · rename_i wk e1 o hne heq
        rw [heq] at hd
        rintro (h | h)
        · exact absurd h hne
        · exact absurd h hd
  revert h
  unfold Nan.refineStep
  split
  · exact key s.work e
  · dsimp only
    split
    · simp
    · rename_i w heq
      exact key s.work { e with iter := 0, alambda := num (-1), stagnating := 0, chisq := th.dmax, world := w }

/-- **C81** When a refinement returns, its parameters are those it began with, or values for which the sum of squares was a number. -/
theorem C81_adopts (th : Theory (Nm K) W) (toler : Nm K) : ∀ (n : ℕ) (s : Statics (Nm K)) (e : Eng (Nm K) W),
    (Nan.refineLoop th toler n (s, e)).2.1 = .done →
    (Nan.refineLoop th toler n (s, e)).1.2.par = e.par ∨ Seen th (Nan.refineLoop th toler n (s, e)).1.2.par := by
  intro n
  induction n with
  | zero => intro s e h; simp [Nan.refineLoop] at h
  | succ n ih =>
    intro s e
    rw [Nan.refineLoop.eq_def]
    dsimp only
    have h1 := refineStep_seen th toler s e
    rcases hr : Nan.refineStep th toler s e with ⟨s1, e1, _ | _ | x | _⟩
    · rw [hr] at h1
      intro h
      rcases ih s1 e1 h with h2 | h2
      · rcases h1 (.inl rfl) with h3 | h3
        · exact .inl (h2.trans h3)
        · exact .inr (by dsimp only; rw [h2]; exact h3)
      · exact .inr h2
    · rw [hr] at h1
      exact fun _ => h1 (.inr rfl)
    · simp
    · simp

/-- **C81** The derivatives with respect to the parameters are the product of those with respect to the variables and the derivatives of
the constraints: one NaN makes all of them NaN. -/
theorem C81_row (a b : Mat (Nm K)) (ha : a.WF) (hb : b.WF) (hc : a.cols = b.rows) :
    ∃ c, Mat.mul a b = .ok c ∧ c.rows = a.rows ∧ c.cols = b.cols ∧
      ∀ i k, i < a.rows → k < a.cols → a.get i k = .ok nan → ∀ j, j < b.cols → c.get i j = .ok nan := by
  obtain ⟨c, h1, h2, h3, -, h4⟩ := mul_nan_row a b ha hb hc
  exact ⟨c, h1, h2, h3, h4⟩

/-- **C81** If a weight at a fitted point is NaN, or its derivatives with respect to all free parameters are, `refine()` raises
calculationError in its first call of `refine_step`, and the parameters are as before.

Missing: the same for an observed value, see `C81_silent`. -/
theorem C81_raises_partial [IsStrictOrderedRing K] (th : Theory (Nm K) W) (toler : Nm K) (s : Statics (Nm K)) (e : Eng (Nm K) W)
    (hfresh : ¬(s.fitRunning = true ∧ e.iter ≠ 0)) (w0 w : W) (h0 : th.setup e.par e.world = (w0, none)) (h : th.eval e.par w0 = (w, none))
    (hfree : ∃ l, l < e.par.p.length ∧ e.par.ip.getD l false = true)
    (hbad : ∃ pt ∈ (th.pts w).flatten, pt.w = nan ∨ ∀ l, l < e.par.p.length → e.par.ip.getD l false = true → pt.d l = nan) (n : ℕ) :
    (Nan.refineLoop th toler (n + 1) (s, e)).2 = (.exc .calculation, 1) ∧ (Nan.refineLoop th toler (n + 1) (s, e)).1.2.par = e.par := by
  obtain ⟨l, hl, hf⟩ := hfree
  obtain ⟨h1, h2⟩ := refineStep_spoiled th toler s e hfresh w0 w h0 h (by
    have := nfree_lt (Nan.ia e) (m := Nan.ma e) hl hf
    omega) hbad (by norm_num)
  rw [Nan.refineLoop.eq_def]
  dsimp only
  rcases hr : Nan.refineStep th toler s e with ⟨s1, e1, o⟩
  rw [hr] at h1 h2
  dsimp only at h1 h2
  subst h1
  exact ⟨rfl, h2⟩

/-- Evaluations with any values of the parameters succeed, and there is a fitted point whose observed value is NaN. -/
structure NanData (th : Theory (Nm K) W) (R : W → Prop) (par : ParStore (Nm K)) : Prop where
  ok : ∀ p w, R w → (th.eval { par with p := p } w).2 = none
  stay : ∀ p w, R w → R (th.eval { par with p := p } w).1
  obs : ∀ p w, R w → ∃ pt ∈ (th.pts (th.eval { par with p := p } w).1).flatten, pt.obs = nan

theorem chi2_nan (dss : List (List (Pt (Nm K)))) (h : ∃ pt ∈ dss.flatten, pt.obs = nan) : chi2 dss = nan := by
  obtain ⟨pt, h1, h2⟩ := h
  exact (Nan.mrqAcc_chisq (fun _ => false) 0 dss (fun _ _ => 0) (fun _ => 0)).symm.trans
    (Nan.mrqAcc_chisq_nan _ _ _ _ _ ⟨pt, h1, by unfold Nan.contrib; rw [h2]; simp⟩)

theorem NanData.stuck {th : Theory (Nm K) W} {R : W → Prop} {par : ParStore (Nm K)} (h : NanData th R par) : Stuck th R par :=
  ⟨h.ok, h.stay, fun p w hR => chi2_nan _ (h.obs p w hR)⟩

/-- **C81** With a NaN observed value `refine()` raises calculationError or returns with NaN as residual; the parameters are as before. -/
theorem C81_never_moves [IsStrictOrderedRing K] (th : Theory (Nm K) W) (toler : Nm K) (s : Statics (Nm K)) (e : Eng (Nm K) W)
    (hfresh : ¬(s.fitRunning = true ∧ e.iter ≠ 0)) (R : W → Prop) (w0 : W) (h0 : th.setup e.par e.world = (w0, none)) (hR : R w0)
    (hn : NanData th R e.par) :
    ((Nan.refineLoop th toler 101 (s, e)).2.1 = .exc .calculation ∨
      ((Nan.refineLoop th toler 101 (s, e)).2.1 = .done ∧ (Nan.refineLoop th toler 101 (s, e)).1.2.rw2 = nan)) ∧
    (Nan.refineLoop th toler 101 (s, e)).1.2.par = e.par := by
  obtain ⟨h1, h2⟩ := refine_weak th toler s e hfresh R w0 h0 hR hn.stuck 100
  refine ⟨?_, h2⟩
  rcases h1 with h1 | h1
  · exact absurd h1 (C81_terminates th toler s e hfresh).1
  · exact h1

/-- **C81** (violated) With a NaN observed value, and weights and derivatives that are numbers and determine the free parameters, `refine()` calls
`refine_step` 101 times and returns normally. -/
theorem C81_silent [IsStrictOrderedRing K] (th : Theory (Nm K) W) (toler : Nm K) (s : Statics (Nm K)) (e : Eng (Nm K) W)
    (hfresh : ¬(s.fitRunning = true ∧ e.iter ≠ 0)) (R : W → Prop) (w0 w : W) (h0 : th.setup e.par e.world = (w0, none)) (hR : R w0)
    (hn : NanData th R e.par) (h : th.eval e.par w0 = (w, none)) (p0 : ParStore K) (hp : e.par = liftPar p0)
    (qs : List (List (Pt K))) (hq : SameWD (th.pts w).flatten qs.flatten) (hd : Determined p0 qs) :
    (Nan.refineLoop th toler 101 (s, e)).2 = (.done, 101) ∧ (Nan.refineLoop th toler 101 (s, e)).1.2.par = e.par ∧
      (Nan.refineLoop th toler 101 (s, e)).1.2.rw2 = nan := by
  let ia := Nan.ia e
  let ma := Nan.ma e
  let A := (Pdffit.mrqAcc ia ma qs (fun _ _ => 0) (fun _ => 0)).1
  have hia : ia = fun l => p0.ip.getD l false := by show (fun l => e.par.ip.getD l false) = _; rw [hp]; rfl
  have hma : ma = p0.p.length := by show e.par.p.length = _; rw [hp]; simp [liftPar]
  have hA : Regular (nfree ia ma) A := by
    intro l hl
    let er : Eng K Unit := ⟨p0, (), 0, 0, l, 0, 0, A, fun _ _ => 0, [], 0⟩
    have h1 : er.ia = ia := hia.symm
    have h2 : er.ma = ma := hma.symm
    have := augmented_det_pts er (nfree ia ma) (by rw [h1, h2]) qs (Pdffit.mrqAcc ia ma qs (fun _ _ => 0) (fun _ => 0)).2.1
      ⟨fun l m hl hm fl fm => by
        rw [h1, h2] at *
        exact Pdffit.mrqAcc_alpha ia ma qs _ _ l m hl hm fl fm, fun l hl fl => by
        rw [h1, h2] at *
        exact Pdffit.mrqAcc_beta ia ma qs _ _ l hl fl⟩ hd hl
    exact this
  have hobs : ∃ pt ∈ (th.pts w).flatten, pt.obs = nan := by
    have := hn.obs e.par.p w0 hR
    rw [show th.eval { e.par with p := e.par.p } w0 = (w, none) from h] at this
    exact this
  obtain ⟨r, h1, h2, h3⟩ := refine_stuck th toler s e hfresh R w0 w h0 hR hn.stuck h A hA (by
    intro al be j k hj hk
    obtain ⟨l, hl, fl, rfl⟩ := nfree_surj (Nan.ia e) hj
    obtain ⟨m, hm, fm, rfl⟩ := nfree_surj (Nan.ia e) hk
    rw [mrqAcc_alpha_num (Nan.ia e) (Nan.ma e) (th.pts w) qs al be hq l m hl hm fl fm]
    congr 1
    exact (Pdffit.mrqAcc_alpha ia ma qs _ _ l m hl hm fl fm).symm) (by
    intro al be j hj
    exact mrqAcc_beta_nan (Nan.ia e) (Nan.ma e) (th.pts w) al be hobs j hj)
  rw [h1]
  exact ⟨rfl, h2, h3⟩

/-- A scale factor is refined; the first of two observed values is NaN. The world is the calculated curve. -/
def demo : Theory (Nm ℚ) (Nm ℚ) where
  setup _ w := (w, none)
  eval p _ := (p.p.getD 0 0, none)
  pts w := [[⟨1, nan, w, fun _ => 1⟩, ⟨1, num 5, num 2 * w, fun _ => num 2⟩]]
  dmax := num 1000

/-- **C81** (violated) A scale factor is to be refined from 3; one observed value is NaN and another is a number. `refine()` returns normally after
101 calls of `refine_step`; the scale factor is 3 and `getrw()` NaN. -/
theorem C81_silent_witness :
    let e : Eng (Nm ℚ) (Nm ℚ) := ⟨⟨[num 3], [true], [1]⟩, 0, 0, 0, 0, 0, 0, fun _ _ => 0, fun _ _ => 0, [], 0⟩
    (Nan.refineLoop demo (num (1 / 100000000)) 101 ({}, e)).2 = (.done, 101) ∧
    (Nan.refineLoop demo (num (1 / 100000000)) 101 ({}, e)).1.2.par.p = [num 3] ∧
    (Nan.refineLoop demo (num (1 / 100000000)) 101 ({}, e)).1.2.rw2 = nan := by
  intro e
  have h := C81_silent demo (num (1 / 100000000)) {} e (by simp) (fun _ => True) 0 (num 3) rfl trivial
    ⟨fun _ _ _ => rfl, fun _ _ _ => trivial, fun _ _ _ => ⟨_, List.mem_cons_self .., rfl⟩⟩ rfl ⟨[3], [true], [1]⟩ rfl
    [[⟨1, 0, 3, fun _ => 1⟩, ⟨1, 5, 6, fun _ => 2⟩]]
    (List.Forall₂.cons ⟨rfl, fun _ => rfl⟩ (List.Forall₂.cons ⟨rfl, fun _ => rfl⟩ List.Forall₂.nil))
    ⟨by simp, by
      intro y hy i hi hf
      have := hy ⟨1, 0, 3, fun _ => 1⟩ (by simp) (by simp)
      have hi : i = 0 := by simp at hi; omega
      subst hi
      simpa [Finset.sum_filter] using this⟩
  exact ⟨h.1, by rw [h.2.1], h.2.2⟩

/-- The same theory when all numbers are numbers; a NaN parameter is taken as 0. -/
def ofNum (th : Theory K W) : Theory (Nm K) W :=
  let val : Nm K → K := fun x => match x with | num x => x | nan => 0
  let par : ParStore (Nm K) → ParStore K := fun p => ⟨p.p.map val, p.ip, p.id⟩
  ⟨fun p w => th.setup (par p) w, fun p w => th.eval (par p) w, fun w => (th.pts w).map (List.map liftPt), num th.dmax⟩

/-- Every theory has one with NaN as in `C81_same`. -/
theorem same_ofNum (th : Theory K W) : Same th (ofNum th) := by
  have h : ∀ p : ParStore K, (⟨(liftPar p).p.map (fun x => match x with | num x => x | nan => 0), p.ip, p.id⟩ : ParStore K) = p := by
    intro p
    obtain ⟨l, ip, id⟩ := p
    unfold liftPar
    dsimp only
    rw [List.map_map]
    congr 1
    exact List.map_id' l
  refine ⟨fun p w => ?_, fun p w => ?_, fun w => rfl, rfl⟩
  · show th.setup _ w = _
    exact congrArg (fun q => th.setup q w) (h p)
  · show th.eval _ w = _
    exact congrArg (fun q => th.eval q w) (h p)

/-- The weight of the first point is NaN. -/
example : let th : Theory (Nm ℚ) (Nm ℚ) := { demo with pts := fun w => [[⟨nan, num 1, w, fun _ => 1⟩, ⟨1, num 5, num 2 * w, fun _ => num 2⟩]] }
    let e : Eng (Nm ℚ) (Nm ℚ) := ⟨⟨[num 3], [true], [1]⟩, 0, 0, 0, 0, 0, 0, fun _ _ => 0, fun _ _ => 0, [], 0⟩
    (Nan.refineLoop th (num (1 / 100000000)) 101 ({}, e)).2 = (.exc .calculation, 1) ∧
    (Nan.refineLoop th (num (1 / 100000000)) 101 ({}, e)).1.2.par.p = [num 3] := by
  intro th e
  have h := C81_raises_partial th (num (1 / 100000000)) {} e (by simp) 0 (num 3) rfl rfl ⟨0, by simp [e], rfl⟩
    ⟨_, List.mem_cons_self .., .inl rfl⟩ 100
  exact ⟨h.1, by rw [h.2]⟩

/-- Two variables depend on one parameter each; the derivative with respect to the second variable is NaN. -/
example : Mat.mul (⟨1, 2, [num 1, nan]⟩ : Mat (Nm ℚ)) ⟨2, 2, [num 1, num 0, num 0, num 1]⟩ = .ok ⟨1, 2, [nan, nan]⟩ := rfl

/-! ## Grids -/

theorem steps_num : ∀ l : List K, Nan.steps (l.map num) = (DataRead.steps l).map num
  | [] => rfl
  | [_] => rfl
  | a :: b :: l => by
    show (num b - num a) :: Nan.steps ((b :: l).map num) = _
    rw [steps_num (b :: l)]
    rfl

/-- On numbers the check of the spacing is that of C34. -/
theorem C81_grid_same [IsStrictOrderedRing K] (l : List K) : Nan.isRegular (l.map num) = DataRead.isRegular l := by
  unfold Nan.isRegular DataRead.isRegular
  rw [List.length_map]
  split_ifs with h
  · rfl
  · rw [steps_num, List.all_map, List.getLast?_map, List.head?_map]
    obtain ⟨a, l', rfl⟩ : ∃ a l', l = a :: l' := by
      cases l with
      | nil => simp at h
      | cons a l' => exact ⟨a, l', rfl⟩
    congr 1
    funext d
    rw [List.getLast?_cons, List.head?_cons]
    simp only [Function.comp, Option.map_some, Option.getD_some, num_sub, num_div, fabs_num, num_lt, not_lt]
    unfold DataRead.meanStep DataRead.tol
    rw [List.getLast?_cons, List.head?_cons]
    rfl

/-- **C81** (violated) Grids with NaN pass the check of the spacing in `read_data_lists`: every grid of at least two points whose first value is NaN,
and 1, NaN, 3, which becomes 1, 2, 3. -/
theorem C81_grid [IsStrictOrderedRing K] :
    (∀ l : List (Nm K), Nan.isRegular (nan :: l) = true) ∧ Nan.isRegular [(num 1 : Nm K), nan, num 3] = true := by
  constructor
  · intro l
    unfold Nan.isRegular
    split_ifs
    · rfl
    · simp
  · unfold Nan.isRegular
    rw [if_neg (by simp)]
    simp [Nan.steps]

end Pdffit.C81
