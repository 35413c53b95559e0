import Verif.Lemmas.NanLsq

/-! The refinement with NaN. -/

namespace Pdffit.Nan
open Nm
set_option linter.unusedSectionVars false
variable {K W : Type} [Field K] [LinearOrder K]

/-- What `mrqmin` never touches. -/
structure Frame (e e' : Eng (Nm K) W) : Prop where
  iter : e'.iter = e.iter
  stag : e'.stagnating = e.stagnating
  och : e'.ochisq = e.ochisq
  ip : e'.par.ip = e.par.ip
  id : e'.par.id = e.par.id
  len : e'.par.p.length = e.par.p.length

theorem Frame.refl (e : Eng (Nm K) W) : Frame e e := ⟨rfl, rfl, rfl, rfl, rfl, rfl⟩

theorem Frame.trans {e e' e'' : Eng (Nm K) W} (h : Frame e e') (h' : Frame e' e'') : Frame e e'' :=
  ⟨h'.iter.trans h.iter, h'.stag.trans h.stag, h'.och.trans h.och, h'.ip.trans h.ip, h'.id.trans h.id, h'.len.trans h.len⟩

theorem Frame.setP (e : Eng (Nm K) W) (a) : Frame e (setP e a) := by
  refine ⟨rfl, rfl, rfl, rfl, rfl, ?_⟩
  simp [Nan.setP, Nan.ma]

theorem Frame.ia {e e' : Eng (Nm K) W} (h : Frame e e') : ia e' = ia e := by
  unfold Nan.ia; rw [h.ip]

theorem Frame.ma {e e' : Eng (Nm K) W} (h : Frame e e') : ma e' = ma e := h.len

theorem setP_self (e : Eng (Nm K) W) : (setP e (arr e)).par = e.par := by
  have h : (List.range e.par.p.length).map (fun l => e.par.p.getD l 0) = e.par.p := by
    apply List.ext_getElem
    · simp
    · intro i h1 h2
      simp [h2]
  show ({ e.par with p := (List.range e.par.p.length).map (fun l => e.par.p.getD l 0) } : ParStore (Nm K)) = e.par
  rw [h]

theorem setP_back {e e1 : Eng (Nm K) W} (h : Frame e e1) : (setP e1 (arr e)).par = e.par := by
  rw [← setP_self e]
  show ({ e1.par with p := (List.range (Nan.ma e1)).map (arr e) } : ParStore (Nm K)) = { e.par with p := (List.range (Nan.ma e)).map (arr e) }
  rw [h.ma]
  obtain ⟨_, _, _, h1, h2, _⟩ := h
  cases h3 : e1.par; cases h4 : e.par
  rw [h3, h4] at h1 h2
  dsimp only at h1 h2
  subst h1 h2
  rfl

theorem setP_again (e e1 : Eng (Nm K) W) (a) (h : e1.par = (setP e a).par) : (setP e1 a).par = e1.par := by
  have hm : ma e1 = ma e := by unfold Nan.ma; rw [h]; exact (Frame.setP e a).len
  show ({ e1.par with p := (List.range (Nan.ma e1)).map a } : ParStore (Nm K)) = e1.par
  rw [hm, h]
  rfl

theorem mrqcof_frame (th : Theory (Nm K) W) (e : Eng (Nm K) W) (a al be) : Frame e (mrqcof th e a al be).1 := by
  unfold mrqcof
  have h := Frame.setP e a
  dsimp only
  split
  · exact ⟨h.iter, h.stag, h.och, h.ip, h.id, h.len⟩
  · exact ⟨h.iter, h.stag, h.och, h.ip, h.id, h.len⟩

theorem mrqInit_frame (th : Theory (Nm K) W) (old) (e : Eng (Nm K) W) : Frame e (mrqInit th old e).2.1 := by
  unfold mrqInit
  have h := mrqcof_frame th { e with alambda := num (1 / 1000) } (arr { e with alambda := num (1 / 1000) }) e.alpha (fun _ => 0)
  dsimp only
  split
  · rename_i e2 x heq
    rw [heq] at h
    exact ⟨h.iter, h.stag, h.och, h.ip, h.id, h.len⟩
  · rename_i e2 al be heq
    rw [heq] at h
    exact ⟨h.iter, h.stag, h.och, h.ip, h.id, h.len⟩

theorem mrqTry_frame (th : Theory (Nm K) W) (wk) (e : Eng (Nm K) W) : Frame e (mrqTry th wk e).2.1 := by
  unfold mrqTry
  split
  · exact Frame.refl e
  · exact Frame.refl e
  · rename_i cov da hs
    split
    · split
      · exact ⟨rfl, rfl, rfl, rfl, rfl, rfl⟩
      · exact Frame.refl e
    · dsimp only
      have h := mrqcof_frame th { e with covar := cov }
        (fun l => if l < ma e ∧ ia e l = true then arr e l + da (nfree (ia e) l) else wk.atry l) cov da
      split
      · rename_i e1 x heq
        rw [heq] at h
        exact ⟨h.iter, h.stag, h.och, h.ip, h.id, h.len⟩
      · rename_i e1 cov1 da1 heq
        rw [heq] at h
        split
        · have h2 := Frame.setP { e1 with covar := cov1 } (fun l => if l < ma e ∧ ia e l = true then arr e l + da (nfree (ia e) l) else wk.atry l)
          exact ⟨h.iter, h.stag, h.och, h.ip, h.id, h2.len.trans h.len⟩
        · have h2 := Frame.setP { e1 with covar := cov1 } (arr e)
          exact ⟨h.iter, h.stag, h.och, h.ip, h.id, h2.len.trans h.len⟩

theorem mrqmin_frame (th : Theory (Nm K) W) (old) (e : Eng (Nm K) W) : Frame e (mrqmin th old e).2.1 := by
  unfold mrqmin
  split
  · have h := mrqInit_frame th old e
    split
    · rename_i heq; rw [heq] at h; exact h
    · rename_i wk e1 heq
      rw [heq] at h
      exact h.trans (mrqTry_frame th wk e1)
  · split
    · exact Frame.refl e
    · split
      · exact mrqTry_frame th _ e
      · exact Frame.refl e

theorem mrqTry_ne_done (th : Theory (Nm K) W) (wk) (e : Eng (Nm K) W) : (mrqTry th wk e).2.2 ≠ .done := by
  unfold mrqTry
  split
  · simp
  · simp
  · split
    · split <;> simp
    · dsimp only
      split
      · simp
      · split <;> simp

theorem mrqmin_ne_done (th : Theory (Nm K) W) (old) (e : Eng (Nm K) W) : (mrqmin th old e).2.2 ≠ .done := by
  unfold mrqmin
  split
  · split
    · simp
    · exact mrqTry_ne_done _ _ _
  · split
    · simp
    · split
      · exact mrqTry_ne_done _ _ _
      · simp

/-! ## Number of calls -/

theorem refineBody_counters (th : Theory (Nm K) W) (toler : Nm K) (work) (e : Eng (Nm K) W) :
    (refineBody th toler work e).2.2 = .more → e.iter < 100 ∧ (refineBody th toler work e).1.fitRunning = true ∧
      (refineBody th toler work e).2.1.iter = e.iter + 1 := by
  unfold refineBody
  split
  · rename_i hc
    have h := mrqmin_frame th work { e with ochisq := e.chisq }
    split
    · rename_i wk e1 heq
      rw [heq] at h
      have hi : e1.iter = e.iter := h.iter
      exact fun _ => ⟨by omega, rfl, by dsimp only; rw [hi]⟩
    · rename_i wk e1 o hne heq
      exact fun h' => absurd h' hne
  · split
    · dsimp only
      split <;> simp
    · rename_i wk e1 o hne heq
      exact fun h' => absurd h' hne

theorem refineStep_counters (th : Theory (Nm K) W) (toler : Nm K) (s : Statics (Nm K)) (e : Eng (Nm K) W) (it : ℕ)
    (hit : it = if s.fitRunning = true ∧ e.iter ≠ 0 then e.iter else 0) :
    (refineStep th toler s e).2.2 = .more → it < 100 ∧ (refineStep th toler s e).1.fitRunning = true ∧
      (refineStep th toler s e).2.1.iter = it + 1 := by
  subst hit
  unfold refineStep
  split
  · exact refineBody_counters th toler s.work e
  · dsimp only
    split
    · simp
    · rename_i w heq
      exact refineBody_counters th toler s.work { e with iter := 0, alambda := num (-1), stagnating := 0, chisq := th.dmax, world := w }

theorem refineLoop_spec (th : Theory (Nm K) W) (toler : Nm K) (n : ℕ) : ∀ (s : Statics (Nm K)) (e : Eng (Nm K) W) (it : ℕ),
    it = (if s.fitRunning = true ∧ e.iter ≠ 0 then e.iter else 0) → 101 ≤ n + it → it ≤ 100 →
    (refineLoop th toler n (s, e)).2.1 ≠ .more ∧ (refineLoop th toler n (s, e)).2.2 + it ≤ 101 := by
  induction n with
  | zero => intro s e it _ h1 h2; omega
  | succ n ih =>
    intro s e it hit h1 h2
    have hc := refineStep_counters th toler s e it hit
    rw [refineLoop.eq_def th toler (n+1)]
    dsimp only
    generalize hr : refineStep th toler s e = r at hc ⊢
    obtain ⟨s1, e1, o⟩ := r
    cases o with
    | more =>
      dsimp only at hc ⊢
      obtain ⟨g1, g2, g3⟩ := hc rfl
      have hrun : s1.fitRunning = true ∧ e1.iter ≠ 0 := ⟨g2, by omega⟩
      obtain ⟨a1, a2⟩ := ih s1 e1 (it+1) (by rw [if_pos hrun]; omega) (by omega) (by omega)
      exact ⟨a1, by omega⟩
    | done => exact ⟨by simp, by simp; omega⟩
    | exc x => exact ⟨by simp, by simp; omega⟩
    | corrupt => exact ⟨by simp, by simp; omega⟩

/-! ## Trials -/

/-- The sum of weighted squares of the points, as `mrqcof` adds them. -/
def chi2 (dss : List (List (Pt (Nm K)))) : Nm K := dss.foldl (fun c l => c + l.foldl (fun x p => x + contrib p) 0) 0

theorem mrqcof_ok (th : Theory (Nm K) W) (e : Eng (Nm K) W) (a al be) {e1 r} (h : mrqcof th e a al be = (e1, .ok r)) :
    e1.par = (setP e a).par ∧ th.eval e1.par e.world = (e1.world, none) ∧ e1.chisq = chi2 (th.pts e1.world) ∧ e1.alambda = e.alambda ∧
      e1.alpha = e.alpha := by
  unfold mrqcof at h
  dsimp only at h
  split at h
  · cases h
  · rename_i w heq
    cases h
    exact ⟨rfl, heq, mrqAcc_chisq (ia (setP e a)) (ma (setP e a)) (th.pts w) al be, rfl, rfl⟩

theorem mrqTry_kept (th : Theory (Nm K) W) (wk) (e : Eng (Nm K) W) (h : (mrqTry th wk e).2.2 = .more) :
    (mrqTry th wk e).2.1.par = e.par ∨ ∃ w x y, th.eval (mrqTry th wk e).2.1.par w = ((mrqTry th wk e).2.1.world, none) ∧
      chi2 (th.pts (mrqTry th wk e).2.1.world) = num x ∧ (mrqTry th wk e).2.1.chisq = num x ∧ wk.ochisq = num y ∧ x < y := by
  revert h
  unfold mrqTry
  split
  · simp
  · simp
  · rename_i cov da hs
    split
    · split
      · exact fun _ => .inl rfl
      · simp
    · dsimp only
      have hf := mrqcof_frame th { e with covar := cov }
        (fun l => if l < ma e ∧ ia e l = true then arr e l + da (nfree (ia e) l) else wk.atry l) cov da
      split
      · simp
      · rename_i e1 cov1 da1 heq
        rw [heq] at hf
        obtain ⟨h1, h2, h3, -, -⟩ := mrqcof_ok _ _ _ _ _ heq
        have hf' : Frame e e1 := ⟨hf.iter, hf.stag, hf.och, hf.ip, hf.id, hf.len⟩
        split
        · rename_i hlt
          intro _
          right
          have hx : ∃ x y, e1.chisq = num x ∧ wk.ochisq = num y ∧ x < y := by
            revert hlt
            cases e1.chisq <;> cases wk.ochisq <;> intro hlt
            · exact ⟨_, _, rfl, rfl, hlt⟩
            all_goals exact absurd hlt (by simp)
          obtain ⟨x, y, hx, hy, hxy⟩ := hx
          refine ⟨e.world, x, y, ?_, ?_, hx, hy, hxy⟩
          · have hp : (setP { e1 with covar := cov1 } (fun l => if l < ma e ∧ ia e l = true then arr e l + da (nfree (ia e) l) else wk.atry l)).par
                = e1.par := by
              exact setP_again e { e1 with covar := cov1 } _ h1
            show th.eval (setP { e1 with covar := cov1 } _).par e.world = (e1.world, none)
            rw [hp]
            exact h2
          · rw [← hx, h3]; rfl
        · intro _
          left
          exact setP_back (e := e) (e1 := { e1 with covar := cov1 }) ⟨hf.iter, hf.stag, hf.och, hf.ip, hf.id, hf.len⟩

/-! ## A curvature matrix of NaN -/

theorem mrqcof_eval_ok (th : Theory (Nm K) W) (e : Eng (Nm K) W) (a al be) {w} (h : th.eval (setP e a).par e.world = (w, none)) :
    mrqcof th e a al be =
      let r := mrqAcc (ia (setP e a)) (ma (setP e a)) (th.pts w) al be
      ({ (setP e a) with world := w, chisq := r.2.2.1, cum := r.2.2.2 }, .ok (r.1, r.2.1)) := by
  have h' : th.eval (setP e a).par (setP e a).world = (w, none) := h
  unfold mrqcof
  dsimp only
  rw [h']

/-- The initialization of `mrqmin` when the evaluation succeeds. -/
theorem mrqInit_ok (th : Theory (Nm K) W) (old) (e : Eng (Nm K) W) {w} (h : th.eval e.par e.world = (w, none)) :
    ∃ wk e1, mrqInit th old e = (wk, e1, none) ∧ wk.ma = ma e ∧ wk.mfit = nfree (ia e) (ma e) ∧ wk.ochisq = e1.chisq ∧
      e1.par = e.par ∧ e1.world = w ∧ e1.alambda = num (1 / 1000) ∧ e1.chisq = chi2 (th.pts w) ∧
      (∃ al be, e1.alpha = (mrqAcc (ia e) (ma e) (th.pts w) al be).1 ∧ wk.beta = (mrqAcc (ia e) (ma e) (th.pts w) al be).2.1) ∧
      e1.iter = e.iter ∧ e1.stagnating = e.stagnating ∧ e1.ochisq = e.ochisq := by
  let e0 : Eng (Nm K) W := { e with alambda := num (1 / 1000) }
  have hp : (setP e0 (arr e0)).par = e.par := setP_self e0
  have hf := Frame.setP e0 (arr e0)
  have hm := mrqcof_eval_ok th e0 (arr e0) e0.alpha (fun _ => 0) (w := w) (by rw [hp]; exact h)
  have ha : ia (setP e0 (arr e0)) = ia e := hf.ia
  have hma : ma (setP e0 (arr e0)) = ma e := hf.ma
  rw [ha, hma] at hm
  unfold mrqInit
  dsimp only
  rw [show mrqcof th { e with alambda := num (1 / 1000) } (arr { e with alambda := num (1 / 1000) }) e.alpha (fun _ => 0) = _ from hm]
  exact ⟨_, _, rfl, rfl, rfl, rfl, hp, rfl, rfl, mrqAcc_chisq (ia e) (ma e) (th.pts w) e.alpha (fun _ => 0), ⟨e.alpha, fun _ => 0, rfl, rfl⟩, rfl, rfl, rfl⟩

theorem solveNormal_nan (mfit : ℕ) (hm : 0 < mfit) (m : ℕ → ℕ → Nm K) (be cov da) (h : ∀ j k, j < mfit → k < mfit → m j k = nan) :
    solveNormal mfit m be cov da = .err .calculation := by
  unfold solveNormal
  rw [gaussj_nan hm (fun i j : Fin mfit => m i j) (fun (i : Fin mfit) (_ : Fin 1) => be i) fun j k => h j k j.2 k.2]

theorem augmented_nan (e : Eng (Nm K) W) (j k : ℕ) (h : e.alpha j k = nan) : augmented e j k = nan := by
  unfold augmented
  split_ifs with hjk
  · subst hjk; rw [h]; simp
  · exact h

/-- The object when a refinement begins: after `fit_setup` has left the world `w0`. -/
def start (th : Theory (Nm K) W) (e : Eng (Nm K) W) (w0 : W) : Eng (Nm K) W :=
  { e with iter := 0, alambda := num (-1), stagnating := 0, chisq := th.dmax, world := w0 }

theorem refineStep_start (th : Theory (Nm K) W) (toler : Nm K) (s : Statics (Nm K)) (e : Eng (Nm K) W) (hfresh : ¬(s.fitRunning = true ∧ e.iter ≠ 0))
    (w0 : W) (h0 : th.setup e.par e.world = (w0, none)) : refineStep th toler s e = refineBody th toler s.work (start th e w0) := by
  unfold refineStep
  rw [if_neg hfresh]
  dsimp only
  rw [h0]
  rfl

theorem mrqmin_start (th : Theory (Nm K) W) (old) (e : Eng (Nm K) W) (h : e.alambda = num (-1)) (hneg : (-1 : K) < 0) {wk e1}
    (hi : mrqInit th old e = (wk, e1, none)) : mrqmin th old e = mrqTry th wk e1 := by
  unfold mrqmin
  rw [if_pos (by rw [h]; exact hneg), hi]

theorem mrqmin_next (th : Theory (Nm K) W) (wk) (e : Eng (Nm K) W) (h : ∃ l, e.alambda = num l ∧ 0 ≤ l) (h1 : wk.ma = ma e)
    (h2 : wk.mfit = nfree (ia e) (ma e)) : mrqmin th (some wk) e = mrqTry th wk e := by
  obtain ⟨l, h, hl⟩ := h
  unfold mrqmin
  rw [if_neg (by rw [h]; exact not_lt.2 hl)]
  dsimp only
  rw [if_pos ⟨h1, h2⟩]

theorem refineBody_exc (th : Theory (Nm K) W) (toler : Nm K) (work) (e : Eng (Nm K) W) (hc : e.iter < 3 ∨ (e.stagnating < 3 ∧ e.iter < 100)) {wk e1 x}
    (h : mrqmin th work { e with ochisq := e.chisq } = (wk, e1, .exc x)) : refineBody th toler work e = (⟨true, wk⟩, e1, .exc x) := by
  unfold refineBody
  rw [if_pos hc, h]

open Classical in
theorem refineBody_more (th : Theory (Nm K) W) (toler : Nm K) (work) (e : Eng (Nm K) W) (hc : e.iter < 3 ∨ (e.stagnating < 3 ∧ e.iter < 100)) {wk e1}
    (h : mrqmin th work { e with ochisq := e.chisq } = (wk, e1, .more)) :
    refineBody th toler work e = (⟨true, wk⟩,
      { e1 with stagnating := if e1.iter ≠ 0 ∧ e1.ochisq - e1.chisq ≤ toler * e1.ochisq then e1.stagnating + 1 else 0, iter := e1.iter + 1, rw2 := e1.chisq / wnormOf (th.pts e1.world) }, .more) := by
  unfold refineBody
  rw [if_pos hc, h]

/-- A fresh `refine_step` whose first evaluation has a NaN weight, or a NaN derivative for every free parameter. -/
theorem refineStep_spoiled (th : Theory (Nm K) W) (toler : Nm K) (s : Statics (Nm K)) (e : Eng (Nm K) W) (hfresh : ¬(s.fitRunning = true ∧ e.iter ≠ 0))
    (w0 w : W) (h0 : th.setup e.par e.world = (w0, none)) (h : th.eval e.par w0 = (w, none)) (hfree : 0 < nfree (ia e) (ma e))
    (hbad : ∃ pt ∈ (th.pts w).flatten, Spoils (ia e) (ma e) pt) (hneg : (-1 : K) < 0) :
    (refineStep th toler s e).2.2 = .exc .calculation ∧ (refineStep th toler s e).2.1.par = e.par := by
  let e0 : Eng (Nm K) W := { (start th e w0) with ochisq := th.dmax }
  obtain ⟨wk, e1, h1, -, h3, -, h5, -, -, -, ⟨al, be, h9, -⟩, -⟩ := mrqInit_ok th s.work e0 (w := w) h
  have ht : mrqTry th wk e1 = (some wk, e1, .exc .calculation) := by
    unfold mrqTry
    rw [solveNormal_nan wk.mfit (by rw [h3]; exact hfree) _ _ _ _ fun j k hj hk => augmented_nan e1 j k (by
      rw [h9]
      rw [h3] at hj hk
      exact mrqAcc_alpha_nan _ _ _ _ _ hbad j k hj hk)]
  rw [refineStep_start th toler s e hfresh w0 h0, refineBody_exc th toler s.work (start th e w0) (.inl (by show 0 < 3; omega))
    ((mrqmin_start th s.work e0 rfl hneg h1).trans ht)]
  exact ⟨rfl, h5⟩

/-! ## A sum of squares that is always NaN -/

/-- Evaluations of the parameters `par` with any values succeed, keep the worlds in `R` and give a NaN sum of squares. -/
structure Stuck (th : Theory (Nm K) W) (R : W → Prop) (par : ParStore (Nm K)) : Prop where
  ok : ∀ p w, R w → (th.eval { par with p := p } w).2 = none
  stay : ∀ p w, R w → R (th.eval { par with p := p } w).1
  chi : ∀ p w, R w → chi2 (th.pts (th.eval { par with p := p } w).1) = nan

/-- The state between two calls: the parameters `par`, nothing but NaN as sum of squares, a curvature matrix of numbers. -/
structure Inv (R : W → Prop) (par : ParStore (Nm K)) (A : ℕ → ℕ → K) (wk : Work (Nm K)) (e : Eng (Nm K) W) : Prop where
  par : e.par = par
  world : R e.world
  chisq : e.chisq = nan
  ochi : wk.ochisq = nan
  ma : wk.ma = Nan.ma e
  mfit : wk.mfit = nfree (Nan.ia e) (Nan.ma e)
  beta : ∀ j < wk.mfit, wk.beta j = nan
  alpha : ∀ j k, j < wk.mfit → k < wk.mfit → e.alpha j k = num (A j k)
  lam : ∃ l, e.alambda = num l ∧ 0 ≤ l

/-- With any damping that is not negative the matrix `A` is regular. -/
def Regular (mfit : ℕ) (A : ℕ → ℕ → K) : Prop :=
  ∀ l : K, 0 ≤ l → Matrix.det (fun i j : Fin mfit => if (i : ℕ) = j then A i i * (1 + l) else A i j) ≠ 0

theorem Stuck.eval {th : Theory (Nm K) W} {R : W → Prop} {par : ParStore (Nm K)} (h : Stuck th R par) (e : Eng (Nm K) W) (he : e.par = par)
    (hR : R e.world) (a) : ∃ w, th.eval (setP e a).par e.world = (w, none) ∧ R w ∧ chi2 (th.pts w) = nan := by
  have hp : (setP e a).par = { par with p := (List.range (ma e)).map a } := by rw [← he]; rfl
  rw [hp]
  refine ⟨_, Prod.ext rfl (h.ok _ _ hR), h.stay _ _ hR, h.chi _ _ hR⟩

theorem Stuck.eval_self {th : Theory (Nm K) W} {R : W → Prop} {par : ParStore (Nm K)} (h : Stuck th R par) (w : W) (hR : R w) :
    ∃ w', th.eval par w = (w', none) ∧ R w' ∧ chi2 (th.pts w') = nan :=
  ⟨_, Prod.ext rfl (h.ok par.p _ hR), h.stay par.p _ hR, h.chi par.p _ hR⟩

theorem solveNormal_stuck [IsStrictOrderedRing K] {R : W → Prop} {par A wk} {e : Eng (Nm K) W} (h : Inv R par A wk e) (hA : Regular wk.mfit A) (cov da) :
    ∃ c x, solveNormal wk.mfit (augmented e) wk.beta cov da = .ok (c, x) := by
  obtain ⟨l, hl, h0⟩ := h.lam
  obtain ⟨A', X, hg, -, -⟩ := gaussj_lift (m := 1) _ (fun (i : Fin wk.mfit) (_ : Fin 1) => wk.beta i) (hA l h0)
  have hm : (fun i j : Fin wk.mfit => augmented e i j) = liftM fun i j : Fin wk.mfit => if (i : ℕ) = j then A i i * (1 + l) else A i j := by
    funext i j
    unfold augmented liftM
    rw [hl, h.alpha _ _ i.2 i.2, h.alpha _ _ i.2 j.2]
    dsimp only
    by_cases hij : (i : ℕ) = j
    · rw [if_pos hij, if_pos hij]; rfl
    · rw [if_neg hij, if_neg hij]
  unfold solveNormal
  rw [hm, hg]
  exact ⟨_, _, rfl⟩

/-- A trial is rejected. -/
theorem mrqTry_stuck [IsStrictOrderedRing K] {th : Theory (Nm K) W} {R : W → Prop} {par A wk} {e : Eng (Nm K) W} (h : Inv R par A wk e)
    (hA : Regular wk.mfit A) (hs : Stuck th R par) (hl : e.alambda ≠ 0) :
    ∃ wk' e', mrqTry th wk e = (some wk', e', .more) ∧ Inv R par A wk' e' ∧ wk'.mfit = wk.mfit ∧ e'.iter = e.iter ∧ e'.stagnating = e.stagnating ∧
      e'.ochisq = e.ochisq ∧ e'.alambda ≠ 0 := by
  obtain ⟨c, x, h1⟩ := solveNormal_stuck h hA e.covar wk.da
  obtain ⟨l, hl0, hl1⟩ := h.lam
  let atry : ℕ → Nm K := fun l => if l < ma e ∧ ia e l = true then arr e l + x (nfree (ia e) l) else wk.atry l
  let e0 : Eng (Nm K) W := { e with covar := c }
  obtain ⟨w, hw, hR, hc⟩ := hs.eval e0 h.par h.world atry
  have hm := mrqcof_eval_ok th e0 atry c x hw
  have hf := mrqcof_frame th e0 atry c x
  rw [hm] at hf
  have hchi : (mrqAcc (ia (setP e0 atry)) (ma (setP e0 atry)) (th.pts w) c x).2.2.1 = nan := (mrqAcc_chisq _ _ _ _ _).trans hc
  unfold mrqTry
  rw [h1]
  dsimp only
  rw [if_neg hl, show mrqcof th { e with covar := c } _ c x = _ from hm]
  dsimp only
  rw [hchi, if_neg (by simp)]
  have hb : (setP ({ (setP e0 atry) with world := w, chisq := nan, cum := (mrqAcc (ia (setP e0 atry)) (ma (setP e0 atry)) (th.pts w) c x).2.2.2, covar := (mrqAcc (ia (setP e0 atry)) (ma (setP e0 atry)) (th.pts w) c x).1 } : Eng (Nm K) W) (arr e)).par = e.par :=
    setP_back (e := e) ⟨hf.iter, hf.stag, hf.och, hf.ip, hf.id, hf.len⟩
  refine ⟨_, _, rfl, ⟨hb.trans h.par, hR, h.ochi, h.ochi, ?_, ?_, h.beta, h.alpha, ⟨l * 10, ?_, by positivity⟩⟩, rfl, rfl, rfl, rfl, ?_⟩
  · exact h.ma.trans (congrArg (fun p : ParStore (Nm K) => p.p.length) hb.symm)
  · refine h.mfit.trans ?_
    show nfree (fun l => e.par.ip.getD l false) e.par.p.length = nfree (fun l => _) _
    rw [← hb]
    rfl
  · show e.alambda * num 10 = _
    rw [hl0]; rfl
  · show e.alambda * num 10 ≠ 0
    rw [hl0] at hl ⊢
    intro h10
    apply hl
    have : l * 10 = 0 := by simpa using h10
    have : l = 0 := by simpa using this
    rw [this]; rfl

theorem covLoop_ok (ia : ℕ → Bool) : ∀ (j : ℕ) (c : ℕ → ℕ → Nm K), ∃ c', covLoop ia j (nfree ia j) c = .ok c' := by
  intro j
  induction j with
  | zero => intro c; exact ⟨c, rfl⟩
  | succ j ih =>
    intro c
    unfold covLoop nfree
    by_cases h : ia j = true
    · rw [if_pos h, if_pos h]; exact ih _
    · rw [if_neg h, if_neg h]; exact ih _

/-- A call during the refinement. -/
theorem refineStep_stuck [IsStrictOrderedRing K] {th : Theory (Nm K) W} {R : W → Prop} {par A wk} {e : Eng (Nm K) W} (toler : Nm K) (h : Inv R par A wk e)
    (hA : Regular wk.mfit A) (hs : Stuck th R par) (hl : e.alambda ≠ 0) (hi : e.iter ≠ 0) (hi' : e.iter < 100) (hst : e.stagnating = 0) :
    ∃ wk' e', refineStep th toler ⟨true, some wk⟩ e = (⟨true, some wk'⟩, e', .more) ∧ Inv R par A wk' e' ∧ wk'.mfit = wk.mfit ∧ e'.iter = e.iter + 1 ∧
      e'.stagnating = 0 ∧ e'.alambda ≠ 0 := by
  have h' : Inv R par A wk { e with ochisq := e.chisq } := ⟨h.par, h.world, h.chisq, h.ochi, h.ma, h.mfit, h.beta, h.alpha, h.lam⟩
  obtain ⟨wk', e', h1, h2, h3, h4, h5, h6, h7⟩ := mrqTry_stuck h' hA hs hl
  have hb := refineBody_more th toler (some wk) e (.inr ⟨by omega, hi'⟩) ((mrqmin_next th wk { e with ochisq := e.chisq } h.lam h.ma h.mfit).trans h1)
  unfold refineStep
  rw [if_pos ⟨rfl, hi⟩, hb]
  refine ⟨_, _, rfl, ⟨h2.par, h2.world, h2.chisq, h2.ochi, h2.ma, h2.mfit, h2.beta, h2.alpha, h2.lam⟩, h3, by dsimp only; rw [h4], ?_, h7⟩
  dsimp only
  rw [if_neg]
  rintro ⟨-, hle⟩
  rw [h2.chisq] at hle
  revert hle
  simp

/-- The call after 100 iterations. -/
theorem refineStep_last [IsStrictOrderedRing K] {th : Theory (Nm K) W} {R : W → Prop} {par A wk} {e : Eng (Nm K) W} (toler : Nm K) (h : Inv R par A wk e)
    (hA : Regular wk.mfit A) (hs : Stuck th R par) (hi : e.iter = 100) :
    ∃ s' e', refineStep th toler ⟨true, some wk⟩ e = (s', e', .done) ∧ e'.par = par ∧ e'.rw2 = nan := by
  have h' : Inv R par A wk { e with alambda := 0 } :=
    ⟨h.par, h.world, h.chisq, h.ochi, h.ma, h.mfit, h.beta, h.alpha, ⟨0, rfl, le_rfl⟩⟩
  obtain ⟨c, x, h1⟩ := solveNormal_stuck h' hA e.covar wk.da
  obtain ⟨c1, hc1⟩ := covLoop_ok (ia e) (ma e) (covZero c (ma e) wk.mfit)
  obtain ⟨c2, hc2⟩ := covLoop_ok (ia e) (ma e) (covZero e.alpha (ma e) wk.mfit)
  rw [← h.mfit] at hc1 hc2
  have ht : mrqTry th wk { e with alambda := 0 } = (none, { e with alambda := 0, covar := c1, alpha := c2 }, .more) := by
    unfold mrqTry
    rw [h1]
    dsimp only
    rw [if_pos rfl]
    show (match covsrt c (ma e) (ia e) wk.mfit, covsrt e.alpha (ma e) (ia e) wk.mfit with
      | .ok c, .ok al => (none, { e with alambda := 0, covar := c, alpha := al }, Outcome.more)
      | _, _ => (none, { e with alambda := 0 }, .corrupt)) = _
    unfold covsrt
    rw [hc1, hc2]
  have hm := (mrqmin_next th wk { e with alambda := 0 } ⟨0, rfl, le_rfl⟩ h.ma h.mfit).trans ht
  obtain ⟨w, hw, -, -⟩ := hs.eval_self e.world h.world
  unfold refineStep
  rw [if_pos ⟨rfl, by show e.iter ≠ 0; omega⟩]
  unfold refineBody
  rw [if_neg (by omega), hm]
  dsimp only
  rw [h.par, hw]
  refine ⟨_, _, rfl, rfl, ?_⟩
  dsimp only
  rw [h.chisq]
  rfl

theorem refineLoop_stuck [IsStrictOrderedRing K] {th : Theory (Nm K) W} {R : W → Prop} {par A} (toler : Nm K) (mfit : ℕ)
    (hA : Regular mfit A) (hs : Stuck th R par) : ∀ (n : ℕ) (wk) (e : Eng (Nm K) W), wk.mfit = mfit → Inv R par A wk e → e.alambda ≠ 0 → e.iter ≠ 0 →
      e.iter + n = 100 → e.stagnating = 0 →
      ∃ r, refineLoop th toler (n + 1) (⟨true, some wk⟩, e) = (r, .done, n + 1) ∧ r.2.par = par ∧ r.2.rw2 = nan := by
  intro n
  induction n with
  | zero =>
    intro wk e hm h hl hi hn hst
    obtain ⟨s', e', h1, h2, h3⟩ := refineStep_last toler h (hm ▸ hA) hs (by omega)
    refine ⟨(s', e'), ?_, h2, h3⟩
    unfold refineLoop
    rw [h1]
  | succ n ih =>
    intro wk e hm h hl hi hn hst
    obtain ⟨wk', e', h1, h2, h3, h4, h5, h6⟩ := refineStep_stuck toler h (hm ▸ hA) hs hl hi (by omega) hst
    obtain ⟨r, g1, g2⟩ := ih wk' e' (h3.trans hm) h2 h6 (by omega) (by omega) h5
    refine ⟨r, ?_, g2⟩
    rw [refineLoop.eq_def]
    dsimp only
    rw [h1]
    dsimp only
    rw [g1]

/-- A whole refinement. -/
theorem refine_stuck [IsStrictOrderedRing K] (th : Theory (Nm K) W) (toler : Nm K) (s : Statics (Nm K)) (e : Eng (Nm K) W)
    (hfresh : ¬(s.fitRunning = true ∧ e.iter ≠ 0)) (R : W → Prop) (w0 w : W) (h0 : th.setup e.par e.world = (w0, none)) (hR : R w0)
    (hs : Stuck th R e.par) (h : th.eval e.par w0 = (w, none)) (A : ℕ → ℕ → K) (hA : Regular (nfree (ia e) (ma e)) A)
    (ha : ∀ al be j k, j < nfree (ia e) (ma e) → k < nfree (ia e) (ma e) → (mrqAcc (ia e) (ma e) (th.pts w) al be).1 j k = num (A j k))
    (hb : ∀ al be j, j < nfree (ia e) (ma e) → (mrqAcc (ia e) (ma e) (th.pts w) al be).2.1 j = nan) :
    ∃ r, refineLoop th toler 101 (s, e) = (r, .done, 101) ∧ r.2.par = e.par ∧ r.2.rw2 = nan := by
  let e0 : Eng (Nm K) W := { (start th e w0) with ochisq := th.dmax }
  obtain ⟨wk, e1, h1, h2, h3, h4, h5, h6, h7, h8, ⟨al, be, h9, h10⟩, h11, h12, h13⟩ := mrqInit_ok th s.work e0 (w := w) h
  obtain ⟨w', hw', hR', hc'⟩ := hs.eval_self w0 hR
  rw [h] at hw'
  injection hw' with hw' _
  subst hw'
  have hia : ia e1 = ia e := by unfold ia; rw [h5]; rfl
  have hma : ma e1 = ma e := by unfold ma; rw [h5]; rfl
  have hI : Inv R e.par A wk e1 := by
    refine ⟨h5, by rw [h6]; exact hR', by rw [h8]; exact hc', by rw [h4, h8]; exact hc', by rw [h2, hma]; rfl, by rw [h3, hia, hma]; rfl, ?_, ?_,
      ⟨1 / 1000, h7, by positivity⟩⟩
    · intro j hj
      rw [h10]
      exact hb al be j (by rw [h3] at hj; exact hj)
    · intro j k hj hk
      rw [h9]
      rw [h3] at hj hk
      exact ha al be j k hj hk
  have hmf : wk.mfit = nfree (ia e) (ma e) := h3
  have hneg : (-1 : K) < 0 := by norm_num
  obtain ⟨wk', e', g1, g2, g3, g4, g5, g6, g7⟩ := mrqTry_stuck hI (hmf ▸ hA) hs (by
    rw [h7]
    intro h0
    simp at h0)
  have hbd := refineBody_more th toler s.work (start th e w0) (.inl (by show 0 < 3; omega)) ((mrqmin_start th s.work e0 rfl hneg h1).trans g1)
  have hst := (refineStep_start th toler s e hfresh w0 h0).trans hbd
  have hz : e'.iter = 0 := by rw [g4, h11]; rfl
  rw [if_neg (by rw [hz]; simp)] at hst
  obtain ⟨r, q1, q2⟩ := refineLoop_stuck toler _ hA hs 99 wk' { e' with stagnating := 0, iter := e'.iter + 1, rw2 := e'.chisq / wnormOf (th.pts e'.world) }
    (g3.trans hmf) ⟨g2.par, g2.world, g2.chisq, g2.ochi, g2.ma, g2.mfit, g2.beta, g2.alpha, g2.lam⟩ g7 (by simp) (by dsimp only; omega) rfl
  refine ⟨r, ?_, q2⟩
  rw [refineLoop.eq_def]
  dsimp only
  rw [hst]
  dsimp only
  rw [q1]

/-! ## Any curvature matrix -/

theorem gjLoop_cases {n m : ℕ} : ∀ (k : ℕ) (s : GJ n m (Nm K)), (∃ t, gjLoop k s = .ok t) ∨ gjLoop k s = .err .calculation := by
  intro k
  induction k with
  | zero => intro s; exact .inl ⟨s, rfl⟩
  | succ k ih =>
    intro s
    unfold gjLoop
    have h : (∃ t, gjStep s = .ok t) ∨ gjStep s = .err .calculation := by
      unfold gjStep
      split
      · exact .inr rfl
      · dsimp only
        split_ifs
        · exact .inr rfl
        · exact .inl ⟨_, rfl⟩
    rcases h with ⟨t, h⟩ | h
    · rw [h]; exact ih t
    · rw [h]; exact .inr rfl

theorem solveNormal_cases (mfit : ℕ) (m : ℕ → ℕ → Nm K) (be cov da) :
    (∃ c x, solveNormal mfit m be cov da = .ok (c, x)) ∨ solveNormal mfit m be cov da = .err .calculation := by
  unfold solveNormal gaussj
  rcases gjLoop_cases mfit (GJ.mk (fun i j : Fin mfit => m i j) (fun (i : Fin mfit) (_ : Fin 1) => be i) (fun _ => 0) none []) with ⟨t, h⟩ | h
  · left; rw [h]; exact ⟨_, _, rfl⟩
  · right; rw [h]

/-- The state between two calls, whatever the curvature matrix is. -/
structure InvW (R : W → Prop) (par : ParStore (Nm K)) (wk : Work (Nm K)) (e : Eng (Nm K) W) : Prop where
  par : e.par = par
  world : R e.world
  chisq : e.chisq = nan
  ochi : wk.ochisq = nan
  ma : wk.ma = Nan.ma e
  mfit : wk.mfit = nfree (Nan.ia e) (Nan.ma e)
  lam : ∃ l, e.alambda = num l ∧ 0 ≤ l

theorem mrqTry_weak [IsStrictOrderedRing K] {th : Theory (Nm K) W} {R : W → Prop} {par wk} {e : Eng (Nm K) W} (h : InvW R par wk e)
    (hs : Stuck th R par) (hl : e.alambda ≠ 0) :
    mrqTry th wk e = (some wk, e, .exc .calculation) ∨
    ∃ wk' e', mrqTry th wk e = (some wk', e', .more) ∧ InvW R par wk' e' ∧ e'.iter = e.iter ∧ e'.alambda ≠ 0 := by
  rcases solveNormal_cases wk.mfit (augmented e) wk.beta e.covar wk.da with ⟨c, x, h1⟩ | h1
  swap
  · left; unfold mrqTry; rw [h1]
  right
  obtain ⟨l, hl0, hl1⟩ := h.lam
  let atry : ℕ → Nm K := fun l => if l < ma e ∧ ia e l = true then arr e l + x (nfree (ia e) l) else wk.atry l
  let e0 : Eng (Nm K) W := { e with covar := c }
  obtain ⟨w, hw, hR, hc⟩ := hs.eval e0 h.par h.world atry
  have hm := mrqcof_eval_ok th e0 atry c x hw
  have hf := mrqcof_frame th e0 atry c x
  rw [hm] at hf
  have hchi : (mrqAcc (ia (setP e0 atry)) (ma (setP e0 atry)) (th.pts w) c x).2.2.1 = nan := (mrqAcc_chisq _ _ _ _ _).trans hc
  unfold mrqTry
  rw [h1]
  dsimp only
  rw [if_neg hl, show mrqcof th { e with covar := c } _ c x = _ from hm]
  dsimp only
  rw [hchi, if_neg (by simp)]
  have hb : (setP ({ (setP e0 atry) with world := w, chisq := nan, cum := (mrqAcc (ia (setP e0 atry)) (ma (setP e0 atry)) (th.pts w) c x).2.2.2, covar := (mrqAcc (ia (setP e0 atry)) (ma (setP e0 atry)) (th.pts w) c x).1 } : Eng (Nm K) W) (arr e)).par = e.par :=
    setP_back (e := e) ⟨hf.iter, hf.stag, hf.och, hf.ip, hf.id, hf.len⟩
  refine ⟨_, _, rfl, ⟨hb.trans h.par, hR, h.ochi, h.ochi, ?_, ?_, ⟨l * 10, ?_, by positivity⟩⟩, rfl, ?_⟩
  · exact h.ma.trans (congrArg (fun p : ParStore (Nm K) => p.p.length) hb.symm)
  · refine h.mfit.trans ?_
    show nfree (fun l => e.par.ip.getD l false) e.par.p.length = nfree (fun l => _) _
    rw [← hb]
    rfl
  · show e.alambda * num 10 = _
    rw [hl0]; rfl
  · show e.alambda * num 10 ≠ 0
    rw [hl0] at hl ⊢
    intro h10
    apply hl
    have : l * 10 = 0 := by simpa using h10
    have : l = 0 := by simpa using this
    rw [this]; rfl

/-- What can happen in a refinement: it goes on, raises, or ends. -/
theorem refineStep_weak [IsStrictOrderedRing K] {th : Theory (Nm K) W} {R : W → Prop} {par wk} {e : Eng (Nm K) W} (toler : Nm K) (h : InvW R par wk e)
    (hs : Stuck th R par) (hl : e.alambda ≠ 0) (hi : e.iter ≠ 0) :
    (∃ wk' e', refineStep th toler ⟨true, some wk⟩ e = (⟨true, some wk'⟩, e', .more) ∧ InvW R par wk' e' ∧ e'.iter ≠ 0 ∧ e'.alambda ≠ 0) ∨
    (∃ s' e', refineStep th toler ⟨true, some wk⟩ e = (s', e', .exc .calculation) ∧ e'.par = par) ∨
    (∃ s' e', refineStep th toler ⟨true, some wk⟩ e = (s', e', .done) ∧ e'.par = par ∧ e'.rw2 = nan) := by
  have hst : refineStep th toler ⟨true, some wk⟩ e = refineBody th toler (some wk) e := by
    unfold refineStep
    rw [if_pos ⟨rfl, hi⟩]
  rw [hst]
  by_cases hc : e.iter < 3 ∨ (e.stagnating < 3 ∧ e.iter < 100)
  · have h' : InvW R par wk { e with ochisq := e.chisq } := ⟨h.par, h.world, h.chisq, h.ochi, h.ma, h.mfit, h.lam⟩
    have hm := mrqmin_next th wk { e with ochisq := e.chisq } h.lam h.ma h.mfit
    rcases mrqTry_weak h' hs hl with h1 | ⟨wk', e', h1, h2, h3, h4⟩
    · right; left
      rw [refineBody_exc th toler (some wk) e hc (hm.trans h1)]
      exact ⟨_, _, rfl, h.par⟩
    · left
      rw [refineBody_more th toler (some wk) e hc (hm.trans h1)]
      exact ⟨_, _, rfl, ⟨h2.par, h2.world, h2.chisq, h2.ochi, h2.ma, h2.mfit, h2.lam⟩, by simp, h4⟩
  · right
    have hm := mrqmin_next th wk { e with alambda := 0 } ⟨0, rfl, le_rfl⟩ h.ma h.mfit
    rcases solveNormal_cases wk.mfit (augmented { e with alambda := 0 }) wk.beta e.covar wk.da with ⟨c, x, h1⟩ | h1
    · right
      obtain ⟨c1, hc1⟩ := covLoop_ok (ia e) (ma e) (covZero c (ma e) wk.mfit)
      obtain ⟨c2, hc2⟩ := covLoop_ok (ia e) (ma e) (covZero e.alpha (ma e) wk.mfit)
      rw [← h.mfit] at hc1 hc2
      have ht : mrqTry th wk { e with alambda := 0 } = (none, { e with alambda := 0, covar := c1, alpha := c2 }, .more) := by
        unfold mrqTry
        rw [h1]
        dsimp only
        rw [if_pos rfl]
        show (match covsrt c (ma e) (ia e) wk.mfit, covsrt e.alpha (ma e) (ia e) wk.mfit with
          | .ok c, .ok al => (none, { e with alambda := 0, covar := c, alpha := al }, Outcome.more)
          | _, _ => (none, { e with alambda := 0 }, .corrupt)) = _
        unfold covsrt
        rw [hc1, hc2]
      obtain ⟨w, hw, -, -⟩ := hs.eval_self e.world h.world
      unfold refineBody
      rw [if_neg hc, hm, ht]
      dsimp only
      rw [h.par, hw]
      refine ⟨_, _, rfl, rfl, ?_⟩
      dsimp only
      rw [h.chisq]
      rfl
    · left
      have ht : mrqTry th wk { e with alambda := 0 } = (some wk, { e with alambda := 0 }, .exc .calculation) := by
        unfold mrqTry
        rw [h1]
      unfold refineBody
      rw [if_neg hc, hm, ht]
      exact ⟨_, _, rfl, h.par⟩

/-- What a refinement may leave when the sum of squares is NaN. -/
def Ends (par : ParStore (Nm K)) (r : (Statics (Nm K) × Eng (Nm K) W) × Outcome × ℕ) : Prop :=
  (r.2.1 = .more ∨ r.2.1 = .exc .calculation ∨ (r.2.1 = .done ∧ r.1.2.rw2 = nan)) ∧ r.1.2.par = par

theorem refineLoop_weak [IsStrictOrderedRing K] {th : Theory (Nm K) W} {R : W → Prop} {par} (toler : Nm K) (hs : Stuck th R par) :
    ∀ (n : ℕ) (wk) (e : Eng (Nm K) W), InvW R par wk e → e.alambda ≠ 0 → e.iter ≠ 0 → Ends par (refineLoop th toler n (⟨true, some wk⟩, e)) := by
  intro n
  induction n with
  | zero => intro wk e h _ _; exact ⟨.inl rfl, h.par⟩
  | succ n ih =>
    intro wk e h hl hi
    rw [refineLoop.eq_def]
    dsimp only
    rcases refineStep_weak toler h hs hl hi with ⟨wk', e', h1, h2, h3, h4⟩ | ⟨s', e', h1, h2⟩ | ⟨s', e', h1, h2, h3⟩
    · rw [h1]
      exact ih wk' e' h2 h4 h3
    · rw [h1]
      exact ⟨.inr (.inl rfl), h2⟩
    · rw [h1]
      exact ⟨.inr (.inr ⟨rfl, h3⟩), h2⟩

/-- A whole refinement with a sum of squares that is always NaN raises, or returns NaN as residual; the parameters are as before. -/
theorem refine_weak [IsStrictOrderedRing K] (th : Theory (Nm K) W) (toler : Nm K) (s : Statics (Nm K)) (e : Eng (Nm K) W)
    (hfresh : ¬(s.fitRunning = true ∧ e.iter ≠ 0)) (R : W → Prop) (w0 : W) (h0 : th.setup e.par e.world = (w0, none)) (hR : R w0)
    (hs : Stuck th R e.par) (n : ℕ) : Ends e.par (refineLoop th toler (n + 1) (s, e)) := by
  let e0 : Eng (Nm K) W := { (start th e w0) with ochisq := th.dmax }
  obtain ⟨w, h, hR', hc'⟩ := hs.eval_self w0 hR
  obtain ⟨wk, e1, h1, h2, h3, h4, h5, h6, h7, h8, -, h11, h12, h13⟩ := mrqInit_ok th s.work e0 (w := w) h
  have hia : ia e1 = ia e := by unfold ia; rw [h5]; rfl
  have hma : ma e1 = ma e := by unfold ma; rw [h5]; rfl
  have hI : InvW R e.par wk e1 :=
    ⟨h5, by rw [h6]; exact hR', by rw [h8]; exact hc', by rw [h4, h8]; exact hc', by rw [h2, hma]; rfl, by rw [h3, hia, hma]; rfl,
      ⟨1 / 1000, h7, by positivity⟩⟩
  have hneg : (-1 : K) < 0 := by norm_num
  have hms := mrqmin_start th s.work e0 rfl hneg h1
  have hst := refineStep_start th toler s e hfresh w0 h0
  rw [refineLoop.eq_def]
  dsimp only
  rcases mrqTry_weak hI hs (by
    rw [h7]
    intro h0
    simp at h0) with g1 | ⟨wk', e', g1, g2, g3, g4⟩
  · rw [hst, refineBody_exc th toler s.work (start th e w0) (.inl (by show 0 < 3; omega)) (hms.trans g1)]
    exact ⟨.inr (.inl rfl), h5⟩
  · rw [hst, refineBody_more th toler s.work (start th e w0) (.inl (by show 0 < 3; omega)) (hms.trans g1)]
    exact refineLoop_weak toler hs n wk' _ ⟨g2.par, g2.world, g2.chisq, g2.ochi, g2.ma, g2.mfit, g2.lam⟩ g4 (by simp)

end Pdffit.Nan
