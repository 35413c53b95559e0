import Verif.Model.Arith
import Mathlib.Logic.Relation

/-! The refinement in any arithmetic. -/

namespace Pdffit.Any
open Arith
set_option linter.unusedSectionVars false
variable {F W : Type} [Arith F]

/-- What `mrqmin` never touches. -/
structure Frame (e e' : Eng F W) : Prop where
  iter : e'.iter = e.iter
  stag : e'.stagnating = e.stagnating
  och : e'.ochisq = e.ochisq
  ip : e'.par.ip = e.par.ip
  id : e'.par.id = e.par.id
  len : e'.par.p.length = e.par.p.length

theorem Frame.refl (e : Eng F W) : Frame e e := ⟨rfl, rfl, rfl, rfl, rfl, rfl⟩

theorem Frame.trans {e e' e'' : Eng F W} (h : Frame e e') (h' : Frame e' e'') : Frame e e'' :=
  ⟨h'.iter.trans h.iter, h'.stag.trans h.stag, h'.och.trans h.och, h'.ip.trans h.ip, h'.id.trans h.id, h'.len.trans h.len⟩

theorem Frame.setP (e : Eng F W) (a) : Frame e (setP e a) := by
  refine ⟨rfl, rfl, rfl, rfl, rfl, ?_⟩
  simp [Any.setP, Any.ma]

theorem Frame.ia {e e' : Eng F W} (h : Frame e e') : ia e' = ia e := by
  unfold Any.ia; rw [h.ip]

theorem Frame.ma {e e' : Eng F W} (h : Frame e e') : ma e' = ma e := h.len

theorem setP_self (e : Eng F W) : (setP e (arr e)).par = e.par := by
  have h : (List.range e.par.p.length).map (fun l => e.par.p.getD l zero) = e.par.p := by
    apply List.ext_getElem
    · simp
    · intro i h1 h2
      simp [h2]
  show ({ e.par with p := (List.range e.par.p.length).map (fun l => e.par.p.getD l zero) } : ParStore F) = e.par
  rw [h]

theorem setP_back {e e1 : Eng F W} (h : Frame e e1) : (setP e1 (arr e)).par = e.par := by
  rw [← setP_self e]
  show ({ e1.par with p := (List.range (Any.ma e1)).map (arr e) } : ParStore F) = { e.par with p := (List.range (Any.ma e)).map (arr e) }
  rw [h.ma]
  obtain ⟨_, _, _, h1, h2, _⟩ := h
  cases h3 : e1.par; cases h4 : e.par
  rw [h3, h4] at h1 h2
  dsimp only at h1 h2
  subst h1 h2
  rfl

theorem setP_again (e e1 : Eng F W) (a) (h : e1.par = (setP e a).par) : (setP e1 a).par = e1.par := by
  have hm : ma e1 = ma e := by unfold Any.ma; rw [h]; exact (Frame.setP e a).len
  show ({ e1.par with p := (List.range (Any.ma e1)).map a } : ParStore F) = e1.par
  rw [hm, h]
  rfl

theorem mrqcof_frame (th : Theory F W) (e : Eng F W) (a al be) : Frame e (mrqcof th e a al be).1 := by
  unfold mrqcof
  have h := Frame.setP e a
  dsimp only
  split
  · exact ⟨h.iter, h.stag, h.och, h.ip, h.id, h.len⟩
  · exact ⟨h.iter, h.stag, h.och, h.ip, h.id, h.len⟩

theorem mrqInit_frame (th : Theory F W) (old) (e : Eng F W) : Frame e (mrqInit th old e).2.1 := by
  unfold mrqInit
  have h := mrqcof_frame th { e with alambda := thousandth } (arr { e with alambda := thousandth }) e.alpha (fun _ => zero)
  dsimp only
  split
  · rename_i e2 x heq
    rw [heq] at h
    exact ⟨h.iter, h.stag, h.och, h.ip, h.id, h.len⟩
  · rename_i e2 al be heq
    rw [heq] at h
    exact ⟨h.iter, h.stag, h.och, h.ip, h.id, h.len⟩

theorem mrqTry_frame (th : Theory F W) (wk) (e : Eng F W) : Frame e (mrqTry th wk e).2.1 := by
  unfold mrqTry
  split
  · exact Frame.refl e
  · exact Frame.refl e
  · rename_i cov da hs
    split
    · split
      · exact ⟨rfl, rfl, rfl, rfl, rfl, rfl⟩
      · exact Frame.refl e
    · have h := mrqcof_frame th { e with covar := cov } (trial wk e da) cov da
      split
      · rename_i e1 x heq
        rw [heq] at h
        exact ⟨h.iter, h.stag, h.och, h.ip, h.id, h.len⟩
      · rename_i e1 cov1 da1 heq
        rw [heq] at h
        dsimp only
        split
        · have h2 := Frame.setP { e1 with covar := cov1 } (trial wk e da)
          exact ⟨h.iter, h.stag, h.och, h.ip, h.id, h2.len.trans h.len⟩
        · have h2 := Frame.setP { e1 with covar := cov1 } (arr e)
          exact ⟨h.iter, h.stag, h.och, h.ip, h.id, h2.len.trans h.len⟩

theorem mrqmin_frame (th : Theory F W) (old) (e : Eng F W) : Frame e (mrqmin th old e).2.1 := by
  unfold mrqmin
  split
  · have h := mrqInit_frame th old e
    split
    · rename_i heq; rw [heq] at h; exact h
    · rename_i wk e1 heq
      rw [heq] at h
      exact h.trans (mrqTry_frame th wk e1)
  · split
    · exact Frame.refl e
    · split
      · exact mrqTry_frame th _ e
      · exact Frame.refl e

theorem mrqTry_ne_done (th : Theory F W) (wk) (e : Eng F W) : (mrqTry th wk e).2.2 ≠ .done := by
  unfold mrqTry
  split
  · simp
  · simp
  · split
    · split <;> simp
    · split
      · simp
      · dsimp only
        split <;> simp

theorem mrqmin_ne_done (th : Theory F W) (old) (e : Eng F W) : (mrqmin th old e).2.2 ≠ .done := by
  unfold mrqmin
  split
  · split
    · simp
    · exact mrqTry_ne_done _ _ _
  · split
    · simp
    · split
      · exact mrqTry_ne_done _ _ _
      · simp

/-! ## Number of calls -/

theorem refineBody_counters (th : Theory F W) (toler : F) (work) (e : Eng F W) :
    (refineBody th toler work e).2.2 = .more → e.iter < 100 ∧ (refineBody th toler work e).1.fitRunning = true ∧
      (refineBody th toler work e).2.1.iter = e.iter + 1 := by
  unfold refineBody
  split
  · rename_i hc
    have h := mrqmin_frame th work { e with ochisq := e.chisq }
    split
    · rename_i wk e1 heq
      rw [heq] at h
      have hi : e1.iter = e.iter := h.iter
      exact fun _ => ⟨by omega, rfl, by dsimp only; rw [hi]⟩
    · rename_i wk e1 o hne heq
      exact fun h' => absurd h' hne
  · split
    · dsimp only
      split <;> simp
    · rename_i wk e1 o hne heq
      exact fun h' => absurd h' hne

theorem refineStep_counters (th : Theory F W) (toler : F) (s : Statics F) (e : Eng F W) :
    (refineStep th toler s e).2.2 = .more → (if s.fitRunning = true ∧ e.iter ≠ 0 then e.iter else 0) < 100 ∧
      (refineStep th toler s e).1.fitRunning = true ∧
      (refineStep th toler s e).2.1.iter = (if s.fitRunning = true ∧ e.iter ≠ 0 then e.iter else 0) + 1 := by
  unfold refineStep
  split
  · exact refineBody_counters th toler s.work e
  · dsimp only
    split
    · simp
    · rename_i w heq
      exact refineBody_counters th toler s.work { e with iter := 0, alambda := minusOne, stagnating := 0, chisq := th.dmax, world := w }

theorem refineLoop_spec (th : Theory F W) (toler : F) (n : ℕ) : ∀ (s : Statics F) (e : Eng F W) (it : ℕ),
    it = (if s.fitRunning = true ∧ e.iter ≠ 0 then e.iter else 0) → 101 ≤ n + it → it ≤ 100 →
    (refineLoop th toler n (s, e)).2.1 ≠ .more ∧ (refineLoop th toler n (s, e)).2.2 + it ≤ 101 := by
  induction n with
  | zero => intro s e it _ h1 h2; omega
  | succ n ih =>
    intro s e it hit h1 h2
    have hc := refineStep_counters th toler s e
    rw [← hit] at hc
    rw [refineLoop.eq_def th toler (n+1)]
    dsimp only
    generalize hr : refineStep th toler s e = r at hc ⊢
    obtain ⟨s1, e1, o⟩ := r
    cases o with
    | more =>
      dsimp only at hc ⊢
      obtain ⟨g1, g2, g3⟩ := hc rfl
      have hrun : s1.fitRunning = true ∧ e1.iter ≠ 0 := ⟨g2, by omega⟩
      obtain ⟨a1, a2⟩ := ih s1 e1 (it+1) (by rw [if_pos hrun]; omega) (by omega) (by omega)
      exact ⟨a1, by omega⟩
    | done => exact ⟨by simp, by simp; omega⟩
    | exc x => exact ⟨by simp, by simp; omega⟩
    | corrupt => exact ⟨by simp, by simp; omega⟩

/-- A loop that has ended does not change with more calls allowed. -/
theorem refineLoop_mono (th : Theory F W) (toler : F) (n k : ℕ) : ∀ st : Statics F × Eng F W,
    (refineLoop th toler n st).2.1 ≠ .more → refineLoop th toler (n + k) st = refineLoop th toler n st := by
  induction n with
  | zero => intro st h; exact absurd rfl h
  | succ n ih =>
    intro st
    rw [Nat.add_right_comm, refineLoop.eq_def th toler (n + 1), refineLoop.eq_def th toler (n + k + 1)]
    dsimp only
    rcases refineStep th toler st.1 st.2 with ⟨s1, e1, _ | _ | x | _⟩
    · dsimp only
      intro h
      rw [ih (s1, e1) h]
    all_goals exact fun _ => rfl

/-! ## `gaussj` and `covsrt` are defined -/

theorem gjLoop_ne_ub {n m : ℕ} (k : ℕ) : ∀ s : GJ n m F, gjLoop k s ≠ .ub := by
  induction k with
  | zero => intro s; simp [gjLoop]
  | succ k ih =>
    intro s
    rw [gjLoop]
    have h : ∀ r, gjStep s = r → (r >>= gjLoop k) ≠ .ub := by
      rintro (s' | x | _) hr
      · exact ih s'
      · exact fun h => nomatch h
      · unfold gjStep at hr
        split at hr
        · cases hr
        · dsimp only at hr
          split at hr <;> cases hr
    exact h _ rfl

theorem gaussj_ne_ub {n m : ℕ} (a : Matrix (Fin n) (Fin n) F) (b : Matrix (Fin n) (Fin m) F) : gaussj a b ≠ .ub := by
  unfold gaussj
  have := gjLoop_ne_ub n (GJ.mk a b (fun _ => 0) none [])
  split
  · simp
  · simp
  · rename_i h; exact absurd h this

theorem solveNormal_ne_ub (mfit m be cov) (da : ℕ → F) : solveNormal mfit m be cov da ≠ .ub := by
  unfold solveNormal
  have := gaussj_ne_ub (n := mfit) (m := 1) (fun i j => m i j) (fun i _ => be i)
  split
  · simp
  · simp
  · rename_i h; exact absurd h this

theorem covLoop_ok (ia : ℕ → Bool) (j : ℕ) : ∀ (k : ℕ) (c : ℕ → ℕ → F), nfree ia j ≤ k → ∃ r, covLoop ia j k c = .ok r := by
  induction j with
  | zero => intro k c _; exact ⟨c, rfl⟩
  | succ j ih =>
    intro k c h
    rw [covLoop.eq_def]
    dsimp only
    unfold nfree at h
    split at h
    · rename_i hi
      rw [if_pos hi]
      obtain ⟨k', rfl⟩ : ∃ k', k = k' + 1 := ⟨k - 1, by omega⟩
      exact ih k' _ (by omega)
    · rename_i hi
      rw [if_neg hi]
      exact ih k c h

/-! ## Trials -/

/-- The sum of weighted squares of the points, as `mrqcof` adds them. -/
def chi2 (dss : List (List (Pt F))) : F := dss.foldl (fun c l => add c (l.foldl addSquare zero)) zero

theorem lastOr0_cumChisq (l : List (Pt F)) : ∀ x : F, (cumChisq x l).getLast?.getD x = l.foldl addSquare x := by
  induction l with
  | nil => intro x; rfl
  | cons p l ih =>
    intro x
    rw [cumChisq, List.getLast?_cons, Option.getD_some]
    exact ih (addSquare x p)

theorem mrqAcc_chisq (ia ma) (dss : List (List (Pt F))) (al be) : (mrqAcc ia ma dss al be).2.2.1 = chi2 dss := by
  unfold mrqAcc chi2
  dsimp only
  rw [List.foldl_map]
  congr 1
  funext c l
  unfold lastOr0
  rw [lastOr0_cumChisq l zero]

theorem mrqcof_ok (th : Theory F W) (e : Eng F W) (a al be) {e1 r} (h : mrqcof th e a al be = (e1, .ok r)) :
    e1.par = (setP e a).par ∧ th.eval e1.par e.world = (e1.world, none) ∧ e1.chisq = chi2 (th.pts e1.world) ∧ e1.alambda = e.alambda := by
  unfold mrqcof at h
  dsimp only at h
  split at h
  · cases h
  · rename_i w heq
    cases h
    exact ⟨rfl, heq, mrqAcc_chisq (ia (setP e a)) (ma (setP e a)) (th.pts w) al be, rfl⟩

theorem mrqcof_err (th : Theory F W) (e : Eng F W) (a al be) {e1 x} (h : mrqcof th e a al be = (e1, .error x)) :
    e1.par = (setP e a).par := by
  unfold mrqcof at h
  dsimp only at h
  split at h
  · cases h; rfl
  · cases h

/-- The laws of arithmetic that the control of a refinement needs. `damp`: the damping never underflows or becomes NaN within the 100 iterations. -/
structure Lawful (F : Type) [Arith F] : Prop where
  neg : lt (minusOne : F) zero = true
  irr : lt (zero : F) zero = false
  refl : eq (zero : F) zero = true
  damp : ∀ l : List Bool, l.length ≤ 100 →
    let x := l.foldl (fun x b => mul x (if b then tenth else ten)) (thousandth : F)
    lt x zero = false ∧ eq x zero = false

/-- The damping after the decisions `l`. -/
def lam (l : List Bool) : F := l.foldl (fun x b => mul x (if b then tenth else ten)) thousandth

theorem lam_snoc (l : List Bool) (b : Bool) : mul (lam l) (if b then tenth else ten) = (lam (l ++ [b]) : F) := by
  unfold lam
  rw [List.foldl_append]
  rfl

/-- `p` has the same indices and flags as `p0`, and the same values of the parameters that are fixed. -/
structure SameFixed (p0 p : ParStore F) : Prop where
  ip : p.ip = p0.ip
  id : p.id = p0.id
  len : p.p.length = p0.p.length
  val : ∀ l < p0.p.length, p0.ip.getD l false = false → p.p.getD l zero = p0.p.getD l zero

/-- Sums of squares that decrease, in the order of the machine. -/
def Down (x y : F) : Prop := Relation.ReflTransGen (fun a b => lt b a = true) x y

/-- The parameters were evaluated, in some world, and `c` was the sum of squares. -/
def Evaluated (th : Theory F W) (par : ParStore F) (c : F) : Prop := ∃ w w', th.eval par w = (w', none) ∧ chi2 (th.pts w') = c

/-- The state between two calls of a refinement that began with parameters `p0` and the sum `c0`. -/
structure Inv (th : Theory F W) (p0 : ParStore F) (c0 : F) (l : List Bool) (wk : Work F) (e : Eng F W) : Prop where
  fix : SameFixed p0 e.par
  ma : wk.ma = Any.ma e
  mfit : wk.mfit = nfree (Any.ia e) (Any.ma e)
  atry : ∀ i < p0.p.length, p0.ip.getD i false = false → wk.atry i = p0.p.getD i zero
  lam : e.alambda = lam l
  chi : e.chisq = wk.ochisq
  down : Down c0 e.chisq
  seen : Evaluated th e.par e.chisq

theorem SameFixed.ia {p0 : ParStore F} {e : Eng F W} (h : SameFixed p0 e.par) (i : ℕ) : ia e i = p0.ip.getD i false := by
  unfold Any.ia; rw [h.ip]

theorem SameFixed.trial {p0 : ParStore F} {e : Eng F W} {wk : Work F} (h : SameFixed p0 e.par)
    (ha : ∀ i < p0.p.length, p0.ip.getD i false = false → wk.atry i = p0.p.getD i zero) (da) :
    ∀ i < p0.p.length, p0.ip.getD i false = false → trial wk e da i = p0.p.getD i zero := by
  intro i hi hf
  unfold Any.trial
  rw [if_neg (by rw [h.ia, hf]; simp)]
  exact ha i hi hf

theorem SameFixed.set {p0 : ParStore F} {e e1 : Eng F W} (h : SameFixed p0 e.par) (a)
    (ha : ∀ i < p0.p.length, p0.ip.getD i false = false → a i = p0.p.getD i zero) (h1 : e1.par = (setP e a).par) : SameFixed p0 e1.par := by
  rw [h1]
  have hm : Any.ma e = p0.p.length := h.len
  refine ⟨h.ip, h.id, (Frame.setP e a).len.trans h.len, fun l hl hf => ?_⟩
  show ((List.range (Any.ma e)).map a).getD l zero = _
  rw [hm, List.getD_eq_getElem?_getD, List.getElem?_map, List.getElem?_range hl]
  exact ha l hl hf

/-- A trial during the refinement, with any damping that is not zero. -/
theorem mrqTry_inv (th : Theory F W) {p0 : ParStore F} {c0 : F} {l wk} {e : Eng F W} (h : Inv th p0 c0 l wk e) (hz : eq (lam l : F) zero = false) :
    (∃ x, (mrqTry th wk e).2.2 = .exc x ∧ SameFixed p0 (mrqTry th wk e).2.1.par) ∨
    (∃ wk' e' b, mrqTry th wk e = (some wk', e', .more) ∧ Inv th p0 c0 (l ++ [b]) wk' e' ∧ (e'.par = e.par ∧ e'.chisq = e.chisq ∨ lt e'.chisq e.chisq = true)) := by
  unfold mrqTry
  rcases hs : solveNormal wk.mfit (augmented e) wk.beta e.covar wk.da with ⟨cov, da⟩ | x | _
  · dsimp only
    have hz' : ¬ eq e.alambda zero = true := by rw [h.lam, hz]; simp
    rw [if_neg hz']
    have hf := mrqcof_frame th { e with covar := cov } (Any.trial wk e da) cov da
    have htr := h.fix.trial h.atry da
    rcases hm : mrqcof th { e with covar := cov } (Any.trial wk e da) cov da with ⟨e1, x | ⟨cov1, da1⟩⟩
    · left
      have hp := mrqcof_err _ _ _ _ _ hm
      exact ⟨x, rfl, h.fix.set (e1 := e1) _ htr hp⟩
    · right
      rw [hm] at hf
      obtain ⟨h1, h2, h3, h4⟩ := mrqcof_ok _ _ _ _ _ hm
      have hfr : Frame e e1 := ⟨hf.iter, hf.stag, hf.och, hf.ip, hf.id, hf.len⟩
      have h4 : e1.alambda = e.alambda := h4
      dsimp only
      by_cases hlt : lt e1.chisq wk.ochisq = true
      · rw [if_pos hlt]
        have hp : (setP { e1 with covar := cov1 } (Any.trial wk e da)).par = e1.par := setP_again e { e1 with covar := cov1 } _ h1
        have hma : Any.ma (setP { e1 with covar := cov1 } (Any.trial wk e da)) = Any.ma e := ((Frame.setP _ _).ma).trans hfr.ma
        have hia : Any.ia (setP { e1 with covar := cov1 } (Any.trial wk e da)) = Any.ia e := ((Frame.setP _ _).ia).trans hfr.ia
        refine ⟨_, _, true, rfl, ⟨?_, ?_, ?_, htr, ?_, rfl, ?_, ?_⟩, .inr ?_⟩
        · exact h.fix.set _ htr (hp.trans h1)
        · exact h.ma.trans hma.symm
        · show wk.mfit = nfree (Any.ia (setP { e1 with covar := cov1 } (Any.trial wk e da))) (Any.ma (setP { e1 with covar := cov1 } (Any.trial wk e da)))
          rw [hma, hia]; exact h.mfit
        · show mul e1.alambda tenth = _
          rw [h4, h.lam]; exact lam_snoc l true
        · exact h.down.tail (by rw [h.chi]; exact hlt)
        · refine ⟨e.world, e1.world, ?_, h3.symm⟩
          show th.eval (setP { e1 with covar := cov1 } (Any.trial wk e da)).par e.world = _
          rw [hp]; exact h2
        · rw [h.chi]; exact hlt
      · rw [if_neg hlt]
        have hp : (setP { e1 with covar := cov1 } (arr e)).par = e.par := setP_back (e := e) (e1 := { e1 with covar := cov1 }) ⟨hf.iter, hf.stag, hf.och, hf.ip, hf.id, hf.len⟩
        have hma : Any.ma (setP { e1 with covar := cov1 } (arr e)) = Any.ma e := ((Frame.setP _ _).ma).trans hfr.ma
        have hia : Any.ia (setP { e1 with covar := cov1 } (arr e)) = Any.ia e := ((Frame.setP _ _).ia).trans hfr.ia
        refine ⟨_, _, false, rfl, ⟨?_, ?_, ?_, htr, ?_, rfl, ?_, ?_⟩, .inl ⟨hp, h.chi.symm⟩⟩
        · show SameFixed p0 (setP { e1 with covar := cov1 } (arr e)).par
          rw [hp]; exact h.fix
        · exact h.ma.trans hma.symm
        · show wk.mfit = nfree (Any.ia (setP { e1 with covar := cov1 } (arr e))) (Any.ma (setP { e1 with covar := cov1 } (arr e)))
          rw [hma, hia]; exact h.mfit
        · show mul e1.alambda ten = _
          rw [h4, h.lam]; exact lam_snoc l false
        · have := h.down; rw [h.chi] at this; exact this
        · have := h.seen
          rw [h.chi] at this
          show Evaluated th (setP { e1 with covar := cov1 } (arr e)).par wk.ochisq
          rw [hp]; exact this
  · left
    exact ⟨x, rfl, h.fix⟩
  · exact absurd hs (solveNormal_ne_ub _ _ _ _ _)

/-- The initialization of `mrqmin`. -/
theorem mrqInit_inv (th : Theory F W) (old) (e : Eng F W) :
    (∃ wk e1 x, mrqInit th old e = (wk, e1, some x) ∧ e1.par = e.par) ∨
    (∃ wk e1, mrqInit th old e = (wk, e1, none) ∧ e1.par = e.par ∧ th.eval e.par e.world = (e1.world, none) ∧ e1.chisq = chi2 (th.pts e1.world) ∧
      Inv th e.par (chi2 (th.pts e1.world)) [] wk e1) := by
  have hp : (setP { e with alambda := thousandth } (arr { e with alambda := thousandth })).par = e.par := setP_self { e with alambda := thousandth }
  unfold mrqInit
  dsimp only
  rcases hm : mrqcof th { e with alambda := thousandth } (arr { e with alambda := thousandth }) e.alpha (fun _ => zero) with ⟨e1, x | ⟨al, be⟩⟩
  · left
    exact ⟨_, _, x, rfl, (mrqcof_err _ _ _ _ _ hm).trans hp⟩
  · right
    obtain ⟨h1, h2, h3, h4⟩ := mrqcof_ok _ _ _ _ _ hm
    have hpar : e1.par = e.par := h1.trans hp
    have hpar' : ∀ r, ({ e1 with alpha := al, rw2 := r } : Eng F W).par = e.par := fun _ => hpar
    refine ⟨_, _, rfl, hpar, ?_, h3, ⟨?_, ?_, ?_, ?_, h4, rfl, ?_, ?_⟩⟩
    · rw [hpar] at h2; exact h2
    · show SameFixed e.par e1.par
      rw [hpar]; exact ⟨rfl, rfl, rfl, fun _ _ _ => rfl⟩
    · show e.par.p.length = e1.par.p.length
      rw [hpar]
    · show nfree (fun l => e.par.ip.getD l false) e.par.p.length = nfree (fun l => e1.par.ip.getD l false) e1.par.p.length
      rw [hpar]
    · intro i _ _
      show e1.par.p.getD i zero = _
      rw [hpar]
    · show Down (chi2 (th.pts e1.world)) e1.chisq
      rw [h3]; exact Relation.ReflTransGen.refl
    · exact ⟨e.world, e1.world, h2, h3.symm⟩

/-- The end of `mrqmin` in the last call. -/
theorem mrqTry_last (th : Theory F W) (hl : Lawful F) {p0 : ParStore F} {c0 : F} {l wk} {e : Eng F W} (h : Inv th p0 c0 l wk e) :
    (∃ x, (mrqTry th wk { e with alambda := zero }).2.2 = .exc x ∧ (mrqTry th wk { e with alambda := zero }).2.1.par = e.par) ∨
    (∃ c al, mrqTry th wk { e with alambda := zero } = (none, { e with alambda := zero, covar := c, alpha := al }, .more)) := by
  unfold mrqTry
  rcases hs : solveNormal wk.mfit (augmented { e with alambda := zero }) wk.beta e.covar wk.da with ⟨cov, da⟩ | x | _
  · right
    dsimp only
    rw [if_pos hl.refl]
    have hm : wk.mfit = nfree (Any.ia ({ e with alambda := zero } : Eng F W)) (Any.ma ({ e with alambda := zero } : Eng F W)) := h.mfit
    obtain ⟨c, hc⟩ := covLoop_ok (Any.ia ({ e with alambda := zero } : Eng F W)) (Any.ma ({ e with alambda := zero } : Eng F W)) wk.mfit
      (covZero cov (Any.ma ({ e with alambda := zero } : Eng F W)) wk.mfit) hm.ge
    obtain ⟨al, ha⟩ := covLoop_ok (Any.ia ({ e with alambda := zero } : Eng F W)) (Any.ma ({ e with alambda := zero } : Eng F W)) wk.mfit
      (covZero e.alpha (Any.ma ({ e with alambda := zero } : Eng F W)) wk.mfit) hm.ge
    unfold covsrt
    rw [hc, ha]
    exact ⟨c, al, rfl⟩
  · left
    exact ⟨x, rfl, rfl⟩
  · exact absurd hs (solveNormal_ne_ub _ _ _ _ _)

/-- Between two calls: the invariant and the residual. -/
structure Mid (th : Theory F W) (p0 : ParStore F) (c0 : F) (s : Statics F) (e : Eng F W) : Prop where
  run : s.fitRunning = true
  pos : e.iter ≠ 0
  inv : ∃ l wk, s.work = some wk ∧ Inv th p0 c0 l wk e ∧ l.length ≤ e.iter
  rw : ∃ w, e.rw2 = div e.chisq (wnormOf (th.pts w))

/-- The state at the end. -/
structure Final (th : Theory F W) (p0 : ParStore F) (c0 : F) (e : Eng F W) : Prop where
  fix : SameFixed p0 e.par
  down : Down c0 e.chisq
  seen : Evaluated th e.par e.chisq
  world : ∃ w, th.eval e.par w = (e.world, none)
  rw : ∃ w, e.rw2 = div e.chisq (wnormOf (th.pts w))

/-- What one call can lead to. -/
def After (th : Theory F W) (p0 : ParStore F) (c0 : F) (r : Statics F × Eng F W × Outcome) : Prop :=
  (r.2.2 = .more ∧ Mid th p0 c0 r.1 r.2.1) ∨ (r.2.2 = .done ∧ r.1.fitRunning = false ∧ Final th p0 c0 r.2.1) ∨ (∃ x, r.2.2 = .exc x ∧ SameFixed p0 r.2.1.par)

theorem refineBody_mid (th : Theory F W) (hl : Lawful F) (toler : F) {p0 : ParStore F} {c0 : F} {s : Statics F} {e : Eng F W} (h : Mid th p0 c0 s e) :
    After th p0 c0 (refineBody th toler s.work e) := by
  obtain ⟨l, wk, hw, hi, hlen⟩ := h.inv
  unfold refineBody
  rw [hw]
  split
  · rename_i hc
    have hd := hl.damp l (by omega)
    have hi' : Inv th p0 c0 l wk { e with ochisq := e.chisq } := ⟨hi.fix, hi.ma, hi.mfit, hi.atry, hi.lam, hi.chi, hi.down, hi.seen⟩
    have hm : mrqmin th (some wk) { e with ochisq := e.chisq } = mrqTry th wk { e with ochisq := e.chisq } := by
      unfold mrqmin
      rw [if_neg (by show ¬ lt e.alambda zero = true; rw [hi.lam]; exact ne_true_of_eq_false hd.1)]
      dsimp only
      rw [if_pos ⟨hi'.ma, hi'.mfit⟩]
    have hf := mrqTry_frame th wk { e with ochisq := e.chisq }
    rw [hm]
    rcases mrqTry_inv th hi' hd.2 with ⟨x, h1, h2⟩ | ⟨wk', e', b, h1, h2, -⟩
    · rcases hr : mrqTry th wk { e with ochisq := e.chisq } with ⟨wk1, e1, o⟩
      rw [hr] at h1 h2
      dsimp only at h1 h2
      subst h1
      exact .inr (.inr ⟨x, rfl, h2⟩)
    · rw [h1] at hf ⊢
      refine .inl ⟨rfl, rfl, Nat.succ_ne_zero _, ⟨l ++ [b], wk', rfl, ⟨h2.fix, h2.ma, h2.mfit, h2.atry, h2.lam, h2.chi, h2.down, h2.seen⟩, ?_⟩, ⟨_, rfl⟩⟩
      have hf1 : e'.iter = e.iter := hf.iter
      show (l ++ [b]).length ≤ e'.iter + 1
      rw [hf1, List.length_append]
      exact Nat.succ_le_succ hlen
  · have hm : mrqmin th (some wk) { e with alambda := zero } = mrqTry th wk { e with alambda := zero } := by
      unfold mrqmin
      rw [if_neg (by show ¬ lt (zero : F) zero = true; rw [hl.irr]; simp)]
      dsimp only
      rw [if_pos ⟨hi.ma, hi.mfit⟩]
    rw [hm]
    rcases mrqTry_last th hl hi with ⟨x, h1, h2⟩ | ⟨c, al, h1⟩
    · rcases hr : mrqTry th wk { e with alambda := zero } with ⟨wk1, e1, o⟩
      rw [hr] at h1 h2
      dsimp only at h1 h2
      subst h1
      exact .inr (.inr ⟨x, rfl, by show SameFixed p0 e1.par; rw [h2]; exact hi.fix⟩)
    · rw [h1]
      dsimp only
      rcases hev : th.eval e.par e.world with ⟨w, _ | x⟩
      · exact .inr (.inl ⟨rfl, rfl, hi.fix, hi.down, hi.seen, ⟨e.world, hev⟩, ⟨_, rfl⟩⟩)
      · exact .inr (.inr ⟨x, rfl, hi.fix⟩)

/-- The first call of a refinement. -/
theorem refineStep_first (th : Theory F W) (hl : Lawful F) (toler : F) (s : Statics F) (e : Eng F W) (hfresh : ¬(s.fitRunning = true ∧ e.iter ≠ 0)) :
    (∃ x, (refineStep th toler s e).2.2 = .exc x ∧ SameFixed e.par (refineStep th toler s e).2.1.par) ∨
    ∃ w0 w1, th.setup e.par e.world = (w0, none) ∧ th.eval e.par w0 = (w1, none) ∧ After th e.par (chi2 (th.pts w1)) (refineStep th toler s e) := by
  have hrefl : SameFixed e.par e.par := ⟨rfl, rfl, rfl, fun _ _ _ => rfl⟩
  unfold refineStep
  rw [if_neg hfresh]
  dsimp only
  rcases h0 : th.setup e.par e.world with ⟨w0, _ | x⟩
  · dsimp only
    let e0 : Eng F W := { e with iter := 0, alambda := minusOne, stagnating := 0, chisq := th.dmax, world := w0 }
    show (∃ x, (refineBody th toler s.work e0).2.2 = .exc x ∧ SameFixed e.par (refineBody th toler s.work e0).2.1.par) ∨
      ∃ w0' w1, (w0, none) = (w0', none) ∧ th.eval e.par w0' = (w1, none) ∧ After th e.par (chi2 (th.pts w1)) (refineBody th toler s.work e0)
    unfold refineBody
    rw [if_pos (.inl (by show 0 < 3; omega))]
    have hneg : lt e0.alambda zero = true := hl.neg
    rcases mrqInit_inv th s.work { e0 with ochisq := e0.chisq } with ⟨wk, e1, x, h1, h2⟩ | ⟨wk, e1, h1, h2, h3, h4, h5⟩
    · left
      have hm : mrqmin th s.work { e0 with ochisq := e0.chisq } = (some wk, e1, .exc x) := by
        unfold mrqmin
        rw [if_pos hneg, h1]
      rw [hm]
      exact ⟨x, rfl, by show SameFixed e.par e1.par; rw [h2]; exact hrefl⟩
    · have hm : mrqmin th s.work { e0 with ochisq := e0.chisq } = mrqTry th wk e1 := by
        unfold mrqmin
        rw [if_pos hneg, h1]
      have hf := (mrqInit_frame th s.work { e0 with ochisq := e0.chisq })
      rw [h1] at hf
      have hf2 := mrqTry_frame th wk e1
      rw [hm]
      rcases mrqTry_inv th h5 (hl.damp [] (by simp)).2 with ⟨x, h6, h7⟩ | ⟨wk', e', b, h6, h7, -⟩
      · left
        rcases hr : mrqTry th wk e1 with ⟨wk1, e2, o⟩
        rw [hr] at h6 h7
        dsimp only at h6 h7
        subst h6
        exact ⟨x, rfl, h7⟩
      · right
        rw [h6] at hf2 ⊢
        have hit : e'.iter = 0 := hf2.iter.trans hf.iter
        refine ⟨w0, e1.world, rfl, h3, .inl ⟨rfl, rfl, Nat.succ_ne_zero _,
          ⟨[b], wk', rfl, ⟨h7.fix, h7.ma, h7.mfit, h7.atry, h7.lam, h7.chi, h7.down, h7.seen⟩, ?_⟩, ⟨_, rfl⟩⟩⟩
        show 1 ≤ e'.iter + 1
        omega
  · left
    exact ⟨x, rfl, hrefl⟩

theorem refineLoop_mid (th : Theory F W) (hl : Lawful F) (toler : F) (n : ℕ) : ∀ {p0 : ParStore F} {c0 : F} {s : Statics F} {e : Eng F W}, Mid th p0 c0 s e →
    After th p0 c0 ((refineLoop th toler n (s, e)).1.1, (refineLoop th toler n (s, e)).1.2, (refineLoop th toler n (s, e)).2.1) := by
  induction n with
  | zero => intro p0 c0 s e h; exact .inl ⟨rfl, h⟩
  | succ n ih =>
    intro p0 c0 s e h
    have h1 := refineBody_mid th hl toler h
    rw [refineLoop.eq_def]
    dsimp only
    have hst : refineStep th toler s e = refineBody th toler s.work e := by
      unfold refineStep
      rw [if_pos ⟨h.run, h.pos⟩]
    rw [hst]
    rcases hb : refineBody th toler s.work e with ⟨s1, e1, _ | _ | x | _⟩
    all_goals rw [hb] at h1
    · rcases h1 with ⟨-, h1⟩ | ⟨h1, -⟩ | ⟨x, h1, -⟩
      · exact ih h1
      · cases h1
      · cases h1
    all_goals exact h1

/-- A whole refinement. -/
theorem refineLoop_first (th : Theory F W) (hl : Lawful F) (toler : F) (n : ℕ) (s : Statics F) (e : Eng F W) (hfresh : ¬(s.fitRunning = true ∧ e.iter ≠ 0)) :
    let r := refineLoop th toler (n + 1) (s, e)
    (∃ x, r.2.1 = .exc x ∧ SameFixed e.par r.1.2.par) ∨
    ∃ w0 w1, th.setup e.par e.world = (w0, none) ∧ th.eval e.par w0 = (w1, none) ∧ After th e.par (chi2 (th.pts w1)) (r.1.1, r.1.2, r.2.1) := by
  intro r
  have h1 := refineStep_first th hl toler s e hfresh
  have hr : r = refineLoop th toler (n + 1) (s, e) := rfl
  rw [refineLoop.eq_def] at hr
  dsimp only at hr
  rcases hs : refineStep th toler s e with ⟨s1, e1, _ | _ | x | _⟩
  · rw [hs] at h1 hr
    dsimp only at hr
    rcases h1 with ⟨x, h1, -⟩ | ⟨w0, w1, h2, h3, ⟨-, h4⟩ | ⟨h4, -⟩ | ⟨x, h4, -⟩⟩
    · cases h1
    · right
      have := refineLoop_mid th hl toler n h4
      rw [hr]
      exact ⟨w0, w1, h2, h3, this⟩
    · cases h4
    · cases h4
  all_goals
    rw [hs] at h1 hr
    dsimp only at hr
    rw [hr]
    exact h1

end Pdffit.Any
