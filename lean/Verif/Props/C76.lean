import Verif.Lemmas.FullChi

/-!
# C76: the steps of `refine()` go downhill, and where they stop

Chi-square of the PDF calculated from the structure is a function of the refined parameters. Where it is smooth, every call of
`refine_step` that changes the parameters moves them in a direction in which it decreases, and ends with a lower value; and with enough
damping the trial point of a call is always taken.

A trial point that is not taken counts as a step without progress. Four of them, with the dampings 0.001 to 1, are enough to end
the refinement, so that `refine()` can return the starting parameters although chi-square is not stationary there (`C76_stuck`).
-/

namespace Pdffit.C76
open Geom Det Deriv Layout Conf DMat Full _root_.Pdffit.Parser C75 Lin Filter

/-- The point at `t` on the line from the parameters `par` (`t = 0`) to `par'` (`t = 1`). -/
def toward (par par' : ParStore ℝ) (t : ℝ) : ParStore ℝ := { par with p := List.zipWith (fun a b => a + t * (b - a)) par.p par'.p }

/-- Chi-square is stationary: its derivative with respect to every free parameter exists and vanishes. -/
def Stationary (I : Input) (V : ParStore ℝ → ℕ → ℝ) (par : ParStore ℝ) : Prop :=
  ∀ k, k < par.p.length → par.ip.getD k false = true → HasDerivAt (fun t => C74.chi I (V (par.move k t))) 0 (par.p.getD k 0)

section
variable {p0 par par' : ParStore ℝ}

theorem toward_put (h : Adm p0 par) (h' : Adm p0 par') (t : ℝ) :
    toward par par' t = par.put (par.now + t • stepOf par fun i => par'.p.getD i 0 - par.p.getD i 0) := by
  have hl : par.p.length = par'.p.length := h.1.2.2.trans h'.1.2.2.symm
  refine congrArg (fun q => ({ par with p := q } : ParStore ℝ)) ?_
  apply List.ext_getElem
  · rw [List.length_zipWith, ← hl, min_self, List.length_ofFn]
  · intro i h1 h2
    have hi : i < par.p.length := by simpa using h2
    rw [List.getElem_zipWith, List.getElem_ofFn]
    have e1 : par.p.getD i 0 = par.p[i] := List.getD_eq_getElem _ _ hi
    have e2 : par'.p.getD i 0 = par'.p[i] := List.getD_eq_getElem _ _ (hl ▸ hi)
    by_cases hf : par.ip.getD i false = true
    · rw [if_pos hf]
      simp only [Pi.add_apply, Pi.smul_apply, stepOf, smul_eq_mul]
      rw [if_pos hf, e1, e2]
      rfl
    · have hf' : p0.ip.getD i false = false := by
        rw [← h.1.1]
        exact Bool.eq_false_iff.2 hf
      have hi0 : i < p0.p.length := by rw [← h.1.2.2]; exact hi
      rw [if_neg hf]
      have := (h'.2 i hi0 hf').trans (h.2 i hi0 hf').symm
      rw [e1, e2] at this
      rw [this, sub_self, mul_zero, add_zero]
      rfl

theorem fr_eq (h : Adm p0 par) : Fr par = Fr p0 := by
  unfold Fr
  rw [h.1.2.2, h.1.1]

/-- A changed parameter is a free one. -/
theorem moved (h : Adm p0 par) (h' : Adm p0 par') (hne : par' ≠ par) : ∃ i ∈ Fr p0, par'.p.getD i 0 - par.p.getD i 0 ≠ 0 := by
  by_contra hn
  push Not at hn
  apply hne
  refine parStore_ext ?_ (h'.1.1.trans h.1.1.symm) (h'.1.2.1.trans h.1.2.1.symm)
  have hl : par'.p.length = par.p.length := h'.1.2.2.trans h.1.2.2.symm
  refine List.ext_getElem hl fun i h1 h2 => ?_
  rw [← List.getD_eq_getElem par'.p 0 h1, ← List.getD_eq_getElem par.p 0 h2]
  have hi0 : i < p0.p.length := by rw [← h.1.2.2]; exact h2
  by_cases hf : p0.ip.getD i false = true
  · exact sub_eq_zero.1 (hn i ((mem_Fr p0 i).2 ⟨hi0, hf⟩))
  · exact (h'.2 i hi0 (Bool.eq_false_iff.2 hf)).trans (h.2 i hi0 (Bool.eq_false_iff.2 hf)).symm

end

/-- All calls up to one. -/
theorem run_steps {W : Type} {th : Theory ℝ W} {p0 : ParStore ℝ} {J : W → Prop}
    (hJ : ∀ par w w', SameKeys p0 par → J w → th.eval par w = (w', none) → J w') (toler : ℝ) (s : Statics ℝ) (e : Eng ℝ W)
    (hfresh : ¬ (s.fitRunning = true ∧ e.iter ≠ 0)) (hp : e.par = p0) (w : W) (hset : th.setup e.par e.world = (w, none)) (hw : J w) :
    ∀ n, (∀ o ∈ outN th toler (n + 1) (s, e), o = .more) →
    Down.Run th p0 J (stepN th toler (n + 1) (s, e)).1 (stepN th toler (n + 1) (s, e)).2 ∧ Adm p0 (stepN th toler n (s, e)).2.par ∧
    ∃ lam c, 0 < lam ∧ (n ≠ 0 → lam = (stepN th toler n (s, e)).2.alambda ∧ c = (stepN th toler n (s, e)).2.chisq) ∧
      Down.Tried th p0 J lam (stepN th toler n (s, e)).2.par (stepN th toler (n + 1) (s, e)).2.par c
        (stepN th toler (n + 1) (s, e)).2.chisq (stepN th toler (n + 1) (s, e)).2.alambda
  | 0, ho => by
    have hm : (refineStep th toler s e).2.2 = .more := ho _ (by simp [outN])
    have ha : Adm p0 e.par := by rw [hp]; exact Down.adm_refl p0
    obtain ⟨h1, c, h2⟩ := Down.step_first hJ toler s e hfresh ha w hset hw hm
    exact ⟨h1, ha, 1 / 1000, c, by norm_num, fun h => absurd rfl h, h2⟩
  | n + 1, ho => by
    have ho' : ∀ o ∈ outN th toler (n + 1) (s, e), o = .more := fun o h => ho o (by rw [outN_succ]; exact List.mem_append_left _ h)
    obtain ⟨h1, -, -⟩ := run_steps hJ toler s e hfresh hp w hset hw n ho'
    have hm : (refineStep th toler (stepN th toler (n + 1) (s, e)).1 (stepN th toler (n + 1) (s, e)).2).2.2 = .more :=
      ho _ (by rw [outN_succ]; simp)
    obtain ⟨h2, h3⟩ := Down.step_next hJ toler h1 hm
    rw [stepN_succ th toler (n + 1)]
    obtain ⟨wk, -, hk⟩ := h1.work
    exact ⟨h2, hk.adm, _, _, h1.lam, fun _ => ⟨rfl, rfl⟩, h3⟩

section
variable {I : Input} {cons : List (Constr (List Char))} {v0 : ℕ → ℝ} {p0 par : ParStore ℝ}

/-- The derivative along a step. -/
theorem along {f : (Fin par.p.length → ℝ) → ℝ} {b : ℕ → ℝ}
    (hf : HasFDerivAt f (dlin fun k => if par.ip.getD k false = true then -2 * b k else 0) par.now) (y : ℕ → ℝ) :
    HasDerivAt (fun t : ℝ => f (par.now + t • stepOf par y)) (-2 * ∑ i ∈ Fr par, b i * y i) 0 := by
  rw [← dlin_step]
  have h1 : HasDerivAt (fun t : ℝ => par.now + t • stepOf par y) (stepOf par y) 0 := by
    have := ((hasDerivAt_id' (0 : ℝ)).smul_const (stepOf par y)).const_add par.now
    simpa using this
  have h2 : HasFDerivAt f (dlin fun k => if par.ip.getD k false = true then -2 * b k else 0) (par.now + (0 : ℝ) • stepOf par y) := by
    simpa using hf
  exact h2.comp_hasDerivAt (0 : ℝ) h1

/-- The derivative with respect to one free parameter. -/
theorem along_one {f : ParStore ℝ → ℝ} {b : ℕ → ℝ}
    (hf : HasFDerivAt (fun w => f (par.put w)) (dlin fun k => if par.ip.getD k false = true then -2 * b k else 0) par.now)
    {k : ℕ} (hk : k < par.p.length) (hfree : par.ip.getD k false = true) :
    HasDerivAt (fun t => f (par.move k t)) (-2 * b k) (par.p.getD k 0) := by
  have h1 : HasDerivAt (fun t : ℝ => Function.update par.now ⟨k, hk⟩ t) (Pi.single ⟨k, hk⟩ 1) (par.p.getD k 0) :=
    hasDerivAt_update par.now ⟨k, hk⟩ _
  have e : Function.update par.now ⟨k, hk⟩ (par.p.getD k 0) = par.now := by
    rw [List.getD_eq_getElem _ _ hk]
    exact Function.update_eq_self (⟨k, hk⟩ : Fin par.p.length) par.now
  have h2 : HasFDerivAt (fun w => f (par.put w)) (dlin fun k => if par.ip.getD k false = true then -2 * b k else 0)
      (Function.update par.now ⟨k, hk⟩ (par.p.getD k 0)) := by rw [e]; exact hf
  have h3 := h2.comp_hasDerivAt (par.p.getD k 0) h1
  have e2 : dlin (fun k : Fin par.p.length => if par.ip.getD k false = true then -2 * b k else 0) (Pi.single ⟨k, hk⟩ 1) = -2 * b k := by
    rw [dlin_apply, Finset.sum_eq_single (⟨k, hk⟩ : Fin par.p.length)]
    · simp only [Pi.single_eq_same, mul_one]
      rw [if_pos hfree]
    · intro j _ hj
      rw [Pi.single_eq_of_ne hj, mul_zero]
    · intro h
      exact absurd (Finset.mem_univ _) h
  rw [e2] at h3
  refine h3.congr_of_eventuallyEq (Eventually.of_forall fun t => ?_)
  show f (par.move k t) = f (par.put (Function.update par.now ⟨k, hk⟩ t))
  rw [ParStore.put_update_free (k := ⟨k, hk⟩) hfree]

/-- The set-up and the targets. -/
theorem begins (H : I.Ok) (dmax toler : ℝ) (ops : List (COp (List Char) ℝ)) (hn : C08.NoRepl (fparse builtinTab) {} ops)
    (s : Statics ℝ) (e : Eng ℝ (CWorld (List Char) ℝ (List Out)))
    (hst : CState.run (fparse builtinTab) {} ops = ⟨e.par, e.world.cons, e.world.dvdp⟩) (hcur : ∀ x ∈ e.world.curve, x.1.WF)
    (hfresh : ¬ (s.fitRunning = true ∧ e.iter ≠ 0)) (hF : Fair I e.world.cons)
    {tv : ℕ → RVar} (htv : ∀ (c : ℕ) x, e.world.cons[c]? = some x → C47.Exists I.natoms I.nset (tv c) ∧ x.addr = I.addr (tv c))
    (n : ℕ) (hmore : ∀ o ∈ outN (constrTheory (I.static dmax)) toler (n + 1) (s, e), o = .more) :
    e.par.Wf ∧ (∀ par w w', SameKeys e.par par → I.Ready dmax e.par e.world.cons e.world.vars w →
      (constrTheory (I.static dmax)).eval par w = (w', none) → I.Ready dmax e.par e.world.cons e.world.vars w') ∧
    ∃ w, (constrTheory (I.static dmax)).setup e.par e.world = (w, none) ∧ I.Ready dmax e.par e.world.cons e.world.vars w := by
  have hfc : (refineStep (constrTheory (I.static dmax)) toler s e).2.2 = .more := hmore _ (by simp [outN])
  obtain ⟨w, hw⟩ := setup_none hfresh (.inl hfc)
  obtain ⟨hwf, hrd⟩ := start dmax ops hn e.world w hst hcur hw
  exact ⟨hwf, fun par w w' hk hr he => (Input.evalAt H dmax hF htv hwf hk hr he).1, w, hw, hrd⟩

end

/-- **C76** The state comes from calls without replaced constraints, the weights are not negative, and the first `n + 1` calls of `refine_step` return
"not finished". When call `n + 1` changes the parameters, chi-square of the PDF of the structure is lower at the new ones; and where the
calculation is smooth, chi-square has a derivative along the line from the old to the new parameters, and it is negative at the old ones.

Missing: that `refine()` does not return unchanged parameters unless they are stationary; it does, see `C76_stuck`. -/
theorem C76_downhill_partial (I : Input) (H : I.Ok) (dmax toler : ℝ) (ops : List (COp (List Char) ℝ))
    (hn : C08.NoRepl (fparse builtinTab) {} ops) (s : Statics ℝ) (e : Eng ℝ (CWorld (List Char) ℝ (List Out)))
    (hst : CState.run (fparse builtinTab) {} ops = ⟨e.par, e.world.cons, e.world.dvdp⟩) (hcur : ∀ x ∈ e.world.curve, x.1.WF)
    (hfresh : ¬ (s.fitRunning = true ∧ e.iter ≠ 0)) (hF : Fair I e.world.cons)
    (hwt : ∀ s ∈ I.sets, ∀ i ∈ grid s.d.D.nfmin s.d.D.nfmax, 0 ≤ s.d.wic.getD i.toNat 0)
    (V : ParStore ℝ → ℕ → ℝ) (hV : V = structureAt I e.world.cons e.world.vars) (n : ℕ)
    (hmore : ∀ o ∈ outN (constrTheory (I.static dmax)) toler (n + 1) (s, e), o = .more)
    (p : ℕ → ParStore ℝ) (hp : p = fun n => (stepN (constrTheory (I.static dmax)) toler n (s, e)).2.par) (hne : p (n + 1) ≠ p n) :
    C74.chi I (V (p (n + 1))) < C74.chi I (V (p n)) ∧
    (I.Smooth e.world.cons e.world.vars (p n) →
      (∀ᶠ t in nhds (0 : ℝ), Input.Num I (V (toward (p n) (p (n + 1)) t))) ∧
      ∃ m < 0, HasDerivAt (fun t => C74.chi I (V (toward (p n) (p (n + 1)) t))) m 0) := by
  subst hV hp
  obtain ⟨tv, htv⟩ := targets hF
  obtain ⟨hwf, hJ, w, hset, hw⟩ := begins H dmax toler ops hn s e hst hcur hfresh hF htv n hmore
  obtain ⟨h1, h2, lam, c, h3, -, w0, w', y, q, u0, u', t1, t2, t3, t4, t5, t6, t7, t8, t9, t10⟩ :=
    run_steps hJ toler s e hfresh rfl w hset hw n hmore
  dsimp only at hne ⊢
  generalize (stepN (constrTheory (I.static dmax)) toler n (s, e)).2.par = par at h2 t2 t7 t10 hne ⊢
  generalize (stepN (constrTheory (I.static dmax)) toler (n + 1) (s, e)).2.par = par' at t10 hne ⊢
  rcases t10 with ⟨a1, rfl, -, -⟩ | ⟨-, hsame, -, -⟩
  swap
  · exact absurd hsame hne
  obtain ⟨e1, e2, e3, e4, e5⟩ := Input.evalAt H dmax hF htv hwf h2.1 t1 t2
  obtain ⟨k1, k2, -⟩ := Input.evalAt_sums H dmax hF htv hwf h2.1 t1 t2 _ rfl _ rfl
  obtain ⟨l1, -⟩ := Input.evalAt_sums H dmax hF htv hwf t6.1 t8 t9 _ rfl _ rfl
  refine ⟨by rw [← k1, ← l1, ← t3]; exact a1, fun hS => ?_⟩
  have hweight : ∀ pt ∈ ((constrTheory (I.static dmax)).pts w').flatten, 0 ≤ pt.w := by
    intro pt hpt
    obtain ⟨s, g1, i, g2, g3⟩ := e5 pt hpt
    rw [g3]
    exact hwt s g1 i g2
  have hstep : ∀ i ∈ Fr e.par, par'.p.getD i 0 - par.p.getD i 0 = y i := fun i hi => by rw [t7 i hi]; ring
  have hd := (Down.descent hweight (t5 hweight) h3 t4).2 (by
    obtain ⟨i, g1, g2⟩ := moved h2 t6 hne
    exact ⟨i, g1, by rw [← hstep i g1]; exact g2⟩)
  have hwfp := wf_sameKeys hwf h2.1
  have hg := Input.chi_grad H hF hwfp e2 e3 hS tv htv
  have he := (Input.curve_grad H hF hwfp e2 e3 hS tv htv).1
  simp only [toward_put h2 t6]
  constructor
  · have hc : ContinuousAt (fun t : ℝ => par.now + t • stepOf par fun i => par'.p.getD i 0 - par.p.getD i 0) 0 := by fun_prop
    have := hc.eventually (p := fun w => Input.Num I (structureAt I e.world.cons e.world.vars (par.put w))) (by
      simp only [zero_smul, add_zero]
      exact he.mono fun w h => h.2)
    exact this
  · refine ⟨_, ?_, along (f := fun w => C74.chi I (structureAt I e.world.cons e.world.vars (par.put w))) hg _⟩
    have : ∑ i ∈ Fr par, I.beta e.world.cons e.world.vars tv par i * (par'.p.getD i 0 - par.p.getD i 0) =
        ∑ i ∈ Fr e.par, (grad (Fr e.par) ((constrTheory (I.static dmax)).pts w').flatten i fun _ => 0) * y i := by
      rw [fr_eq h2]
      exact Finset.sum_congr rfl fun i hi => by rw [k2 i hi, hstep i hi]
    rw [this]
    linarith

/-- **C76** At smooth parameters that are not stationary the trial point is taken whenever the damping is large enough, whatever the
history of the refinement: the next call of `refine_step` ends with a lower chi-square. -/
theorem C76_progress_partial (I : Input) (H : I.Ok) (dmax : ℝ) (cons : List (Constr (List Char))) (v0 : ℕ → ℝ) (hF : Fair I cons)
    (hwt : ∀ s ∈ I.sets, ∀ i ∈ grid s.d.D.nfmin s.d.D.nfmax, 0 ≤ s.d.wic.getD i.toNat 0)
    (V : ParStore ℝ → ℕ → ℝ) (hV : V = structureAt I cons v0) (par : ParStore ℝ) (hS : I.Smooth cons v0 par) (hns : ¬Stationary I V par) :
    ∃ Λ : ℝ, ∀ (toler : ℝ) (ops : List (COp (List Char) ℝ)) (s : Statics ℝ) (e : Eng ℝ (CWorld (List Char) ℝ (List Out))) (n : ℕ),
      C08.NoRepl (fparse builtinTab) {} ops → CState.run (fparse builtinTab) {} ops = ⟨e.par, e.world.cons, e.world.dvdp⟩ →
      (∀ x ∈ e.world.curve, x.1.WF) → ¬ (s.fitRunning = true ∧ e.iter ≠ 0) → e.world.cons = cons → e.world.vars = v0 →
      (∀ o ∈ outN (constrTheory (I.static dmax)) toler (n + 2) (s, e), o = .more) →
      (stepN (constrTheory (I.static dmax)) toler (n + 1) (s, e)).2.par = par →
      Λ ≤ (stepN (constrTheory (I.static dmax)) toler (n + 1) (s, e)).2.alambda →
      (stepN (constrTheory (I.static dmax)) toler (n + 2) (s, e)).2.chisq <
        (stepN (constrTheory (I.static dmax)) toler (n + 1) (s, e)).2.chisq := by
  subst hV
  obtain ⟨tv, htv⟩ := targets hF
  set L := (I.points cons v0 tv par).flatten with hL
  have hwL : ∀ pt ∈ L, 0 ≤ pt.w := by
    intro pt hpt
    obtain ⟨is, s, i, h1, h2, rfl⟩ := C74.points_mem hpt
    exact hwt s (List.mem_of_getElem? h1) i h2
  have hbeta : ∀ k, grad (Fr par) L k (fun _ => 0) = I.beta cons v0 tv par k := by
    intro k
    refine C74.points_sum _ _ _ fun is s _ i _ => ?_
    unfold lin
    simp only [mul_zero, Finset.sum_const_zero, add_zero, Input.pt]
    ring
  by_cases hok : par.Wf ∧ (∀ c ∈ cons, ∃ y, c.value (fparse builtinTab) par = some y) ∧ Input.Num I (structureAt I cons v0 par) ∧
      ∀ i ∈ Fr par, 0 < diag L i
  · obtain ⟨hwf, hv, hnum, hdiag⟩ := hok
    have hg := Input.chi_grad H hF hwf hv hnum hS tv htv
    have hne : ∃ i ∈ Fr par, grad (Fr par) L i (fun _ => 0) ≠ 0 := by
      by_contra hno
      push Not at hno
      apply hns
      intro k hk hfree
      have h1 := along_one (f := fun q => C74.chi I (structureAt I cons v0 q)) hg hk hfree
      rw [← hbeta, hno k ((mem_Fr par k).2 ⟨hk, hfree⟩), mul_zero] at h1
      exact h1
    simp only [← hbeta] at hg
    obtain ⟨Λ, hΛ⟩ := far par hwL hdiag hg hne
    refine ⟨Λ, fun toler ops s e n hn hst hcur hfresh hc hvv hmore hpar hlam => ?_⟩
    subst hc hvv
    obtain ⟨hwf0, hJ, w, hset, hw⟩ := begins H dmax toler ops hn s e hst hcur hfresh hF htv _ hmore
    obtain ⟨h1, h2, lam, c, h3, h4, w0, w', y, q, u0, u', t1, t2, t3, t4, -, t6, t7, t8, t9, t10⟩ :=
      run_steps hJ toler s e hfresh rfl w hset hw (n + 1) hmore
    obtain ⟨rfl, rfl⟩ := h4 (by omega)
    rw [hpar] at h2 t2 t7
    obtain ⟨k1, -, k3, k4, k5⟩ := Input.evalAt_sums H dmax hF htv hwf0 h2.1 t1 t2 _ rfl _ rfl
    obtain ⟨l1, -⟩ := Input.evalAt_sums H dmax hF htv hwf0 t6.1 t8 t9 _ rfl _ rfl
    have hq : q = par.put (par.now + stepOf par y) := by
      have e1 := toward_put h2 t6 1
      rw [one_smul] at e1
      have e2 : toward par q 1 = q := by
        refine parStore_ext ?_ (h2.1.1.trans t6.1.1.symm) (h2.1.2.1.trans t6.1.2.1.symm)
        have hl : par.p.length = q.p.length := h2.1.2.2.trans t6.1.2.2.symm
        apply List.ext_getElem
        · show (List.zipWith _ par.p q.p).length = _
          rw [List.length_zipWith, hl, min_self]
        · intro i g1 g2
          show (List.zipWith (fun a b => a + 1 * (b - a)) par.p q.p)[i]'g1 = _
          refine List.getElem_zipWith.trans ?_
          ring
      rw [e2] at e1
      rw [e1]
      congr 2
      funext k
      unfold stepOf
      split
      · rename_i hk
        dsimp only
        rw [t7 k ((mem_Fr e.par k).2 ⟨by rw [← h2.1.2.2]; exact k.2, by rw [← h2.1.1]; exact hk⟩)]
        ring
      · rfl
    have hlt := hΛ _ hlam y (by
      intro i hi
      rw [fr_eq h2] at hi ⊢
      rw [← k3 i hi, ← k4 i hi, ← k5 i hi]
      exact t4 i hi)
    rw [ParStore.put_now, ← hq, ← l1, ← k1, ← t3] at hlt
    rcases t10 with ⟨-, -, a3, -⟩ | ⟨a1, -⟩
    · rw [a3]
      exact hlt
    · exact absurd hlt (not_lt.2 a1)
  · refine ⟨0, fun toler ops s e n hn hst hcur hfresh hc hvv hmore hpar hlam => ?_⟩
    exfalso
    apply hok
    subst hc hvv
    obtain ⟨hwf0, hJ, w, hset, hw⟩ := begins H dmax toler ops hn s e hst hcur hfresh hF htv _ hmore
    obtain ⟨h1, h2, lam, c, h3, h4, w0, w', y, q, u0, u', t1, t2, t3, t4, t5, -⟩ :=
      run_steps hJ toler s e hfresh rfl w hset hw (n + 1) hmore
    rw [hpar] at h2 t2
    obtain ⟨-, e2, e3, -, e5⟩ := Input.evalAt H dmax hF htv hwf0 h2.1 t1 t2
    obtain ⟨k1, -, k3, -⟩ := Input.evalAt_sums H dmax hF htv hwf0 h2.1 t1 t2 _ rfl _ rfl
    refine ⟨wf_sameKeys hwf0 h2.1, e2, e3, fun i hi => ?_⟩
    rw [fr_eq h2] at hi
    rw [hL, ← k3 i hi]
    refine t5 (fun pt hpt => ?_) i hi
    obtain ⟨s, g1, i, g2, g3⟩ := e5 pt hpt
    rw [g3]
    exact hwt s g1 i g2

/-! ## A refinement that is stuck: the scale factor of the example of C74 is the square of the parameter, the data have the scale factor 5,
the start is 0.01. The step is about 250 for small damping and 125 for the damping 1, so that all four trial points are too far. -/

open C74

def consSq : List (Constr (List Char)) := [⟨(setup [1] 1).slots.idxOf (.pscale 0), none, 1, .fsqr, true⟩]

theorem same2 (y : ℝ) : C73.Same (store 2) (store y) := ⟨rfl, rfl, rfl, fun i hi hf => by
  have hi : i < 1 := hi
  have : i = 0 := by omega
  subst this
  cases hf⟩

theorem id_structure (y : ℝ) : structureAt (cubic data5) cons1 vars1 (store y) = prescribed (cubic data5) cons1 vars1 (store y) := by
  have hM := cubic_mix data5 data5_length
  rw [← vars_eq cubic_fair (hM.value (same2 y)), C74.vars_eq (cubic_ok _ data5_length) hM (hM.value (same2 y))]

theorem sq_structure (x : ℝ) : structureAt (cubic data5) consSq vars1 (store x) = prescribed (cubic data5) cons1 vars1 (store (x * x)) := by
  rw [← id_structure]
  unfold structureAt
  congr 1
  funext a
  unfold consSq cons1
  rw [List.find?_singleton, List.find?_singleton]
  dsimp only
  cases (List.idxOf (RVar.pscale 0) (setup [1] 1).slots == a) <;> rfl

theorem sq_fair : Fair (cubic data5) consSq where
  one := by simp [consSq]
  assigns := by
    intro c hc
    simp only [consSq, List.mem_singleton] at hc
    subst hc
    simp [Constr.assigns]
  target := by
    intro c hc
    simp only [consSq, List.mem_singleton] at hc
    subst hc
    exact ⟨.pscale 0, by show 0 < 1; norm_num, rfl⟩

theorem id_chi (y : ℝ) : C74.chi (cubic data5) (prescribed (cubic data5) cons1 vars1 (store y)) = (5 - y) ^ 2 / 25 * norm (cubic data5) := by
  unfold C74.chi C75.norm
  rw [cubic_over, cubic_over, ← List.sum_map_mul_left]
  congr 1
  refine List.map_congr_left fun i hi => ?_
  rw [show (set1 data5).d.obs = data5 from rfl, data5_unit hi, cubic_curve data5 data5_length y i hi]
  ring

theorem sq_chi (x : ℝ) : C74.chi (cubic data5) (structureAt (cubic data5) consSq vars1 (store x)) = (5 - x * x) ^ 2 / 25 * norm (cubic data5) := by
  rw [sq_structure, id_chi]

theorem sq_value (x : ℝ) : ∀ c ∈ consSq, ∃ y, c.value (fparse builtinTab) (store x) = some y := by
  intro c hc
  simp only [consSq, List.mem_singleton] at hc
  subst hc
  exact ⟨x * x, rfl⟩

theorem sq_num (x : ℝ) : (cubic data5).Num (structureAt (cubic data5) consSq vars1 (store x)) := by
  rw [sq_structure]
  have hM := cubic_mix data5 data5_length
  exact (hM.off (cubic_ok _ data5_length) _).num (cubic_ok _ data5_length) hM.num

theorem sq_target : ∀ (c : ℕ) x, consSq[c]? = some x →
    C47.Exists (cubic data5).natoms (cubic data5).nset (.pscale 0) ∧ x.addr = (cubic data5).addr (.pscale 0) := by
  intro c x hc
  have hm := List.mem_of_getElem? hc
  simp only [consSq, List.mem_singleton] at hm
  subst hm
  exact ⟨by show 0 < 1; norm_num, rfl⟩

theorem key1 {x : ℝ} {par : ParStore ℝ} (h : SameKeys (store x) par) : par = store (par.p.getD 0 0) := by
  obtain ⟨p, ip, id⟩ := par
  obtain ⟨h1, h2, h3⟩ := h
  dsimp only at h1 h2 h3
  subst h1 h2
  match p, h3 with
  | [y], _ => rfl

theorem fr1 (x : ℝ) : Fr (store x) = {0} := free1 x

theorem wf1 (x : ℝ) : (store x).Wf := ⟨rfl, rfl, by simp [store]⟩

theorem wt1 : ∀ s ∈ (cubic data5).sets, ∀ i ∈ grid s.d.D.nfmin s.d.D.nfmax, 0 ≤ s.d.wic.getD i.toNat 0 :=
  (cubic_mix data5 data5_length).weight

/-- The derivative of the curve. -/
theorem sq_slope (x : ℝ) {i : ℤ} (hi : i ∈ grid (set1 data5).d.D.nfmin (set1 data5).d.D.nfmax) :
    (cubic data5).slope (structureAt (cubic data5) consSq vars1 (store x)) 0 (set1 data5) 1 (fun _ => .pscale 0) (Input.dvar consSq (store x)) i 0 =
      2 * x * (cubic data5).unit (prescribed (cubic data5) cons1 vars1 (store 2)) 0 (set1 data5) 0 i := by
  have H := cubic_ok _ data5_length
  unfold Input.slope
  rw [Fin.sum_univ_one, Input.column_unit H _ (is := 0) (s := set1 data5) rfl 0 i hi, sq_structure,
    ((cubic_mix data5 data5_length).off H _).unit (is := 0) (s := set1 data5) rfl]
  have : Input.dvar consSq (store x) (0 : Fin 1) 0 = 2 * x := rfl
  rw [this]
  ring

theorem sq_points (x : ℝ) (F : Pt ℝ → ℝ) : (((cubic data5).points consSq vars1 (fun _ => .pscale 0) (store x)).flatten.map F).sum =
    ((grid (set1 data5).d.D.nfmin (set1 data5).d.D.nfmax).map fun i => F (Input.pt (set1 data5)
      ((cubic data5).curveOf (structureAt (cubic data5) consSq vars1 (store x)) 0 (set1 data5))
      (fun i j => (cubic data5).slope (structureAt (cubic data5) consSq vars1 (store x)) 0 (set1 data5) 1 (fun _ => .pscale 0)
        (Input.dvar consSq (store x)) i j) i)).sum := by
  unfold Input.points C74.points
  show (((([set1 data5].mapIdx _).flatten : List (Pt ℝ)).map F).sum : ℝ) = _
  simp only [List.mapIdx_cons, List.mapIdx_nil, List.flatten_cons, List.flatten_nil, List.append_nil, List.map_map]
  rfl

theorem sq_diag (x : ℝ) : diag ((cubic data5).points consSq vars1 (fun _ => .pscale 0) (store x)).flatten 0 =
    4 * x ^ 2 / 25 * norm (cubic data5) := by
  unfold diag C75.norm
  rw [sq_points, cubic_over, ← List.sum_map_mul_left]
  congr 1
  refine List.map_congr_left fun i hi => ?_
  unfold Input.pt
  dsimp only
  rw [sq_slope x hi, show (set1 data5).d.obs = data5 from rfl, data5_unit hi]
  ring

theorem sq_beta (x : ℝ) : (cubic data5).beta consSq vars1 (fun _ => .pscale 0) (store x) 0 =
    2 * x * (5 - x * x) / 25 * norm (cubic data5) := by
  unfold Input.beta C75.norm
  rw [cubic_over, cubic_over, ← List.sum_map_mul_left]
  congr 1
  refine List.map_congr_left fun i hi => ?_
  rw [show consSq.length = 1 from rfl, sq_slope x hi, show (set1 data5).d.obs = data5 from rfl, data5_unit hi, sq_structure,
    cubic_curve data5 data5_length (x * x) i hi]
  ring

theorem sq_row (x : ℝ) (y : ℕ → ℝ) : row (Fr (store x)) ((cubic data5).points consSq vars1 (fun _ => .pscale 0) (store x)).flatten 0 y =
    4 * x ^ 2 / 25 * norm (cubic data5) * y 0 := by
  rw [row_pts, fr1, Finset.sum_singleton, ← sq_diag]
  rfl

/-- The pairs of the cubic structure are away from all thresholds: distance 3, width 0.1, points 0.5 apart. -/
theorem iso_steady (T : ℤ × ℤ × ℤ) : Steady (C68.span C68.isoD 1 3) (C68.iso (1 / 200)) ((0, 0), T) := by
  have r := C68.span_rc (D := C68.isoD) (lo := 1) (hi := 3) le_rfl
  set D := C68.span C68.isoD 1 3
  have hd : dist2 (C68.iso (1 / 200)) ((0, 0), T) = 9 * ((T.1 ^ 2 + T.2.1 ^ 2 + T.2.2 ^ 2 : ℤ) : ℝ) := by
    push_cast
    exact C68.iso_d2 (1 / 200) T
  have hm : msdOf (C68.iso (1 / 200)) ((0, 0), T) = if T = 0 then 0 else 2 * (1 / 200) := C68.iso_msd (1 / 200) T
  have hc : corfact D (C68.iso (1 / 200)) (dist2 (C68.iso (1 / 200)) ((0, 0), T)) = 1 := (C68.iso_width (1 / 200) D rfl T).1
  have h1 : D.rmin2 = 1 / 100 := by
    unfold Data.rmin2
    rw [r.1]
    norm_num
  have h2 : D.rmax2 = 16 := by
    unfold Data.rmax2
    rw [r.2]
    norm_num
  set m : ℤ := T.1 ^ 2 + T.2.1 ^ 2 + T.2.2 ^ 2
  have hone : D.rmin2 < dist2 (C68.iso (1 / 200)) ((0, 0), T) → dist2 (C68.iso (1 / 200)) ((0, 0), T) < D.rmax2 →
      √(dist2 (C68.iso (1 / 200)) ((0, 0), T)) = 3 ∧ T ≠ 0 := by
    rw [h1, h2, hd]
    intro a b
    have hm1 : m = 1 := by
      have : (0 : ℝ) < m := by linarith
      have : (m : ℝ) < 2 := by linarith
      have : 0 < m := by exact_mod_cast ‹(0 : ℝ) < m›
      have : m < 2 := by exact_mod_cast ‹(m : ℝ) < 2›
      omega
    refine ⟨by rw [hm1, show (9 * ((1 : ℤ) : ℝ)) = 3 ^ 2 by norm_num, Real.sqrt_sq (by norm_num)], ?_⟩
    rintro rfl
    simp [m] at hm1
  have hcut : ¬√(dist2 (C68.iso (1 / 200)) ((0, 0), T)) < (C68.iso (1 / 200)).rcut := by
    rw [show (C68.iso (1 / 200)).rcut = 0 from rfl]
    exact not_lt.2 (Real.sqrt_nonneg _)
  have hsig : T ≠ 0 → sigB D (C68.iso (1 / 200)) ((0, 0), T) (decide (√(dist2 (C68.iso (1 / 200)) ((0, 0), T)) < (C68.iso (1 / 200)).rcut)) =
      1 / 10 := by
    intro hT
    unfold sigB phiB
    rw [decide_eq_false hcut, hc, hm, if_neg hT, show (2 * (1 / 200) : ℝ) = (1 / 10) ^ 2 by norm_num, Real.sqrt_sq (by norm_num)]
    norm_num
  constructor
  · rw [h1, hd]
    intro e
    have : ((900 * m : ℤ) : ℝ) = ((1 : ℤ) : ℝ) := by push_cast; linarith
    have : 900 * m = 1 := by exact_mod_cast this
    omega
  · rw [h2, hd]
    intro e
    have : ((9 * m : ℤ) : ℝ) = ((16 : ℤ) : ℝ) := by push_cast; linarith
    have : 9 * m = 16 := by exact_mod_cast this
    omega
  · intro a b
    rw [hm, if_neg (hone a b).2]
    norm_num
  · intro _ _
    rw [hc]
    norm_num
  · intro a b
    rw [(hone a b).1]
    show (3 : ℝ) ≠ 0
    norm_num
  · exact fun h => absurd h hcut
  · intro a b _
    right
    rw [hsig (hone a b).2, (hone a b).1, r.1]
    intro n e
    have e : ((3 : ℤ) : ℝ) = n + 1 / 2 := by
      rw [← e]
      show ((3 : ℤ) : ℝ) = (max 1 (3 - 5 * (1 / 10)) - 1) / (1 / 2)
      rw [max_eq_right (by norm_num)]
      norm_num
    have : ((6 : ℤ) : ℝ) = ((2 * n + 1 : ℤ) : ℝ) := by push_cast at e ⊢; linarith
    have : 6 = 2 * n + 1 := by exact_mod_cast this
    omega
  · intro a b _
    left
    rw [hsig (hone a b).2, (hone a b).1]
    unfold hiEnd
    rw [if_neg (by rw [show (C68.iso (1 / 200)).stepcut = 0 from rfl]; exact lt_irrefl _), r.2]
    norm_num

theorem sq_moved {par : ParStore ℝ} {x : RVar} (hx : C47.Exists (cubic data5).natoms (cubic data5).nset x)
    (hm : (cubic data5).Moved consSq par x) : x = .pscale 0 := by
  obtain ⟨c, hc, ha, -⟩ := hm
  simp only [consSq, List.mem_singleton] at hc
  subst hc
  exact ((cubic_ok _ data5_length).sep (.pscale 0) x (by show 0 < 1; norm_num) hx ha).symm

theorem sq_smooth (x : ℝ) : (cubic data5).Smooth consSq vars1 (store x) where
  form := by
    intro c hc line hl
    simp only [consSq, List.mem_singleton] at hc
    subst hc
    cases hl
  wrap := by
    intro c hc n hn
    simp only [consSq, List.mem_singleton] at hc
    subst hc
    exfalso
    unfold Input.icc at hn
    cases hq : (setup (cubic data5).natoms (cubic data5).nset).slots.find? fun v =>
        (cubic data5).addr v == (cubic data5).addr (.pscale 0) with
    | none =>
      change (match (setup (cubic data5).natoms (cubic data5).nset).slots.find? fun v =>
        (cubic data5).addr v == (cubic data5).addr (.pscale 0) with
        | some (.pos ip _ k) => ((cubic data5).phases[ip]?).map fun ph => (ph.icc k : ℝ)
        | _ => none) = some n at hn
      rw [hq] at hn
      cases hn
    | some y =>
      have hy : y = .pscale 0 := by
        have h1 := List.mem_of_find?_eq_some hq
        rw [C47.complete] at h1
        exact (cubic_ok _ data5_length).sep y (.pscale 0) h1 (by show 0 < 1; norm_num) (by simpa using List.find?_some hq)
      subst hy
      change (match (setup (cubic data5).natoms (cubic data5).nset).slots.find? fun v =>
        (cubic data5).addr v == (cubic data5).addr (.pscale 0) with
        | some (.pos ip _ k) => ((cubic data5).phases[ip]?).map fun ph => (ph.icc k : ℝ)
        | _ => none) = some n at hn
      rw [hq] at hn
      cases hn
  angles := fun ip hip k hm => by
    have hip : ip < 1 := hip
    have := sq_moved (x := .win ip k) hip hm
    cases this
  phases := by
    intro is s hs ip y hy
    obtain ⟨rfl, rfl⟩ := cubic_set data5 hs
    have H := cubic_ok _ data5_length
    have hoff := (cubic_mix data5 data5_length).off H (store (x * x))
    have hip : ip < 1 := (List.getElem?_eq_some_iff.1 hy).1
    have hip : ip = 0 := by omega
    subst hip
    rw [sq_structure, hoff.phase _ _ y hy, hoff.dat (is := 0) (s := set1 data5) rfl, cubic_dat data5 data5_length]
    have hy : y = (C68.iso (1 / 200), C60.noSel) := by
      have : (Input.template (cubic data5) (set1 data5))[0]? = some (some (C68.iso (1 / 200), C60.noSel)) := rfl
      rw [this] at hy
      simpa using hy.symm
    subst hy
    rw [cubic_phase data5 data5_length]
    refine ⟨.inr fun hm => RVar.noConfusion (sq_moved (x := .spdiameter 0) hip hm),
      .inl ⟨fun k => ⟨fun hm => RVar.noConfusion (sq_moved (x := .a0 0 k) hip hm),
      fun hm => RVar.noConfusion (sq_moved (x := .win 0 k) hip hm)⟩, fun x hx => ?_⟩⟩
    unfold visited at hx
    rw [List.mem_flatMap] at hx
    obtain ⟨z, hz, hx⟩ := hx
    obtain ⟨T, -, rfl⟩ := List.mem_map.1 hx
    have hz := (List.mem_filter.1 hz).1
    have : z = (0, 0) := by
      have e : halfPairs 1 = [(0, 0)] := rfl
      have hz : z ∈ halfPairs 1 := hz
      rw [e] at hz
      simpa using hz
    subst this
    have h := iso_steady T
    exact ⟨h.lo, h.hi, h.msd, h.cor, h.cut, h.phi, h.first, h.last⟩
  good := by
    intro is s hs x hx hm
    rw [sq_moved hx hm]
    exact .inr trivial

theorem sq_base (dmax x0 : ℝ) (hx0 : x0 ≠ 0) : Down.Base (constrTheory ((cubic data5).static dmax)) (store x0)
    ((cubic data5).Ready dmax (store x0) consSq vars1) ((5 - x0 * x0) ^ 2 / 25 * norm (cubic data5)) where
  ev := by
    intro par w hk hw
    rw [key1 hk]
    rw [key1 hk] at hk
    generalize par.p.getD 0 0 = x at hk ⊢
    have H := cubic_ok _ data5_length
    have hV := vars_eq (v0 := vars1) sq_fair (sq_value x)
    obtain ⟨w', G, e1, e2, -⟩ := Input.eval_ok H dmax sq_fair.one sq_fair.assigns (fun _ => .pscale 0) sq_target hw
      ⟨hk.2.1, hk.1, hk.2.2⟩ (fun c hc => by
        obtain ⟨y, hy⟩ := sq_value x c hc
        exact cres_of_value hy) (by rw [hV]; exact sq_num x) (by
        rintro is s - c x - - (⟨e, -⟩ | ⟨ip, ia, ph, σ, e, -⟩) <;> cases e)
    exact ⟨w', e1, e2⟩
  here := by
    intro w w' hw he
    have H := cubic_ok _ data5_length
    obtain ⟨-, -, -, -, e5⟩ := Input.evalAt H dmax sq_fair sq_target (wf1 _) ⟨rfl, rfl, rfl⟩ hw he
    obtain ⟨k1, -, k3, -⟩ := Input.evalAt_sums H dmax sq_fair sq_target (wf1 _) ⟨rfl, rfl, rfl⟩ hw he _ rfl _ rfl
    have hweight : ∀ pt ∈ ((constrTheory ((cubic data5).static dmax)).pts w').flatten, 0 ≤ pt.w := by
      intro pt hpt
      obtain ⟨s, g1, i, g2, g3⟩ := e5 pt hpt
      rw [g3]
      exact wt1 s g1 i g2
    refine ⟨⟨hweight, fun y hy i hi hf => ?_⟩, ?_⟩
    · have hi : i < 1 := hi
      have hi : i = 0 := by omega
      subst hi
      by_contra hne
      have hd : diag ((constrTheory ((cubic data5).static dmax)).pts w').flatten 0 = 0 := by
        unfold diag
        refine List.sum_eq_zero fun x hx => ?_
        obtain ⟨pt, hpt, rfl⟩ := List.mem_map.1 hx
        by_cases hw0 : pt.w = 0
        · rw [hw0]
          ring
        · have := hy pt hpt hw0
          change ∑ i ∈ Fr (store x0), y i * pt.d i = 0 at this
          rw [fr1, Finset.sum_singleton] at this
          rw [(mul_eq_zero.1 this).resolve_left hne, mul_zero]
      rw [k3 0 (by rw [fr1]; simp), sq_diag] at hd
      have := cubic_norm
      have : 0 < 4 * x0 ^ 2 / 25 * norm (cubic data5) := by positivity
      linarith
    · rw [k1, sq_chi]

/-- All trial points are rejected. -/
theorem sq_stuck (dmax : ℝ) : Down.Stuck (constrTheory ((cubic data5).static dmax)) (store (1 / 100))
    ((cubic data5).Ready dmax (store (1 / 100)) consSq vars1) ((5 - 1 / 10000) ^ 2 / 25 * norm (cubic data5)) where
  toBase := by
    have := sq_base dmax (1 / 100) (by norm_num)
    norm_num at this ⊢
    exact this
  up := by
    intro k hk w w' y q v v' hw he hy hq hqy hv hev
    have H := cubic_ok _ data5_length
    have h0 : (0 : ℕ) ∈ Fr (store (1 / 100)) := by rw [fr1]; simp
    obtain ⟨-, k2, k3, k4, -⟩ := Input.evalAt_sums H dmax sq_fair sq_target (wf1 _) ⟨rfl, rfl, rfl⟩ hw he _ rfl _ rfl
    obtain ⟨l1, -⟩ := Input.evalAt_sums H dmax sq_fair sq_target (wf1 _) hq.1 hv hev _ rfl _ rfl
    have e := hy 0 h0
    rw [k3 0 h0, k4 0 h0, k2 0 h0, sq_row, sq_diag, sq_beta] at e
    have hN := cubic_norm
    set N := norm (cubic data5)
    have e2 : (1 + 10 ^ k / 1000) * y 0 = 50 * (5 - 1 / 10000) := by
      have : (1 + 10 ^ k / 1000) * y 0 * N = 50 * (5 - 1 / 10000) * N := by linarith
      exact mul_right_cancel₀ hN.ne' this
    have hl : (10 : ℝ) ^ k / 1000 ≤ 1 := by
      have : (10 : ℝ) ^ k ≤ 10 ^ 3 := pow_le_pow_right₀ (by norm_num) (by omega)
      linarith
    have hl0 : (0 : ℝ) < 10 ^ k / 1000 := by positivity
    have hy0 : 100 ≤ y 0 := by
      by_contra hlt
      push Not at hlt
      have : (1 + 10 ^ k / 1000) * y 0 < (1 + 10 ^ k / 1000) * 100 := mul_lt_mul_of_pos_left hlt (by linarith)
      linarith
    rw [l1, key1 hq.1, sq_chi]
    have hx : 100 ≤ q.p.getD 0 0 := by
      rw [hqy 0 h0]
      have : (store (1 / 100)).p.getD 0 0 = 1 / 100 := rfl
      rw [this]
      linarith
    have hxx : 10000 ≤ q.p.getD 0 0 * q.p.getD 0 0 := by nlinarith
    have : (5 - 1 / 10000 : ℝ) ^ 2 ≤ (5 - q.p.getD 0 0 * q.p.getD 0 0) ^ 2 := by nlinarith
    have := mul_le_mul_of_nonneg_right this hN.le
    linarith

/-- The state after `setpar(1, x)` and `constrain(pscale, 1, FSQR)`. -/
noncomputable def engSq (x : ℝ) (dv : Mat ℝ) : Eng ℝ (CWorld (List Char) ℝ (List Out)) :=
  ⟨store x, ⟨vars1, consSq, dv, [], []⟩, 0, 0, 0, 0, 0, fun _ _ => 0, fun _ _ => 0, [], 0⟩

theorem sq_setup (dmax x : ℝ) {w : CWorld (List Char) ℝ (List Out)} (hi : C08.Inv textIds ⟨store x, w.cons, w.dvdp⟩)
    (hw : CInv ((cubic data5).static dmax) (fun c => ∀ x ∈ c, x.1.WF) consSq vars1 w) :
    ∃ w', (constrTheory ((cubic data5).static dmax)).setup (store x) w = (w', none) ∧
      (cubic data5).Ready dmax (store x) consSq vars1 w' :=
  Input.setup_ok dmax hi hw fun c hc => by
    obtain ⟨y, hy⟩ := sq_value x c hc
    exact cres_of_value hy

theorem sq_not_stationary : ¬Stationary (cubic data5) (structureAt (cubic data5) consSq vars1) (store (1 / 100)) := by
  intro hs
  have hN := cubic_norm
  have h1 := hs 0 (by show 0 < 1; norm_num) rfl
  have e : (fun t => C74.chi (cubic data5) (structureAt (cubic data5) consSq vars1 ((store (1 / 100)).move 0 t))) =
      fun t : ℝ => (5 - t * t) ^ 2 / 25 * norm (cubic data5) := by
    funext t
    exact sq_chi t
  rw [e] at h1
  have h2 : HasDerivAt (fun t : ℝ => (5 - t * t) ^ 2 / 25 * norm (cubic data5))
      (2 * (5 - 1 / 100 * (1 / 100)) ^ 1 * -(1 * (1 / 100) + 1 / 100 * 1) / 25 * norm (cubic data5)) (1 / 100) := by
    have := ((((hasDerivAt_id' (1 / 100 : ℝ)).fun_mul (hasDerivAt_id' (1 / 100 : ℝ))).const_sub 5).fun_pow 2).div_const 25 |>.mul_const
      (norm (cubic data5))
    simpa using this
  have h3 := h1.unique h2
  norm_num at h3
  linarith

/-- **C76** `setpar(1, 0.01)`, `constrain(pscale, 1, FSQR)`, data calculated with the scale factor 5. However often `refine()` is called: it returns
after five steps, the parameter is still 0.01, and chi-square is more than 99 percent of the sum of squares of the data. But the calculation is smooth there,
chi-square is not stationary, and it vanishes for the parameter √5. -/
theorem C76_stuck : ∃ dv, CState.run (fparse builtinTab) {} [.setpar 1 (1 / 100), .int ((setup [1] 1).slots.idxOf (.pscale 0)) 1 .fsqr] =
      ⟨store (1 / 100), consSq, dv⟩ ∧
    (∀ (toler : ℝ), 0 ≤ toler → ∀ m : ℕ,
      let st := (fun st => (refineLoop (constrTheory ((cubic data5).static 1000000)) toler 101 st).1)^[m] (({} : Statics ℝ), engSq (1 / 100) dv)
      let r := refineLoop (constrTheory ((cubic data5).static 1000000)) toler 101 st
      r.2 = (.done, 5) ∧ r.1.2.par = store (1 / 100) ∧ 99 / 100 * norm (cubic data5) < r.1.2.chisq) ∧
    0 < norm (cubic data5) ∧
    (cubic data5).Smooth consSq vars1 (store (1 / 100)) ∧
    ¬Stationary (cubic data5) (structureAt (cubic data5) consSq vars1) (store (1 / 100)) ∧
    C74.chi (cubic data5) (structureAt (cubic data5) consSq vars1 (store (√5))) = 0 := by
  have hN := cubic_norm
  refine ⟨_, rfl, fun toler ht m => ?_, hN, sq_smooth _, sq_not_stationary, ?_⟩
  · set dv := (CState.run (fparse builtinTab) {} [.setpar 1 (1 / 100), .int ((setup [1] 1).slots.idxOf (.pscale 0)) 1 .fsqr]).dvdp
    have hrun : CState.run (fparse builtinTab) {} [.setpar 1 (1 / 100), .int ((setup [1] 1).slots.idxOf (.pscale 0)) 1 .fsqr] =
      ⟨store (1 / 100), consSq, dv⟩ := rfl
    have hi := C08.inv_run (fparse_parserOK builtinTab) (fparse_parserUses builtinTab)
      [.setpar 1 (1 / 100), .int ((setup [1] 1).slots.idxOf (.pscale 0)) 1 .fsqr] (by simp [C08.NoRepl]; rfl)
    rw [hrun] at hi
    have hs := sq_stuck 1000000
    have hX : (0 : ℝ) ≤ (5 - 1 / 10000) ^ 2 / 25 * norm (cubic data5) := by positivity
    have inv : ∀ m : ℕ, ∀ st, st = (fun st => (refineLoop (constrTheory ((cubic data5).static 1000000)) toler 101 st).1)^[m]
        (({} : Statics ℝ), engSq (1 / 100) dv) → st.1.fitRunning = false ∧ st.2.par = store (1 / 100) ∧
        C08.Inv textIds ⟨store (1 / 100), st.2.world.cons, st.2.world.dvdp⟩ ∧
        CInv ((cubic data5).static 1000000) (fun c => ∀ x ∈ c, x.1.WF) consSq vars1 st.2.world := by
      intro m
      induction m with
      | zero =>
        rintro st rfl
        exact ⟨rfl, rfl, hi, ⟨rfl, fun _ _ => rfl, hi.m, fun x hx => absurd hx List.not_mem_nil⟩⟩
      | succ m ih =>
        rintro st rfl
        rw [Function.iterate_succ_apply']
        obtain ⟨g1, g2, g3, g4⟩ := ih _ rfl
        set st := (fun st => (refineLoop (constrTheory ((cubic data5).static 1000000)) toler 101 st).1)^[m] (({} : Statics ℝ), engSq (1 / 100) dv)
        obtain ⟨w, k1, k2⟩ := sq_setup 1000000 (1 / 100) g3 g4
        obtain ⟨l1, l2, l3, l4, l5⟩ := Down.stuck_loop hs hX toler ht st.1 st.2 (by rw [g1]; simp) g2 w k1 k2 101 (by norm_num)
        exact ⟨l2, l3, l5.mid.inv, l5.inv⟩
    obtain ⟨g1, g2, g3, g4⟩ := inv m _ rfl
    dsimp only
    set st := (fun st => (refineLoop (constrTheory ((cubic data5).static 1000000)) toler 101 st).1)^[m] (({} : Statics ℝ), engSq (1 / 100) dv)
    obtain ⟨w, k1, k2⟩ := sq_setup 1000000 (1 / 100) g3 g4
    obtain ⟨l1, l2, l3, l4, l5⟩ := Down.stuck_loop hs hX toler ht st.1 st.2 (by rw [g1]; simp) g2 w k1 k2 101 (by norm_num)
    refine ⟨l1, l3, lt_of_lt_of_eq ?_ l4.symm⟩
    exact mul_lt_mul_of_pos_right (by norm_num) hN
  · rw [sq_chi, Real.mul_self_sqrt (by norm_num)]
    norm_num

/-- The hypotheses of `C76_progress_partial` hold at the parameter of `C76_stuck`; the refinement ends before the damping is large enough. -/
example : ∃ Λ : ℝ, ∀ (dv : Mat ℝ) (n : ℕ),
    let st := fun n => (stepN (constrTheory ((cubic data5).static 1000000)) (1 / 1000) n ({}, engSq (1 / 100) dv)).2
    CState.run (fparse builtinTab) {} [.setpar 1 (1 / 100), .int ((setup [1] 1).slots.idxOf (.pscale 0)) 1 .fsqr] = ⟨store (1 / 100), consSq, dv⟩ →
    (∀ o ∈ outN (constrTheory ((cubic data5).static 1000000)) (1 / 1000) (n + 2) ({}, engSq (1 / 100) dv), o = .more) →
    (st (n + 1)).par = store (1 / 100) → Λ ≤ (st (n + 1)).alambda → (st (n + 2)).chisq < (st (n + 1)).chisq := by
  obtain ⟨Λ, h⟩ := C76_progress_partial (cubic data5) (cubic_ok _ data5_length) 1000000 consSq vars1 sq_fair wt1 _ rfl (store (1 / 100))
    (sq_smooth _) sq_not_stationary
  exact ⟨Λ, fun dv n hst hmore hp hl => h (1 / 1000) _ {} (engSq (1 / 100) dv) n (by simp [C08.NoRepl]; rfl) hst
    (fun x hx => absurd hx List.not_mem_nil) (by simp) rfl rfl hmore hp hl⟩

/-- Started from 2 the first step changes the parameter; it goes downhill. -/
example : ∃ dv, CState.run (fparse builtinTab) {} [.setpar 1 2, .int ((setup [1] 1).slots.idxOf (.pscale 0)) 1 .fsqr] =
      ⟨store 2, consSq, dv⟩ ∧
    let V := structureAt (cubic data5) consSq vars1
    let r := refineStep (constrTheory ((cubic data5).static 1000000)) (1 / 1000) {} (engSq 2 dv)
    r.2.2 = .more ∧ r.2.1.par ≠ store 2 ∧ C74.chi (cubic data5) (V r.2.1.par) < C74.chi (cubic data5) (V (store 2)) ∧
    ∃ m < 0, HasDerivAt (fun t => C74.chi (cubic data5) (V (toward (store 2) r.2.1.par t))) m 0 := by
  refine ⟨_, rfl, ?_⟩
  set dv := (CState.run (fparse builtinTab) {} [.setpar 1 2, .int ((setup [1] 1).slots.idxOf (.pscale 0)) 1 .fsqr]).dvdp
  have hrun : CState.run (fparse builtinTab) {} [.setpar 1 2, .int ((setup [1] 1).slots.idxOf (.pscale 0)) 1 .fsqr] =
    ⟨store 2, consSq, dv⟩ := rfl
  have hno : C08.NoRepl (fparse builtinTab) {} [.setpar 1 2, .int ((setup [1] 1).slots.idxOf (.pscale 0)) 1 .fsqr] := by
    simp [C08.NoRepl]
    rfl
  have hi := C08.inv_run (fparse_parserOK builtinTab) (fparse_parserUses builtinTab) _ hno
  rw [hrun] at hi
  have hb := sq_base 1000000 2 two_ne_zero
  have H := cubic_ok _ data5_length
  have hN := cubic_norm
  obtain ⟨w, k1, k2⟩ := sq_setup 1000000 2 (w := (engSq 2 dv).world) hi
    ⟨rfl, fun _ _ => rfl, hi.m, fun x hx => absurd hx List.not_mem_nil⟩
  have hm := Down.first_more hb (1 / 1000) {} (engSq 2 dv) (by simp) rfl w k1 k2
  have hne : (refineStep (constrTheory ((cubic data5).static 1000000)) (1 / 1000) {} (engSq 2 dv)).2.1.par ≠ store 2 := by
    obtain ⟨-, c, w0, w', y, q, u0, u', t1, t2, t3, t4, -, t6, t7, t8, t9, t10⟩ :=
      Down.step_first hb.keep (1 / 1000) {} (engSq 2 dv) (by simp) (Down.adm_refl _) w k1 k2 hm
    have h0 : (0 : ℕ) ∈ Fr (store 2) := by rw [fr1]; simp
    obtain ⟨k0, k2, k3, k4, -⟩ := Input.evalAt_sums H 1000000 sq_fair sq_target (wf1 _) ⟨rfl, rfl, rfl⟩ t1 t2 _ rfl _ rfl
    obtain ⟨l1, -⟩ := Input.evalAt_sums H 1000000 sq_fair sq_target (wf1 _) t6.1 t8 t9 _ rfl _ rfl
    have e := t4 0 h0
    rw [k3 0 h0, k4 0 h0, k2 0 h0] at e
    change row (Fr (store 2)) ((cubic data5).points consSq vars1 (fun _ => .pscale 0) (store 2)).flatten 0 y + 1 / 1000 *
      diag ((cubic data5).points consSq vars1 (fun _ => .pscale 0) (store 2)).flatten 0 * y 0 =
      (cubic data5).beta consSq vars1 (fun _ => .pscale 0) (store 2) 0 at e
    rw [sq_row, sq_diag, sq_beta] at e
    set N := norm (cubic data5)
    have hy : y 0 = 250 / 1001 := by
      have : y 0 * N = 250 / 1001 * N := by linarith
      exact mul_right_cancel₀ hN.ne' this
    have hq : q.p.getD 0 0 = 2 + 250 / 1001 := by
      rw [t7 0 h0, hy]
      rfl
    rcases t10 with ⟨-, e, -⟩ | ⟨e, -⟩
    · rw [e]
      rintro rfl
      change (2 : ℝ) = _ at hq
      norm_num at hq
    · rw [t3, k0, l1, key1 t6.1, hq, sq_chi] at e
      rw [sq_chi] at e
      norm_num at e
      linarith
  obtain ⟨g1, g2⟩ := C76_downhill_partial (cubic data5) H 1000000 (1 / 1000) _ hno {} (engSq 2 dv) hrun
    (fun x hx => absurd hx List.not_mem_nil) (by simp) sq_fair wt1 _ rfl 0 (by simpa [outN] using hm) _ rfl hne
  exact ⟨hm, hne, g1, (g2 (sq_smooth 2)).2⟩

end Pdffit.C76
