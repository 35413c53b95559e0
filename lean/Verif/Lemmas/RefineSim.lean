import Verif.Lemmas.RefineSeq

/-!
Two runs of the refinement machine that differ only in scratch memory behave the same.
-/

namespace Pdffit
set_option linter.unusedSectionVars false

variable {K W : Type} [Field K] [LinearOrder K] [IsStrictOrderedRing K]

/-- Agreement of everything but scratch: cells outside the used block, `covar`, `da`. -/
structure SimE (e e' : Eng K W) : Prop where
  par : e.par = e'.par
  world : e.world = e'.world
  iter : e.iter = e'.iter
  stag : e.stagnating = e'.stagnating
  lam : e.alambda = e'.alambda
  chisq : e.chisq = e'.chisq
  cum : e.cum = e'.cum
  rw2 : e.rw2 = e'.rw2
  alpha : ∀ j k, j < nfree e.ia e.ma → k < nfree e.ia e.ma → e.alpha j k = e'.alpha j k

structure SimW (n m : Nat) (wk wk' : Work K) : Prop where
  ma : wk.ma = wk'.ma
  mfit : wk.mfit = wk'.mfit
  och : wk.ochisq = wk'.ochisq
  atry : ∀ l, l < m → wk.atry l = wk'.atry l
  beta : ∀ j, j < n → wk.beta j = wk'.beta j

/-- Agreement of optional work arrays. -/
def SimO (n m : Nat) (o o' : Option (Work K)) : Prop :=
  (o = none ∧ o' = none) ∨ ∃ wk wk', o = some wk ∧ o' = some wk' ∧ SimW n m wk wk'

theorem SimE.ia {e e' : Eng K W} (h : SimE e e') : e.ia = e'.ia := by unfold Eng.ia; rw [h.par]
theorem SimE.ma {e e' : Eng K W} (h : SimE e e') : e.ma = e'.ma := by unfold Eng.ma; rw [h.par]
theorem SimE.a {e e' : Eng K W} (h : SimE e e') : e.a = e'.a := by unfold Eng.a; rw [h.par]

theorem setP_par_congr {e e' : Eng K W} (a a' : Nat → K) (hp : e.par = e'.par)
    (h : ∀ l, l < e.ma → a l = a' l) : (e.setP a).par = (e'.setP a').par := by
  refine parStore_ext (setP_congr a a' (by unfold Eng.ma; rw [hp]) h) ?_ ?_
  · show e.par.ip = e'.par.ip; rw [hp]
  · show e.par.id = e'.par.id; rw [hp]

/-- Result of two `mrqcof` calls on agreeing inputs. -/
theorem sim_mrqcof (th : Theory K W) (e e' : Eng K W) (a a' : Nat → K) (al al' be be')
    (hp : e.par = e'.par) (hw : e.world = e'.world) (ha : ∀ l, l < e.ma → a l = a' l) :
    (∃ w x, mrqcof th e a al be = ({ e.setP a with world := w }, .error x) ∧
      mrqcof th e' a' al' be' = ({ e'.setP a' with world := w }, .error x)) ∨
    (∃ w c cum r r', mrqcof th e a al be =
        ({ e.setP a with world := w, chisq := c, cum := cum }, .ok r) ∧
      mrqcof th e' a' al' be' =
        ({ e'.setP a' with world := w, chisq := c, cum := cum }, .ok r') ∧
      (∀ j k, j < nfree e.ia e.ma → k < nfree e.ia e.ma → r.1 j k = r'.1 j k) ∧
      (∀ j, j < nfree e.ia e.ma → r.2 j = r'.2 j)) := by
  have hpar := setP_par_congr a a' hp ha
  have hia : e'.ia = e.ia := by unfold Eng.ia; rw [hp]
  have hma : e'.ma = e.ma := by unfold Eng.ma; rw [hp]
  have f1 := Frame.setP e a
  have f2 := Frame.setP e' a'
  have hw' : (e.setP a).world = (e'.setP a').world := hw
  unfold mrqcof
  dsimp only
  rw [hpar, hw', f1.ia, f1.ma, f2.ia, f2.ma, hia, hma]
  generalize hev : th.eval (e'.setP a').par (e'.setP a').world = r
  obtain ⟨w, o⟩ := r
  cases o with
  | some x => left; exact ⟨w, x, rfl, rfl⟩
  | none =>
    right
    refine ⟨w, _, _, ((mrqAcc e.ia e.ma (th.pts w) al be).1, (mrqAcc e.ia e.ma (th.pts w) al be).2.1),
      ((mrqAcc e.ia e.ma (th.pts w) al' be').1, (mrqAcc e.ia e.ma (th.pts w) al' be').2.1),
      rfl, ?_, ?_, ?_⟩
    · dsimp only
      rw [show (mrqAcc e.ia e.ma (th.pts w) al' be').2.2.1 = (mrqAcc e.ia e.ma (th.pts w) al be).2.2.1 by
        rw [chisq_eq, chisq_eq]]
      rfl
    · intro j k hj hk
      obtain ⟨l, h1, h2, rfl⟩ := nfree_surj e.ia hj
      obtain ⟨m, h3, h4, rfl⟩ := nfree_surj e.ia hk
      dsimp only
      rw [mrqAcc_alpha e.ia e.ma _ al be l m h1 h3 h2 h4, mrqAcc_alpha e.ia e.ma _ al' be' l m h1 h3 h2 h4]
    · intro j hj
      obtain ⟨l, h1, h2, rfl⟩ := nfree_surj e.ia hj
      dsimp only
      rw [mrqAcc_beta e.ia e.ma _ al be l h1 h2, mrqAcc_beta e.ia e.ma _ al' be' l h1 h2]

theorem sim_solve (n : Nat) (m m' : Nat → Nat → K) (b b' : Nat → K) (c c' : Nat → Nat → K)
    (d d' : Nat → K) (hm : ∀ j k, j < n → k < n → m j k = m' j k) (hb : ∀ j, j < n → b j = b' j) :
    (∃ x, solveNormal n m b c d = .err x ∧ solveNormal n m' b' c' d' = .err x) ∨
    (solveNormal n m b c d = .ub ∧ solveNormal n m' b' c' d' = .ub) ∨
    (∃ r r', solveNormal n m b c d = .ok r ∧ solveNormal n m' b' c' d' = .ok r' ∧
      (∀ j k, j < n → k < n → r.1 j k = r'.1 j k) ∧ (∀ j, j < n → r.2 j = r'.2 j)) := by
  have h1 : (fun (i j : Fin n) => m i j) = (fun (i j : Fin n) => m' i j) := by
    funext i j; exact hm _ _ i.2 j.2
  have h2 : (fun (i : Fin n) (_ : Fin 1) => b i) = (fun (i : Fin n) (_ : Fin 1) => b' i) := by
    funext i _; exact hb _ i.2
  unfold solveNormal
  rw [h1, h2]
  cases hg : gaussj (n := n) (m := 1) (fun i j => m' i j) (fun i _ => b' i) with
  | err x => left; exact ⟨x, rfl, rfl⟩
  | ub => right; left; exact ⟨rfl, rfl⟩
  | ok r =>
    right; right
    refine ⟨_, _, rfl, rfl, fun j k hj hk => ?_, fun j hj => ?_⟩
    · dsimp only; rw [dif_pos ⟨hj, hk⟩, dif_pos ⟨hj, hk⟩]
    · dsimp only; rw [dif_pos hj, dif_pos hj]

theorem sim_try (th : Theory K W) (wk wk' : Work K) (e e' : Eng K W) (h : SimE e e')
    (hw : SimW (nfree e.ia e.ma) e.ma wk wk') (hmf : wk.mfit = nfree e.ia e.ma) :
    (mrqTry th wk e).2.2 = (mrqTry th wk' e').2.2 ∧
    SimE (mrqTry th wk e).2.1 (mrqTry th wk' e').2.1 ∧
    SimO (nfree e.ia e.ma) e.ma (mrqTry th wk e).1 (mrqTry th wk' e').1 ∧
    (e.alambda = 0 → (mrqTry th wk e).2.2 = .more → ∀ i j, i < e.ma → j < e.ma →
      (mrqTry th wk e).2.1.covar i j = (mrqTry th wk' e').2.1.covar i j) := by
  have hia := h.ia
  have hma := h.ma
  have hmf' : wk'.mfit = nfree e.ia e.ma := hw.mfit ▸ hmf
  unfold mrqTry
  rw [hmf, hmf']
  rcases sim_solve (nfree e.ia e.ma) (augmented e) (augmented e') wk.beta wk'.beta e.covar e'.covar
    wk.da wk'.da (by
      intro j k hj hk
      simp only [augmented, h.lam, h.alpha _ _ hj hk, h.alpha _ _ hj hj]) hw.beta with
    ⟨x, h1, h2⟩ | ⟨h1, h2⟩ | ⟨⟨cov, da⟩, ⟨cov', da'⟩, h1, h2, hcov, hda⟩
  · rw [h1, h2]; exact ⟨rfl, h, Or.inr ⟨_, _, rfl, rfl, hw⟩, by simp⟩
  · rw [h1, h2]; exact ⟨rfl, h, Or.inr ⟨_, _, rfl, rfl, hw⟩, by simp⟩
  · rw [h1, h2]
    dsimp only at hcov hda ⊢
    by_cases h0 : e.alambda = 0
    · have h0' : e'.alambda = 0 := h.lam ▸ h0
      rw [if_pos h0, if_pos h0', ← hia, ← hma]
      obtain ⟨c1, hc1, hs1⟩ := covsrt_spec e.ia e.ma cov
      obtain ⟨c2, hc2, hs2⟩ := covsrt_spec e.ia e.ma e.alpha
      obtain ⟨c3, hc3, hs3⟩ := covsrt_spec e.ia e.ma cov'
      obtain ⟨c4, hc4, hs4⟩ := covsrt_spec e.ia e.ma e'.alpha
      rw [hc1, hc2, hc3, hc4]
      dsimp only
      refine ⟨rfl, ⟨h.par, h.world, h.iter, h.stag, h.lam, h.chisq, h.cum, h.rw2, ?_⟩, Or.inl ⟨rfl, rfl⟩, ?_⟩
      · intro j k hj hk
        have hj' : j < e.ma := lt_of_lt_of_le hj (nfree_le _ _)
        have hk' : k < e.ma := lt_of_lt_of_le hk (nfree_le _ _)
        dsimp only
        rw [hs2 j k hj' hk', hs4 j k hj' hk']
        split
        · rename_i hf
          exact h.alpha _ _ (nfree_lt _ hj' hf.1) (nfree_lt _ hk' hf.2)
        · rfl
      · intro _ _ i j hi hj
        rw [hs1 i j hi hj, hs3 i j hi hj]
        split
        · rename_i hf
          exact hcov _ _ (nfree_lt _ hi hf.1) (nfree_lt _ hj hf.2)
        · rfl
    · have h0' : ¬ e'.alambda = 0 := h.lam ▸ h0
      rw [if_neg h0, if_neg h0', ← hia, ← hma, ← h.a]
      have hatry : ∀ l, l < e.ma →
          (fun l => if l < e.ma ∧ e.ia l = true then e.a l + da (nfree e.ia l) else wk.atry l) l =
          (fun l => if l < e.ma ∧ e.ia l = true then e.a l + da' (nfree e.ia l) else wk'.atry l) l := by
        intro l hl
        dsimp only
        split
        · rename_i hf; rw [hda _ (nfree_lt _ hl hf.2)]
        · exact hw.atry l hl
      generalize hA : (fun l => if l < e.ma ∧ e.ia l = true then e.a l + da (nfree e.ia l) else wk.atry l) = A at hatry ⊢
      generalize hA' : (fun l => if l < e.ma ∧ e.ia l = true then e.a l + da' (nfree e.ia l) else wk'.atry l) = A' at hatry ⊢
      rcases sim_mrqcof th { e with covar := cov } { e' with covar := cov' } A A' cov cov' da da'
        h.par h.world hatry with ⟨w, x, g1, g2⟩ | ⟨w, c, cum, r, r', g1, g2, gr, gb⟩
      · rw [g1, g2]
        have hpar := setP_par_congr (e := { e with covar := cov }) (e' := { e' with covar := cov' }) A A' h.par hatry
        have hfr := Frame.setP { e with covar := cov } A
        refine ⟨rfl, ⟨hpar, rfl, h.iter, h.stag, h.lam, h.chisq, h.cum, h.rw2, ?_⟩,
          Or.inr ⟨_, _, rfl, rfl, ⟨hw.ma, by first | rfl | exact hw.mfit, hw.och, hatry, hw.beta⟩⟩, by simp⟩
        intro j k hj hk
        refine h.alpha j k ?_ ?_
        · have := hj; rw [show Eng.ia { Eng.setP { e with covar := cov } A with world := w } = e.ia from hfr.ia, show Eng.ma { Eng.setP { e with covar := cov } A with world := w } = e.ma from hfr.ma] at this; exact this
        · have := hk; rw [show Eng.ia { Eng.setP { e with covar := cov } A with world := w } = e.ia from hfr.ia, show Eng.ma { Eng.setP { e with covar := cov } A with world := w } = e.ma from hfr.ma] at this; exact this
      · rw [g1, g2]
        obtain ⟨r1, r2⟩ := r
        obtain ⟨r1', r2'⟩ := r'
        dsimp only at gr gb ⊢
        rw [← hw.och]
        have hpar := setP_par_congr (e := { e with covar := cov }) (e' := { e' with covar := cov' }) A A' h.par hatry
        have hfr := Frame.setP { e with covar := cov } A
        have key : ∀ B B' : Nat → K, (∀ l, l < e.ma → B l = B' l) →
            ∀ (x x' : Eng K W), x.par = (Eng.setP { e with covar := cov } A).par →
              x'.par = (Eng.setP { e' with covar := cov' } A').par →
              (x.setP B).par = (x'.setP B').par ∧ (x.setP B).ia = e.ia ∧ (x.setP B).ma = e.ma := by
          intro B B' hB x x' hx hx'
          have hxm : x.ma = e.ma := by
            have : x.ma = (Eng.setP { e with covar := cov } A).ma := by unfold Eng.ma; rw [hx]
            exact this.trans hfr.ma
          have hxi : x.ia = e.ia := by
            have : x.ia = (Eng.setP { e with covar := cov } A).ia := by unfold Eng.ia; rw [hx]
            exact this.trans hfr.ia
          refine ⟨setP_par_congr B B' (by rw [hx, hx', hpar]) (by rw [hxm]; exact hB), ?_, ?_⟩
          · rw [(Frame.setP x B).ia, hxi]
          · rw [(Frame.setP x B).ma, hxm]
        by_cases hlt : c < wk.ochisq
        · rw [if_pos hlt, if_pos hlt]
          obtain ⟨k1, k2, k3⟩ := key A A' hatry
            { (Eng.setP { e with covar := cov } A) with world := w, chisq := c, cum := cum, covar := r1 }
            { (Eng.setP { e' with covar := cov' } A') with world := w, chisq := c, cum := cum, covar := r1' } rfl rfl
          refine ⟨rfl, ⟨k1, rfl, h.iter, h.stag, congrArg (· / 10) h.lam, rfl, rfl, h.rw2, ?_⟩,
            Or.inr ⟨_, _, rfl, rfl, ⟨hw.ma, by first | rfl | exact hw.mfit, rfl, hatry, gb⟩⟩,
            fun h' => absurd h' h0⟩
          intro j k hj hk
          have hn := congrArg₂ nfree k2 k3
          exact gr j k (lt_of_lt_of_eq hj hn) (lt_of_lt_of_eq hk hn)
        · rw [if_neg hlt, if_neg hlt]
          obtain ⟨k1, k2, k3⟩ := key e.a e.a (fun _ _ => rfl)
            { (Eng.setP { e with covar := cov } A) with world := w, chisq := c, cum := cum, covar := r1 }
            { (Eng.setP { e' with covar := cov' } A') with world := w, chisq := c, cum := cum, covar := r1' } rfl rfl
          refine ⟨rfl, ⟨k1, rfl, h.iter, h.stag, congrArg (· * 10) h.lam, rfl, rfl, h.rw2, ?_⟩,
            Or.inr ⟨_, _, rfl, rfl, ⟨hw.ma, by first | rfl | exact hw.mfit, rfl, hatry, hw.beta⟩⟩,
            fun h' => absurd h' h0⟩
          intro j k hj hk
          have hn := congrArg₂ nfree k2 k3
          exact h.alpha j k (lt_of_lt_of_eq hj hn) (lt_of_lt_of_eq hk hn)

/-- Agreement at the start of a fit. -/
structure SimP (e e' : Eng K W) : Prop where
  par : e.par = e'.par
  world : e.world = e'.world
  iter : e.iter = e'.iter
  stag : e.stagnating = e'.stagnating
  lam : e.alambda = e'.alambda
  chisq : e.chisq = e'.chisq

theorem sim_init (th : Theory K W) (o o' : Option (Work K)) (e e' : Eng K W) (h : SimP e e') :
    (∃ x, (mrqInit th o e).2.2 = some x ∧ (mrqInit th o' e').2.2 = some x ∧
      (mrqInit th o e).2.1.par = (mrqInit th o' e').2.1.par ∧
      (mrqInit th o e).2.1.world = (mrqInit th o' e').2.1.world ∧
      (mrqInit th o e).2.1.iter = e.iter ∧ (mrqInit th o' e').2.1.iter = e'.iter) ∨
    ((mrqInit th o e).2.2 = none ∧ (mrqInit th o' e').2.2 = none ∧
      SimE (mrqInit th o e).2.1 (mrqInit th o' e').2.1 ∧
      (mrqInit th o e).1.mfit = nfree (mrqInit th o e).2.1.ia (mrqInit th o e).2.1.ma ∧
      SimW (nfree (mrqInit th o e).2.1.ia (mrqInit th o e).2.1.ma) (mrqInit th o e).2.1.ma
        (mrqInit th o e).1 (mrqInit th o' e').1) := by
  have hia : e'.ia = e.ia := by unfold Eng.ia; rw [h.par]
  have hma : e'.ma = e.ma := by unfold Eng.ma; rw [h.par]
  have haa : e'.a = e.a := by unfold Eng.a; rw [h.par]
  have haa' : Eng.a { e' with alambda := 1/1000 } = Eng.a { e with alambda := 1/1000 } := haa
  unfold mrqInit
  dsimp only
  have hfr := Frame.setP { e with alambda := 1/1000 } (Eng.a { e with alambda := 1/1000 })
  have hpar := setP_par_congr (e := { e with alambda := 1/1000 }) (e' := { e' with alambda := 1/1000 })
    (Eng.a { e with alambda := 1/1000 }) (Eng.a { e' with alambda := 1/1000 }) h.par (by rw [haa']; intros; rfl)
  rcases sim_mrqcof th { e with alambda := 1/1000 } { e' with alambda := 1/1000 }
    (Eng.a { e with alambda := 1/1000 }) (Eng.a { e' with alambda := 1/1000 }) e.alpha e'.alpha
    (fun _ => 0) (fun _ => 0) h.par h.world (by rw [haa']; intros; rfl) with
    ⟨w, x, g1, g2⟩ | ⟨w, c, cum, ⟨r1, r2⟩, ⟨r1', r2'⟩, g1, g2, gr, gb⟩
  · left
    rw [g1, g2]
    exact ⟨x, rfl, rfl, hpar, rfl, rfl, rfl⟩
  · right
    rw [g1, g2]
    have hi : ∀ x : Eng K W, x.par = (Eng.setP { e with alambda := 1/1000 } (Eng.a { e with alambda := 1/1000 })).par →
        x.ia = e.ia ∧ x.ma = e.ma := by
      intro x hx
      constructor
      · refine Eq.trans ?_ hfr.ia; unfold Eng.ia; rw [hx]
      · refine Eq.trans ?_ hfr.ma; unfold Eng.ma; rw [hx]
    refine ⟨rfl, rfl, ⟨hpar, rfl, h.iter, h.stag, rfl, rfl, rfl, rfl, ?_⟩, ?_, ⟨?_, ?_, rfl, ?_, ?_⟩⟩
    · intro j k hj hk
      obtain ⟨q1, q2⟩ := hi { (Eng.setP { e with alambda := 1/1000 } (Eng.a { e with alambda := 1/1000 })) with
        world := w, chisq := c, cum := cum, alpha := r1, rw2 := c / wnormOf (th.pts w) } rfl
      have hn := congrArg₂ nfree q1 q2
      exact gr j k (lt_of_lt_of_eq hj hn) (lt_of_lt_of_eq hk hn)
    · exact (congrArg₂ nfree (hi _ rfl).1 (hi _ rfl).2).symm
    · exact hma.symm
    · exact congrArg₂ nfree hia.symm hma.symm
    · intro l _
      show List.getD _ l 0 = List.getD _ l 0
      dsimp only
      rw [hpar]
    · intro j hj
      have hn := congrArg₂ nfree (hi { (Eng.setP { e with alambda := 1/1000 } (Eng.a { e with alambda := 1/1000 })) with
        world := w, chisq := c, cum := cum, alpha := r1, rw2 := c / wnormOf (th.pts w) } rfl).1 (hi { (Eng.setP { e with alambda := 1/1000 } (Eng.a { e with alambda := 1/1000 })) with
        world := w, chisq := c, cum := cum, alpha := r1, rw2 := c / wnormOf (th.pts w) } rfl).2
      exact gb j (lt_of_lt_of_eq hj hn)

theorem SimE.toP {e e' : Eng K W} (h : SimE e e') : SimP e e' :=
  ⟨h.par, h.world, h.iter, h.stag, h.lam, h.chisq⟩

/-- Two `mrqmin` calls inside running fits. -/
theorem sim_min_run (th : Theory K W) (o o' : Option (Work K)) (e e' : Eng K W) (h : SimE e e')
    (hl : 0 ≤ e.alambda) (hw : SimO (nfree e.ia e.ma) e.ma o o') :
    let r := mrqmin th o e
    let r' := mrqmin th o' e'
    r.2.2 = r'.2.2 ∧ SimE r.2.1 r'.2.1 ∧ 0 ≤ r.2.1.alambda ∧
    SimO (nfree e.ia e.ma) e.ma r.1 r'.1 ∧
    (e.alambda = 0 → r.2.2 = .more → ∀ i j, i < e.ma → j < e.ma →
      r.2.1.covar i j = r'.2.1.covar i j) := by
  have hl' : 0 ≤ e'.alambda := h.lam ▸ hl
  unfold mrqmin
  rw [if_neg (not_lt.2 hl), if_neg (not_lt.2 hl'), ← h.ia, ← h.ma]
  rcases hw with ⟨rfl, rfl⟩ | ⟨wk, wk', rfl, rfl, hw⟩
  · exact ⟨rfl, h, hl, Or.inl ⟨rfl, rfl⟩, by simp⟩
  · dsimp only
    rw [← hw.ma, ← hw.mfit]
    by_cases hc : wk.ma = e.ma ∧ wk.mfit = nfree e.ia e.ma
    · rw [if_pos hc, if_pos hc]
      obtain ⟨h1, h2, h3, h4⟩ := sim_try th wk wk' e e' h hw hc.2
      exact ⟨h1, h2, mrqTry_alambda th wk e hl, h3, h4⟩
    · rw [if_neg hc, if_neg hc]
      exact ⟨rfl, h, hl, Or.inr ⟨_, _, rfl, rfl, hw⟩, by simp⟩

/-- Two first `mrqmin` calls. -/
theorem sim_min_init (th : Theory K W) (o o' : Option (Work K)) (e e' : Eng K W) (h : SimP e e')
    (hl : e.alambda < 0) :
    let r := mrqmin th o e
    let r' := mrqmin th o' e'
    r.2.2 = r'.2.2 ∧ r.2.1.par = r'.2.1.par ∧ r.2.1.world = r'.2.1.world ∧
    (r.2.2 = .more → SimE r.2.1 r'.2.1 ∧ 0 ≤ r.2.1.alambda ∧
      SimO (nfree e.ia e.ma) e.ma r.1 r'.1) := by
  have hl' : e'.alambda < 0 := h.lam ▸ hl
  have hfr := mrqInit_frame th o e
  have hal := mrqInit_alambda th o e
  have hs := sim_init th o o' e e' h
  revert hs hfr hal
  unfold mrqmin
  rw [if_pos hl, if_pos hl']
  generalize mrqInit th o e = q
  generalize mrqInit th o' e' = q'
  obtain ⟨wk, e1, x1⟩ := q
  obtain ⟨wk', e1', x1'⟩ := q'
  dsimp only
  rintro hfr hal (⟨x, rfl, rfl, h1, h2, _, _⟩ | ⟨rfl, rfl, h1, h2, h3⟩)
  · exact ⟨rfl, h1, h2, by simp⟩
  · dsimp only
    obtain ⟨g1, g2, g3, _⟩ := sim_try th wk wk' e1 e1' h1 h3 h2
    refine ⟨g1, g2.par, g2.world, fun _ => ⟨g2, mrqTry_alambda th wk e1 (by rw [hal]; positivity), ?_⟩⟩
    rw [hfr.ia, hfr.ma] at g3
    exact g3

/-- A refinement is under way: the next `refine_step` continues it (fit.cc 59, 62). -/
def Started (s : Statics K) (e : Eng K W) : Prop := s.fitRunning = true ∧ e.iter ≠ 0

/-- The two objects will behave the same from now on. -/
structure Rel (s : Statics K) (e : Eng K W) (s' : Statics K) (e' : Eng K W) : Prop where
  par : e.par = e'.par
  world : e.world = e'.world
  cases : (¬ Started s e ∧ ¬ Started s' e') ∨
    (Started s e ∧ Started s' e' ∧ SimE e e' ∧ 0 ≤ e.alambda ∧
      SimO (nfree e.ia e.ma) e.ma s.work s'.work)

theorem sim_body_run (th : Theory K W) (toler : K) (o o' : Option (Work K)) (e e' : Eng K W)
    (h : SimE e e') (hi : e.iter ≠ 0) (hl : 0 ≤ e.alambda) (hw : SimO (nfree e.ia e.ma) e.ma o o') :
    let r := refineBody th toler o e
    let r' := refineBody th toler o' e'
    r.2.2 = r'.2.2 ∧ Rel r.1 r.2.1 r'.1 r'.2.1 ∧ SimE r.2.1 r'.2.1 ∧
    (r.2.2 = .done → ∀ i j, i < e.ma → j < e.ma → r.2.1.covar i j = r'.2.1.covar i j) := by
  have hi' : e'.iter ≠ 0 := h.iter ▸ hi
  unfold refineBody
  dsimp only
  by_cases hc : e.iter < 3 ∨ (e.stagnating < 3 ∧ e.iter < 100)
  · have hc' : e'.iter < 3 ∨ (e'.stagnating < 3 ∧ e'.iter < 100) := by
      rw [← h.iter, ← h.stag]; exact hc
    rw [if_pos hc, if_pos hc']
    have hs := sim_min_run th o o' { e with ochisq := e.chisq } { e' with ochisq := e'.chisq }
      ⟨h.par, h.world, h.iter, h.stag, h.lam, h.chisq, h.cum, h.rw2, h.alpha⟩ hl hw
    have hf := mrqmin_frame th o { e with ochisq := e.chisq }
    have hf' := mrqmin_frame th o' { e' with ochisq := e'.chisq }
    have hnd := mrqmin_ne_done th o { e with ochisq := e.chisq }
    revert hs hf hf' hnd
    generalize mrqmin th o { e with ochisq := e.chisq } = q
    generalize mrqmin th o' { e' with ochisq := e'.chisq } = q'
    obtain ⟨w1, e1, x1⟩ := q
    obtain ⟨w1', e1', x1'⟩ := q'
    dsimp only
    rintro ⟨rfl, h2, h3, h4, _⟩ hf hf' hnd
    have hoc : e1.ochisq = e1'.ochisq := by
      rw [hf.och, hf'.och]; exact h.chisq
    have e1it : e1.iter ≠ 0 := by rw [hf.iter]; exact hi
    have e1it' : e1'.iter ≠ 0 := by rw [hf'.iter]; exact hi'
    have h4' : SimO (nfree e1.ia e1.ma) e1.ma w1 w1' := by
      rw [hf.ia, hf.ma]; exact h4
    cases x1 with
    | more =>
      dsimp only
      have hS : SimE { e1 with stagnating := (if e1.iter ≠ 0 ∧ e1.ochisq - e1.chisq ≤ toler * e1.ochisq then e1.stagnating + 1 else 0), iter := e1.iter + 1, rw2 := e1.chisq / wnormOf (th.pts e1.world) }
         { e1' with stagnating := (if e1'.iter ≠ 0 ∧ e1'.ochisq - e1'.chisq ≤ toler * e1'.ochisq then e1'.stagnating + 1 else 0), iter := e1'.iter + 1, rw2 := e1'.chisq / wnormOf (th.pts e1'.world) } := by
        refine ⟨h2.par, h2.world, congrArg (· + 1) h2.iter, ?_, h2.lam, h2.chisq, h2.cum, ?_, h2.alpha⟩
        · dsimp only; rw [h2.iter, h2.stag, h2.chisq, hoc]
        · dsimp only; rw [h2.chisq, h2.world]
      exact ⟨rfl, ⟨h2.par, h2.world, Or.inr ⟨⟨rfl, Nat.succ_ne_zero _⟩, ⟨rfl, Nat.succ_ne_zero _⟩, hS, h3, h4'⟩⟩, hS, by simp⟩
    | done => exact absurd rfl hnd
    | exc x => exact ⟨rfl, ⟨h2.par, h2.world, Or.inr ⟨⟨rfl, e1it⟩, ⟨rfl, e1it'⟩, h2, h3, h4'⟩⟩, h2, by simp⟩
    | corrupt => exact ⟨rfl, ⟨h2.par, h2.world, Or.inr ⟨⟨rfl, e1it⟩, ⟨rfl, e1it'⟩, h2, h3, h4'⟩⟩, h2, by simp⟩
  · have hc' : ¬ (e'.iter < 3 ∨ (e'.stagnating < 3 ∧ e'.iter < 100)) := by
      rw [← h.iter, ← h.stag]; exact hc
    rw [if_neg hc, if_neg hc']
    have hs := sim_min_run th o o' { e with alambda := 0 } { e' with alambda := 0 }
      ⟨h.par, h.world, h.iter, h.stag, rfl, h.chisq, h.cum, h.rw2, h.alpha⟩ (le_refl _) hw
    have hf := mrqmin_frame th o { e with alambda := 0 }
    have hf' := mrqmin_frame th o' { e' with alambda := 0 }
    have hnd := mrqmin_ne_done th o { e with alambda := 0 }
    revert hs hf hf' hnd
    generalize mrqmin th o { e with alambda := 0 } = q
    generalize mrqmin th o' { e' with alambda := 0 } = q'
    obtain ⟨w1, e1, x1⟩ := q
    obtain ⟨w1', e1', x1'⟩ := q'
    dsimp only
    rintro ⟨rfl, h2, h3, h4, h5⟩ hf hf' hnd
    have e1it : e1.iter ≠ 0 := by rw [hf.iter]; exact hi
    have e1it' : e1'.iter ≠ 0 := by rw [hf'.iter]; exact hi'
    have h4' : SimO (nfree e1.ia e1.ma) e1.ma w1 w1' := by
      rw [hf.ia, hf.ma]; exact h4
    cases x1 with
    | more =>
      dsimp only
      rw [h2.par, h2.world, h2.chisq]
      generalize th.eval e1'.par e1'.world = v
      obtain ⟨w, x⟩ := v
      cases x with
      | none =>
        have hS : SimE { e1 with world := w, rw2 := e1'.chisq / wnormOf (th.pts e1'.world), par := e1'.par, chisq := e1'.chisq } { e1' with rw2 := e1'.chisq / wnormOf (th.pts e1'.world), world := w } := by
          refine ⟨rfl, rfl, h2.iter, h2.stag, h2.lam, rfl, h2.cum, rfl, ?_⟩
          have := h2.alpha
          rw [show e1.ia = e1'.ia from h2.ia, show e1.ma = e1'.ma from h2.ma] at this
          exact this
        exact ⟨rfl, ⟨rfl, rfl, Or.inl ⟨by simp [Started], by simp [Started]⟩⟩, hS, fun _ => h5 rfl rfl⟩
      | some y =>
        have hS : SimE { e1 with world := w, rw2 := e1'.chisq / wnormOf (th.pts e1'.world), par := e1'.par, chisq := e1'.chisq } { e1' with rw2 := e1'.chisq / wnormOf (th.pts e1'.world), world := w } := by
          refine ⟨rfl, rfl, h2.iter, h2.stag, h2.lam, rfl, h2.cum, rfl, ?_⟩
          have := h2.alpha
          rw [show e1.ia = e1'.ia from h2.ia, show e1.ma = e1'.ma from h2.ma] at this
          exact this
        refine ⟨rfl, ⟨rfl, rfl, Or.inr ⟨⟨rfl, e1it⟩, ⟨rfl, e1it'⟩, hS, h3, ?_⟩⟩, hS, by simp⟩
        have := h4'
        rw [show e1.ia = e1'.ia from h2.ia, show e1.ma = e1'.ma from h2.ma] at this
        exact this
    | done => exact absurd rfl hnd
    | exc x => exact ⟨rfl, ⟨h2.par, h2.world, Or.inr ⟨⟨rfl, e1it⟩, ⟨rfl, e1it'⟩, h2, h3, h4'⟩⟩, h2, by simp⟩
    | corrupt => exact ⟨rfl, ⟨h2.par, h2.world, Or.inr ⟨⟨rfl, e1it⟩, ⟨rfl, e1it'⟩, h2, h3, h4'⟩⟩, h2, by simp⟩

theorem sim_body_init (th : Theory K W) (toler : K) (o o' : Option (Work K)) (e e' : Eng K W)
    (h : SimP e e') (hi : e.iter = 0) (hl : e.alambda < 0) :
    let r := refineBody th toler o e
    let r' := refineBody th toler o' e'
    r.2.2 = r'.2.2 ∧ Rel r.1 r.2.1 r'.1 r'.2.1 ∧ r.2.2 ≠ .done ∧
    (r.2.2 = .more → SimE r.2.1 r'.2.1) := by
  have hi' : e'.iter = 0 := h.iter ▸ hi
  unfold refineBody
  dsimp only
  rw [if_pos (Or.inl (by omega)), if_pos (Or.inl (by omega))]
  have hs := sim_min_init th o o' { e with ochisq := e.chisq } { e' with ochisq := e'.chisq }
    ⟨h.par, h.world, h.iter, h.stag, h.lam, h.chisq⟩ hl
  have hf := mrqmin_frame th o { e with ochisq := e.chisq }
  have hf' := mrqmin_frame th o' { e' with ochisq := e'.chisq }
  have hnd := mrqmin_ne_done th o { e with ochisq := e.chisq }
  revert hs hf hf' hnd
  generalize mrqmin th o { e with ochisq := e.chisq } = q
  generalize mrqmin th o' { e' with ochisq := e'.chisq } = q'
  obtain ⟨w1, e1, x1⟩ := q
  obtain ⟨w1', e1', x1'⟩ := q'
  dsimp only
  rintro ⟨rfl, h2, h3, h4⟩ hf hf' hnd
  have e1it : e1.iter = 0 := by rw [hf.iter]; exact hi
  have e1it' : e1'.iter = 0 := by rw [hf'.iter]; exact hi'
  cases x1 with
  | more =>
    obtain ⟨h5, h6, h7⟩ := h4 rfl
    have h7' : SimO (nfree e1.ia e1.ma) e1.ma w1 w1' := by
      rw [hf.ia, hf.ma]; exact h7
    have hoc : e1.ochisq = e1'.ochisq := by
      rw [hf.och, hf'.och]; exact h.chisq
    dsimp only
    have hS : SimE { e1 with stagnating := (if e1.iter ≠ 0 ∧ e1.ochisq - e1.chisq ≤ toler * e1.ochisq then e1.stagnating + 1 else 0), iter := e1.iter + 1, rw2 := e1.chisq / wnormOf (th.pts e1.world) }
       { e1' with stagnating := (if e1'.iter ≠ 0 ∧ e1'.ochisq - e1'.chisq ≤ toler * e1'.ochisq then e1'.stagnating + 1 else 0), iter := e1'.iter + 1, rw2 := e1'.chisq / wnormOf (th.pts e1'.world) } := by
      refine ⟨h5.par, h5.world, congrArg (· + 1) h5.iter, ?_, h5.lam, h5.chisq, h5.cum, ?_, h5.alpha⟩
      · dsimp only; rw [h5.iter, h5.stag, h5.chisq, hoc]
      · dsimp only; rw [h5.chisq, h5.world]
    exact ⟨rfl, ⟨h5.par, h5.world, Or.inr ⟨⟨rfl, Nat.succ_ne_zero _⟩, ⟨rfl, Nat.succ_ne_zero _⟩, hS, h6, h7'⟩⟩, by simp, fun _ => hS⟩
  | done => exact absurd rfl hnd
  | exc x => exact ⟨rfl, ⟨h2, h3, Or.inl ⟨fun hs => hs.2 e1it, fun hs => hs.2 e1it'⟩⟩, by simp, by simp⟩
  | corrupt => exact ⟨rfl, ⟨h2, h3, Or.inl ⟨fun hs => hs.2 e1it, fun hs => hs.2 e1it'⟩⟩, by simp, by simp⟩

theorem refineBody_keys (th : Theory K W) (toler : K) (o : Option (Work K)) (e : Eng K W) :
    (refineBody th toler o e).2.1.ia = e.ia ∧ (refineBody th toler o e).2.1.ma = e.ma := by
  unfold refineBody
  split
  · have hf := mrqmin_frame th o { e with ochisq := e.chisq }
    split
    · rename_i heq; rw [heq] at hf; exact ⟨hf.ia, hf.ma⟩
    · rename_i heq; rw [heq] at hf; exact ⟨hf.ia, hf.ma⟩
  · have hf := mrqmin_frame th o { e with alambda := 0 }
    split
    · rename_i heq; rw [heq] at hf
      dsimp only
      split
      · exact ⟨hf.ia, hf.ma⟩
      · exact ⟨hf.ia, hf.ma⟩
    · rename_i heq; rw [heq] at hf; exact ⟨hf.ia, hf.ma⟩

theorem refineStep_keys (th : Theory K W) (toler : K) (s : Statics K) (e : Eng K W) :
    (refineStep th toler s e).2.1.ia = e.ia ∧ (refineStep th toler s e).2.1.ma = e.ma := by
  unfold refineStep
  split
  · exact refineBody_keys th toler s.work e
  · dsimp only
    split
    · exact ⟨rfl, rfl⟩
    · rename_i w _
      exact refineBody_keys th toler s.work
        { e with world := w, iter := 0, alambda := -1, stagnating := 0, chisq := th.dmax }

/-- One `refine_step` on each of two related objects. -/
theorem sim_step (th : Theory K W) (toler : K) (s s' : Statics K) (e e' : Eng K W)
    (h : Rel s e s' e') :
    let r := refineStep th toler s e
    let r' := refineStep th toler s' e'
    r.2.2 = r'.2.2 ∧ Rel r.1 r.2.1 r'.1 r'.2.1 ∧
    (r.2.2 = .more ∨ r.2.2 = .done → SimE r.2.1 r'.2.1) ∧
    (r.2.2 = .done → ∀ i j, i < e.ma → j < e.ma → r.2.1.covar i j = r'.2.1.covar i j) := by
  unfold refineStep
  have hcs := h.cases
  unfold Started at hcs
  rcases hcs with ⟨h1, h2⟩ | ⟨h1, h2, h3, h4, h5⟩
  · rw [if_neg h1, if_neg h2]
    dsimp only
    rw [h.par, h.world]
    generalize th.setup e'.par e'.world = v
    obtain ⟨w, x⟩ := v
    cases x with
    | some x =>
      exact ⟨rfl, ⟨rfl, rfl, Or.inl ⟨fun hs => hs.2 rfl, fun hs => hs.2 rfl⟩⟩, by simp, by simp⟩
    | none =>
      dsimp only
      obtain ⟨g1, g2, g3, g4⟩ := sim_body_init th toler s.work s'.work
        { e with par := e'.par, iter := 0, alambda := -1, stagnating := 0, chisq := th.dmax, world := w }
        { e' with iter := 0, alambda := -1, stagnating := 0, chisq := th.dmax, world := w }
        ⟨rfl, rfl, rfl, rfl, rfl, rfl⟩ rfl (by norm_num)
      exact ⟨g1, g2, fun hh => g4 (hh.resolve_right g3), fun hh => absurd hh g3⟩
  · rw [if_pos h1, if_pos h2]
    obtain ⟨g1, g2, g3, g4⟩ := sim_body_run th toler s.work s'.work e e' h3 h1.2 h4 h5
    exact ⟨g1, g2, fun _ => g3, g4⟩

/-- Any number of `refine_step` calls on related objects. -/
theorem sim_stepN (th : Theory K W) (toler : K) (n : Nat) :
    ∀ (s s' : Statics K) (e e' : Eng K W), Rel s e s' e' →
    outN th toler n (s, e) = outN th toler n (s', e') ∧
    Rel (stepN th toler n (s, e)).1 (stepN th toler n (s, e)).2
      (stepN th toler n (s', e')).1 (stepN th toler n (s', e')).2 := by
  induction n with
  | zero => intro s s' e e' h; exact ⟨rfl, h⟩
  | succ n ih =>
    intro s s' e e' h
    obtain ⟨h1, h2, _, _⟩ := sim_step th toler s s' e e' h
    obtain ⟨h3, h4⟩ := ih _ _ _ _ h2
    refine ⟨?_, h4⟩
    rw [outN, outN]
    dsimp only
    rw [h1, h3]

/-- A whole `refine()` on related objects. -/
theorem sim_loop (th : Theory K W) (toler : K) (n : Nat) :
    ∀ (s s' : Statics K) (e e' : Eng K W), Rel s e s' e' →
    let r := refineLoop th toler n (s, e)
    let r' := refineLoop th toler n (s', e')
    r.2 = r'.2 ∧ Rel r.1.1 r.1.2 r'.1.1 r'.1.2 ∧
    (r.2.1 = .done → SimE r.1.2 r'.1.2 ∧
      ∀ i j, i < e.ma → j < e.ma → r.1.2.covar i j = r'.1.2.covar i j) := by
  induction n with
  | zero => intro s s' e e' h; exact ⟨rfl, h, by simp [refineLoop]⟩
  | succ n ih =>
    intro s s' e e' h
    have hst := sim_step th toler s s' e e' h
    have hma : (refineStep th toler s e).2.1.ma = e.ma := (refineStep_keys th toler s e).2
    revert hst hma
    rw [refineLoop, refineLoop]
    dsimp only
    generalize refineStep th toler s e = q
    generalize refineStep th toler s' e' = q'
    obtain ⟨s1, e1, x⟩ := q
    obtain ⟨s1', e1', x'⟩ := q'
    dsimp only
    rintro ⟨rfl, h2, h3, h4⟩ hma
    cases x with
    | more =>
      obtain ⟨g1, g2, g3⟩ := ih _ _ _ _ h2
      refine ⟨?_, g2, ?_⟩
      · dsimp only; rw [g1]
      · rw [hma] at g3; exact g3
    | done => exact ⟨rfl, h2, fun _ => ⟨h3 (Or.inr rfl), h4 rfl⟩⟩
    | exc x => exact ⟨rfl, h2, by simp⟩
    | corrupt => exact ⟨rfl, h2, by simp⟩

end Pdffit
