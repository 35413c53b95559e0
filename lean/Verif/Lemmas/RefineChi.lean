import Verif.Lemmas.Refine

/-!
Lemmas about chi-square along a refinement.
-/

namespace Pdffit
variable {K W : Type} [Field K] [LinearOrder K] [IsStrictOrderedRing K]

/-- Two stores with the same identifiers and flags (values may differ). -/
def SameKeys (p0 par : ParStore K) : Prop :=
  par.ip = p0.ip ∧ par.id = p0.id ∧ par.p.length = p0.p.length

/-- `chi`-square of the fitted points: weighted sum of squared residuals. -/
def chisqOf (dss : List (List (Pt K))) : K :=
  (dss.flatten.map fun p => p.w * (p.obs - p.mod) ^ 2).sum

/-- The model evaluation is a function of the parameter values, as long as the world stays in
`I` and keys and flags of the parameters do not change: it raises or gives `chi p`, and the
normalisation `wn` is constant. -/
structure Theory.Det (th : Theory K W) (p0 : ParStore K) (I : W → Prop)
    (chi : List K → Option K) (wn : K) : Prop where
  setup : ∀ par w, SameKeys p0 par → I w → I (th.setup par w).1
  eval : ∀ par w, SameKeys p0 par → I w → I (th.eval par w).1
  fails : ∀ par w w' x, SameKeys p0 par → I w → th.eval par w = (w', some x) → chi par.p = none
  value : ∀ par w w', SameKeys p0 par → I w → th.eval par w = (w', none) →
    chi par.p = some (chisqOf (th.pts w')) ∧ wnormOf (th.pts w') = wn

theorem chisq_eq (ia : Nat → Bool) (ma) (dss : List (List (Pt K))) (al be) :
    (mrqAcc ia ma dss al be).2.2.1 = chisqOf dss := by
  rw [mrqAcc_chisq, chisqOf]
  congr 1
  apply List.map_congr_left
  intro p _
  simp only [contrib]; ring

variable {th : Theory K W} {p0 : ParStore K} {I : W → Prop} {chi : List K → Option K} {wn : K}

/-- The engine is consistent: its chi-square belongs to its parameters. -/
structure ChiOK (th : Theory K W) (p0 : ParStore K) (I : W → Prop)
    (chi : List K → Option K) (wn : K) (e : Eng K W) : Prop where
  keys : SameKeys p0 e.par
  inv : I e.world
  chi : chi e.par.p = some e.chisq
  wn : wnormOf (th.pts e.world) = wn

/-- The work arrays belong to the engine. -/
structure WorkOK (wk : Work K) (e : Eng K W) : Prop where
  ma : wk.ma = e.ma
  mfit : wk.mfit = nfree e.ia e.ma
  och : wk.ochisq = e.chisq

theorem solveNormal_ok_or (mfit : Nat) (m : Nat → Nat → K) (be : Nat → K) (c) (da) :
    solveNormal mfit m be c da ≠ .ub ∧
    ∀ x, solveNormal mfit m be c da = .err x → x = .calculation := by
  unfold solveNormal
  rcases C13.C13_gaussj_inverts_or_reports_singular (n := mfit) (m := 1)
    (fun i j => m i j) (fun i _ => be i) with ⟨_, h⟩ | ⟨_, A', X, h, _⟩
  · rw [h]; simp
  · rw [h]; simp

theorem mrqcof_chi (hd : th.Det p0 I chi wn) (e : Eng K W) (a al be)
    (hk : SameKeys p0 e.par) (hi : I e.world) :
    let r := mrqcof th e a al be
    I r.1.world ∧ SameKeys p0 r.1.par ∧ r.1.par = (e.setP a).par ∧
    (∀ x, r.2 = .error x → chi (e.setP a).par.p = none) ∧
    (∀ v, r.2 = .ok v → ChiOK th p0 I chi wn r.1) := by
  have hk' : SameKeys p0 (e.setP a).par := by
    refine ⟨hk.1, hk.2.1, ?_⟩
    simp only [Eng.setP, Eng.ma, List.length_map, List.length_range]; exact hk.2.2
  unfold mrqcof
  dsimp only
  split
  · rename_i w x heq
    have h1 := hd.eval _ _ hk' (show I (e.setP a).world from hi)
    rw [heq] at h1
    refine ⟨h1, hk', rfl, fun y _ => hd.fails _ _ _ _ hk' hi heq, fun v hv => by cases hv⟩
  · rename_i w heq
    have h1 := hd.eval _ _ hk' (show I (e.setP a).world from hi)
    rw [heq] at h1
    have h2 := hd.value _ _ _ hk' hi heq
    refine ⟨h1, hk', rfl, fun y hy => (by cases hy), fun v _ => ⟨hk', h1, ?_, h2.2⟩⟩
    dsimp only
    rw [chisq_eq]
    exact h2.1

theorem mrqTry_chi (hd : th.Det p0 I chi wn) (wk : Work K) (e : Eng K W)
    (h : ChiOK th p0 I chi wn e) (hw : WorkOK wk e) :
    let r := mrqTry th wk e
    r.2.2 ≠ .corrupt ∧ I r.2.1.world ∧
    (r.2.2 = .more → ChiOK th p0 I chi wn r.2.1 ∧ r.2.1.chisq ≤ e.chisq ∧
      (e.alambda ≠ 0 → ∃ wk', r.1 = some wk' ∧ WorkOK wk' r.2.1) ∧
      (e.alambda = 0 → r.2.1.chisq = e.chisq ∧ r.2.1.par = e.par)) ∧
    (r.2.2 ≠ .more → ∃ wk', r.1 = some wk' ∧ wk'.ma = wk.ma ∧ wk'.mfit = wk.mfit ∧
      wk'.ochisq = e.chisq ∧ r.2.1.chisq = e.chisq) := by
  have hs := solveNormal_ok_or wk.mfit (augmented e) wk.beta e.covar wk.da
  unfold mrqTry
  dsimp only
  split
  · rename_i x heq
    exact ⟨by simp, h.inv, by simp, fun _ => ⟨wk, rfl, rfl, rfl, hw.och, rfl⟩⟩
  · rename_i heq; exact absurd heq hs.1
  · rename_i cov da heq
    split
    · rename_i h0
      obtain ⟨c1, hc1, _⟩ := covsrt_spec e.ia e.ma cov
      obtain ⟨c2, hc2, _⟩ := covsrt_spec e.ia e.ma e.alpha
      rw [hw.mfit, hc1, hc2]
      refine ⟨by simp, h.inv, fun _ => ⟨⟨h.keys, h.inv, h.chi, h.wn⟩, le_refl _, fun hn => absurd h0 hn,
        fun _ => ⟨rfl, rfl⟩⟩, by simp⟩
    · rename_i h0
      have hm := mrqcof_chi hd { e with covar := cov }
        (fun l => if l < e.ma ∧ e.ia l = true then e.a l + da (nfree e.ia l) else wk.atry l) cov da
        h.keys h.inv
      have hf := mrqcof_frame th { e with covar := cov }
        (fun l => if l < e.ma ∧ e.ia l = true then e.a l + da (nfree e.ia l) else wk.atry l) cov da
      have hx : ∀ e1 x, mrqcof th { e with covar := cov }
        (fun l => if l < e.ma ∧ e.ia l = true then e.a l + da (nfree e.ia l) else wk.atry l) cov da
          = (e1, .error x) → e1.chisq = e.chisq := by
        intro e1 x hx
        unfold mrqcof at hx
        dsimp only at hx
        split at hx
        · cases hx; rfl
        · cases hx
      split
      · rename_i e1 x heq1
        have hx := hx _ _ heq1
        rw [heq1] at hm
        exact ⟨by simp, hm.1, by simp, fun _ => ⟨_, rfl, rfl, rfl, hw.och, hx⟩⟩
      · rename_i e1 cov1 da1 heq1
        rw [heq1] at hm hf
        dsimp only at hm hf
        obtain ⟨hI, hk, hp, -, hv⟩ := hm
        have hv := hv _ rfl
        have hfr : Frame e { e1 with covar := cov1 } :=
          ⟨hf.iter, hf.stag, hf.och, hf.ip, hf.id, hf.len⟩
        split
        · rename_i hlt
          have hpp : ((Eng.setP { e1 with covar := cov1 } (fun l => if l < e.ma ∧ e.ia l = true then e.a l + da (nfree e.ia l) else wk.atry l)).par) = e1.par := by
            have e2 : (Eng.setP { e1 with covar := cov1 } (fun l => if l < e.ma ∧ e.ia l = true then e.a l + da (nfree e.ia l) else wk.atry l)).par.p = e1.par.p := by
              refine Eq.trans ?_ (congrArg ParStore.p hp).symm
              exact setP_congr _ _ hfr.ma (fun _ _ => rfl)
            show ({ e1.par with p := _ } : ParStore K) = e1.par
            simp only [Eng.setP] at e2
            rw [e2]
          refine ⟨by simp, hI, fun _ => ⟨⟨?_, hI, ?_, hv.wn⟩, ?_, fun _ => ⟨_, rfl, ?_⟩, fun h' => absurd h' h0⟩, by simp⟩
          · dsimp only; rw [hpp]; exact hk
          · dsimp only; rw [hpp]; exact hv.chi
          · have : e1.chisq < wk.ochisq := hlt
            rw [hw.och] at this
            exact le_of_lt this
          · have hfs := hfr.trans (Frame.setP { e1 with covar := cov1 } (fun l => if l < e.ma ∧ e.ia l = true then e.a l + da (nfree e.ia l) else wk.atry l))
            refine ⟨hw.ma.trans hfs.ma.symm, ?_, rfl⟩
            have h1 := hfs.ia
            have h2 := hfs.ma
            show wk.mfit = nfree (Eng.ia (Eng.setP { e1 with covar := cov1 } _)) (Eng.ma (Eng.setP { e1 with covar := cov1 } _))
            rw [h1, h2]; exact hw.mfit
        · rename_i hlt
          have hfs := hfr.trans (Frame.setP { e1 with covar := cov1 } e.a)
          have hpp : (Eng.setP { e1 with covar := cov1 } e.a).par = e.par := by
            have e2 : (Eng.setP { e1 with covar := cov1 } e.a).par.p = e.par.p := by
              rw [← Eng.setP_self e]
              exact setP_congr _ _ hfr.ma (fun _ _ => rfl)
            have i1 : e1.par.ip = e.par.ip := hf.ip
            have i2 : e1.par.id = e.par.id := hf.id
            simp only [Eng.setP] at e2 ⊢
            rw [e2, i1, i2]
          refine ⟨by simp, hI, fun _ => ⟨⟨?_, hI, ?_, hv.wn⟩, ?_, fun _ => ⟨_, rfl, ?_⟩, fun h' => absurd h' h0⟩, by simp⟩
          · dsimp only; rw [hpp]; exact h.keys
          · dsimp only; rw [hpp, hw.och]; exact h.chi
          · dsimp only; rw [hw.och]
          · refine ⟨hw.ma.trans hfs.ma.symm, ?_, rfl⟩
            have h1 := hfs.ia
            have h2 := hfs.ma
            show wk.mfit = nfree (Eng.ia (Eng.setP { e1 with covar := cov1 } _)) (Eng.ma (Eng.setP { e1 with covar := cov1 } _))
            rw [h1, h2]; exact hw.mfit

theorem mrqInit_chi (hd : th.Det p0 I chi wn) (old) (e : Eng K W)
    (hk : SameKeys p0 e.par) (hi : I e.world) :
    let r := mrqInit th old e
    I r.2.1.world ∧
    (r.2.2 = none → ChiOK th p0 I chi wn r.2.1 ∧ WorkOK r.1 r.2.1 ∧ r.2.1.par = e.par) := by
  unfold mrqInit
  dsimp only
  have hm := mrqcof_chi hd { e with alambda := 1/1000 } (Eng.a { e with alambda := 1/1000 })
    (Eng.alpha { e with alambda := 1/1000 }) (fun _ => 0) hk hi
  have hf := mrqcof_frame th { e with alambda := 1/1000 } (Eng.a { e with alambda := 1/1000 })
    (Eng.alpha { e with alambda := 1/1000 }) (fun _ => 0)
  split
  · rename_i heq
    rw [heq] at hm
    exact ⟨hm.1, by simp⟩
  · rename_i e2 al be heq
    rw [heq] at hm hf
    dsimp only at hm hf
    obtain ⟨hI, hk2, hp, -, hv⟩ := hm
    have hv := hv _ rfl
    refine ⟨hI, fun _ => ⟨⟨hk2, hI, hv.chi, hv.wn⟩, ⟨hf.ma.symm, ?_, rfl⟩, ?_⟩⟩
    · have h1 := hf.ia
      have h2 := hf.ma
      show nfree e.ia e.ma = nfree e2.ia e2.ma
      rw [h1, h2]; rfl
    · show e2.par = e.par
      have e1 : e2.par.p = e.par.p := (congrArg ParStore.p hp).trans (Eng.setP_self _)
      have i1 : e2.par.ip = e.par.ip := hf.ip
      have i2 : e2.par.id = e.par.id := hf.id
      have : ∀ s t : ParStore K, s.p = t.p → s.ip = t.ip → s.id = t.id → s = t := by
        intro s t h1 h2 h3; cases s; cases t; simp_all
      exact this _ _ e1 i1 i2

theorem mrqTry_alambda_ne (th : Theory K W) (wk : Work K) (e : Eng K W) (h : 0 < e.alambda)
    : 0 < (mrqTry th wk e).2.1.alambda := by
  unfold mrqTry
  split
  · exact h
  · exact h
  · split
    · split
      · exact h
      · exact h
    · rename_i cov da hs _
      dsimp only
      have hal : ∀ a al be, (mrqcof th { e with covar := cov } a al be).1.alambda = e.alambda := by
        intro a al be
        unfold mrqcof
        dsimp only
        split <;> rfl
      have hal := hal (fun l => if l < e.ma ∧ e.ia l = true then e.a l + da (nfree e.ia l) else wk.atry l) cov da
      split
      · rename_i heq
        rw [heq] at hal
        dsimp only at hal ⊢
        rw [hal]; exact h
      · rename_i heq
        rw [heq] at hal
        dsimp only at hal ⊢
        split
        · dsimp only; rw [hal]; positivity
        · dsimp only; rw [hal]; positivity

/-- State between two calls of a refinement in which no call has raised. -/
structure Mid (th : Theory K W) (p0 : ParStore K) (I : W → Prop)
    (chi : List K → Option K) (wn : K) (s : Statics K) (e : Eng K W) : Prop where
  run : s.fitRunning = true
  it : e.iter ≠ 0
  lam : 0 < e.alambda
  ok : ChiOK th p0 I chi wn e
  work : ∃ wk, s.work = some wk ∧ WorkOK wk e
  rw : e.rw2 = e.chisq / wn

/-- Body of a call that starts from consistent data (`c0`: chi-square at the start). -/
theorem refineBody_mid (hd : th.Det p0 I chi wn) (toler : K) (work) (e : Eng K W)
    (hk : SameKeys p0 e.par) (hi : I e.world) (c0 : K)
    (hstart : (e.alambda < 0 ∧ e.iter = 0 ∧ chi e.par.p = some c0) ∨
      (0 < e.alambda ∧ e.iter ≠ 0 ∧ e.chisq = c0 ∧ ChiOK th p0 I chi wn e ∧
        ∃ wk, work = some wk ∧ WorkOK wk e)) :
    let r := refineBody th toler work e
    r.2.2 ≠ .corrupt ∧
    (r.2.2 = .more → Mid th p0 I chi wn r.1 r.2.1 ∧ r.2.1.chisq ≤ c0) ∧
    (r.2.2 = .done → r.2.1.par = e.par ∧ r.2.1.chisq = c0 ∧ r.2.1.rw2 = c0 / wn ∧
      ChiOK th p0 I chi wn r.2.1 ∧
      ∃ w0, I w0 ∧ th.eval r.2.1.par w0 = (r.2.1.world, none)) := by
  -- one `mrqmin` call with non-zero damping
  have key : ∀ e1 : Eng K W, e1 = { e with ochisq := e.chisq } →
      (mrqmin th work e1).2.2 ≠ .corrupt ∧
      ((mrqmin th work e1).2.2 = .more → ChiOK th p0 I chi wn (mrqmin th work e1).2.1 ∧
        0 < (mrqmin th work e1).2.1.alambda ∧ (mrqmin th work e1).2.1.chisq ≤ c0 ∧
        ∃ wk, (mrqmin th work e1).1 = some wk ∧ WorkOK wk (mrqmin th work e1).2.1) := by
    rintro e1 rfl
    rcases hstart with ⟨h1, h2, h3⟩ | ⟨h1, h2, h3, h4, wk, h5, h6⟩
    · have hI := mrqInit_chi hd work { e with ochisq := e.chisq } hk hi
      have hl := mrqInit_alambda th work { e with ochisq := e.chisq }
      unfold mrqmin
      rw [if_pos (show (Eng.alambda { e with ochisq := e.chisq }) < 0 from h1)]
      split
      · exact ⟨by simp, by simp⟩
      · rename_i wk e2 heq
        rw [heq] at hI hl
        dsimp only at hI hl
        obtain ⟨c1, c2, c3⟩ := hI.2 rfl
        have ht := mrqTry_chi hd wk e2 c1 c2
        have hlam : 0 < e2.alambda := by rw [hl]; positivity
        have hc : e2.chisq = c0 := by
          have := c1.chi
          rw [c3] at this
          rw [h3] at this
          exact (Option.some.inj this).symm
        refine ⟨ht.1, fun hm => ?_⟩
        obtain ⟨d1, d2, d3, -⟩ := ht.2.2.1 hm
        exact ⟨d1, mrqTry_alambda_ne th wk e2 hlam, hc ▸ d2, d3 (ne_of_gt hlam)⟩
    · subst h5
      have c1 : ChiOK th p0 I chi wn { e with ochisq := e.chisq } :=
        ⟨h4.keys, h4.inv, h4.chi, h4.wn⟩
      have c2 : WorkOK wk { e with ochisq := e.chisq } := ⟨h6.ma, h6.mfit, h6.och⟩
      have ht := mrqTry_chi hd wk { e with ochisq := e.chisq } c1 c2
      unfold mrqmin
      rw [if_neg (show ¬ (Eng.alambda { e with ochisq := e.chisq }) < 0 from not_lt.2 (le_of_lt h1))]
      dsimp only
      rw [if_pos ⟨c2.ma, c2.mfit⟩]
      refine ⟨ht.1, fun hm => ?_⟩
      obtain ⟨d1, d2, d3, -⟩ := ht.2.2.1 hm
      exact ⟨d1, mrqTry_alambda_ne th wk _ h1, h3 ▸ d2, d3 (ne_of_gt h1)⟩
  unfold refineBody
  split
  · have k := key _ rfl
    have hfr := mrqmin_frame th work { e with ochisq := e.chisq }
    have hdn := mrqmin_ne_done th work { e with ochisq := e.chisq }
    split
    · rename_i wk e1 heq
      rw [heq] at k hfr
      obtain ⟨k1, k2, k3, wk', k4, k5⟩ := k.2 rfl
      refine ⟨by simp, fun _ => ⟨⟨rfl, by simp, k2, ⟨k1.keys, k1.inv, k1.chi, k1.wn⟩,
        ⟨wk', k4, ⟨k5.ma, k5.mfit, k5.och⟩⟩, ?_⟩, k3⟩, by simp⟩
      dsimp only; rw [k1.wn]
    · rename_i wk e1 o hne heq
      rw [heq] at k hdn
      exact ⟨k.1, fun h => absurd h hne, fun h => absurd h hdn⟩
  · rename_i hc
    rcases hstart with ⟨h1, h2, h3⟩ | ⟨h1, h2, h3, h4, wk, h5, h6⟩
    · exact absurd (Or.inl (by omega)) hc
    · subst h5
      have c1 : ChiOK th p0 I chi wn { e with alambda := 0 } :=
        ⟨h4.keys, h4.inv, h4.chi, h4.wn⟩
      have c2 : WorkOK wk { e with alambda := 0 } := ⟨h6.ma, h6.mfit, h6.och⟩
      have ht := mrqTry_chi hd wk { e with alambda := 0 } c1 c2
      have hm : mrqmin th (some wk) { e with alambda := 0 } = mrqTry th wk { e with alambda := 0 } := by
        unfold mrqmin
        rw [if_neg (show ¬ (Eng.alambda { e with alambda := 0 }) < 0 from lt_irrefl 0)]
        dsimp only
        rw [if_pos ⟨c2.ma, c2.mfit⟩]
      have hdn := mrqmin_ne_done th (some wk) { e with alambda := 0 }
      rw [hm] at hdn ⊢
      split
      · rename_i wk1 e1 heq
        rw [heq] at ht
        obtain ⟨t1, t2, t3, t4⟩ := ht.2.2.1 rfl
        obtain ⟨t5, t6⟩ := t4 rfl
        dsimp only at t5 t6 ⊢
        split
        · rename_i w x hx
          exfalso
          have := hd.fails _ _ _ _ t1.keys t1.inv hx
          rw [t1.chi] at this
          cases this
        · rename_i w hx
          have v1 := hd.value _ _ _ t1.keys t1.inv hx
          have v2 := hd.eval _ _ t1.keys t1.inv
          rw [hx] at v2
          refine ⟨by simp, by simp, fun _ => ⟨t6, t5.trans h3, ?_, ⟨t1.keys, v2, t1.chi, v1.2⟩,
            ⟨e1.world, t1.inv, hx⟩⟩⟩
          dsimp only
          rw [t1.wn, t5, h3]
      · rename_i wk1 e1 o hne heq
        rw [heq] at ht hdn
        exact ⟨ht.1, fun h => absurd h hne, fun h => absurd h hdn⟩

/-- The chi-square at the start of a call: that of the current parameters. -/
theorem refineStep_mid (hd : th.Det p0 I chi wn) (toler : K) (s : Statics K) (e : Eng K W)
    (hk : SameKeys p0 e.par) (hi : I e.world) (c0 : K)
    (h : (¬ (s.fitRunning = true ∧ e.iter ≠ 0) ∧ chi e.par.p = some c0) ∨
      (Mid th p0 I chi wn s e ∧ c0 = e.chisq)) :
    let r := refineStep th toler s e
    r.2.2 ≠ .corrupt ∧
    (r.2.2 = .more → Mid th p0 I chi wn r.1 r.2.1 ∧ r.2.1.chisq ≤ c0) ∧
    (r.2.2 = .done → r.2.1.par = e.par ∧ r.2.1.chisq = c0 ∧ r.2.1.rw2 = c0 / wn ∧
      ChiOK th p0 I chi wn r.2.1 ∧
      ∃ w0, I w0 ∧ th.eval r.2.1.par w0 = (r.2.1.world, none)) := by
  rcases h with ⟨hr, hc⟩ | ⟨hm, hc⟩
  · unfold refineStep
    rw [if_neg hr]
    dsimp only
    split
    · exact ⟨by simp, by simp, by simp⟩
    · rename_i w heq
      have hw := hd.setup e.par e.world hk hi
      rw [heq] at hw
      exact refineBody_mid hd toler s.work
        { e with iter := 0, alambda := -1, stagnating := 0, chisq := th.dmax, world := w }
        hk hw c0 (Or.inl ⟨by simp, rfl, hc⟩)
  · unfold refineStep
    rw [if_pos ⟨hm.run, hm.it⟩]
    obtain ⟨wk, h1, h2⟩ := hm.work
    exact refineBody_mid hd toler s.work e hk hi c0
      (Or.inr ⟨hm.lam, hm.it, hc.symm, hm.ok, wk, h1, h2⟩)

end Pdffit
