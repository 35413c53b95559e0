import Verif.Lemmas.RefineDown

/-! A refinement in which all trial points are rejected. -/

namespace Pdffit
set_option linter.unusedSectionVars false
variable {K W : Type} [Field K] [LinearOrder K] [IsStrictOrderedRing K]

namespace Down
open Lin

/-- Every evaluation succeeds, and the normal equations at `p0` are regular. -/
structure Base (th : Theory K W) (p0 : ParStore K) (J : W → Prop) (X : K) : Prop where
  ev : ∀ par w, SameKeys p0 par → J w → ∃ w', th.eval par w = (w', none) ∧ J w'
  here : ∀ w w', J w → th.eval p0 w = (w', none) → Determined p0 (th.pts w') ∧ chisqOf (th.pts w') = X

/-- The trial points that belong to the dampings `1/1000, 1/100, 1/10, 1` are not better than `p0`. -/
structure Stuck (th : Theory K W) (p0 : ParStore K) (J : W → Prop) (X : K) : Prop extends Base th p0 J X where
  up : ∀ k : ℕ, k < 4 → ∀ w w' (y : ℕ → K) q v v', J w → th.eval p0 w = (w', none) →
    (∀ i ∈ Fr p0, row (Fr p0) (th.pts w').flatten i y + 10 ^ k / 1000 * diag (th.pts w').flatten i * y i =
      grad (Fr p0) (th.pts w').flatten i fun _ => 0) →
    Adm p0 q → (∀ i ∈ Fr p0, q.p.getD i 0 = p0.p.getD i 0 + y i) → J v → th.eval q v = (v', none) → X ≤ chisqOf (th.pts v')

variable {th : Theory K W} {p0 : ParStore K} {J : W → Prop} {X : K}

theorem Base.keep (hs : Base th p0 J X) : ∀ par w w', SameKeys p0 par → J w → th.eval par w = (w', none) → J w' := by
  intro par w w' h1 h2 h3
  obtain ⟨w1, h4, h5⟩ := hs.ev par w h1 h2
  rw [h4] at h3
  cases h3
  exact h5

theorem adm_refl (p0 : ParStore K) : Adm p0 p0 := ⟨⟨rfl, rfl, rfl⟩, fun _ _ _ => rfl⟩

theorem mrqcof_stuck (hs : Base th p0 J X) (e : Eng K W) (a al be) (hk : SameKeys p0 (e.setP a).par) (hw : J e.world) :
    ∃ x, (mrqcof th e a al be).2 = .ok x := by
  obtain ⟨w', h1, -⟩ := hs.ev (e.setP a).par (e.setP a).world hk hw
  unfold mrqcof
  dsimp only
  rw [h1]
  exact ⟨_, rfl⟩

theorem mrqInit_stuck (hs : Base th p0 J X) (old) (e : Eng K W) (hp : Adm p0 e.par) (hw : J e.world) :
    (mrqInit th old e).2.2 = none := by
  obtain ⟨x, hx⟩ := mrqcof_stuck hs { e with alambda := 1 / 1000 }
    ({ e with alambda := 1 / 1000 } : Eng K W).a e.alpha (fun _ => 0)
    (adm_setP (e := { e with alambda := 1 / 1000 }) hp _ fun _ _ _ => rfl).1 hw
  unfold mrqInit
  dsimp only
  generalize mrqcof th { e with alambda := 1 / 1000 } _ e.alpha _ = r at hx ⊢
  obtain ⟨e2, o⟩ := r
  dsimp only at hx
  subst hx
  rfl

theorem regular_stuck (hs : Base th p0 J X) {wk : Work K} {e : Eng K W} (h : Keep th p0 J wk e) (hp : e.par = p0) (hl : 0 ≤ e.alambda) :
    ∃ cov da, solveNormal wk.mfit (augmented e) wk.beta e.covar wk.da = .ok (cov, da) := by
  obtain ⟨w0, w', k1, k2, k3, k4⟩ := h.eqs
  rw [hp] at k2
  obtain ⟨d1, -⟩ := hs.here w0 w' k1 k2
  exact solveNormal_regular (augmented_det_pts e wk.mfit h.mfit _ wk.beta k4 (by rw [hp]; exact d1) hl) wk.beta e.covar wk.da

theorem mrqTry_more (hs : Base th p0 J X) {wk : Work K} {e : Eng K W} (h : Keep th p0 J wk e) (hp : e.par = p0) (hl : 0 ≤ e.alambda) :
    (mrqTry th wk e).2.2 = .more := by
  obtain ⟨cov, da, hsol⟩ := regular_stuck hs h hp hl
  unfold mrqTry
  rw [hsol]
  dsimp only
  split
  · rw [h.mfit]
    obtain ⟨c1, hc1, -⟩ := covsrt_spec e.ia e.ma cov
    obtain ⟨c2, hc2, -⟩ := covsrt_spec e.ia e.ma e.alpha
    rw [hc1, hc2]
  · set atry : ℕ → K := fun l => if l < e.ma ∧ e.ia l = true then e.a l + da (nfree e.ia l) else wk.atry l with hat
    have hfix : ∀ l, l < e.ma → e.ia l = false → atry l = e.a l := by
      intro l h1 h2
      rw [hat]
      dsimp only
      rw [if_neg (by rw [h2]; simp)]
      exact h.atry l h1 h2
    obtain ⟨x, hx⟩ := mrqcof_stuck hs { e with covar := cov } atry cov da (adm_setP (e := { e with covar := cov }) h.adm atry hfix).1 h.world
    generalize mrqcof th { e with covar := cov } atry cov da = r at hx ⊢
    obtain ⟨e1, o⟩ := r
    dsimp only at hx
    subst hx
    dsimp only
    split <;> rfl

/-- The first call. -/
theorem first_more (hs : Base th p0 J X) (toler : K) (s : Statics K) (e : Eng K W)
    (hfresh : ¬ (s.fitRunning = true ∧ e.iter ≠ 0)) (hp : e.par = p0) (w : W)
    (hset : th.setup p0 e.world = (w, none)) (hw : J w) : (refineStep th toler s e).2.2 = .more := by
  have hadm : Adm p0 e.par := by rw [hp]; exact adm_refl p0
  have hi := mrqInit_stuck hs s.work
    ({ e with iter := 0, alambda := -1, stagnating := 0, chisq := th.dmax, world := w, ochisq := th.dmax } : Eng K W) hadm hw
  have hI := mrqInit_down hs.keep s.work
    ({ e with iter := 0, alambda := -1, stagnating := 0, chisq := th.dmax, world := w, ochisq := th.dmax } : Eng K W) hadm hw hi
  unfold refineStep
  rw [if_neg hfresh]
  dsimp only
  rw [hp, hset]
  dsimp only
  unfold refineBody
  rw [if_pos (Or.inl (by simp))]
  unfold mrqmin
  rw [if_pos (by simp)]
  rw [← hp]
  generalize mrqInit th s.work
    ({ e with iter := 0, alambda := -1, stagnating := 0, chisq := th.dmax, world := w, ochisq := th.dmax } : Eng K W) = r at hi hI ⊢
  obtain ⟨wk, e1, o⟩ := r
  dsimp only at hi hI ⊢
  subst hi
  obtain ⟨h1, h2, h3, h4⟩ := hI
  have hp1 : e1.par = p0 := h4.trans hp
  have hm := mrqTry_more hs h1 hp1 (by rw [h2]; positivity)
  dsimp only
  generalize mrqTry th wk e1 = r at hm ⊢
  obtain ⟨o1, e', o2⟩ := r
  dsimp only at hm
  subst hm
  dsimp only

/-- One rejected trial. -/
theorem mrqTry_stuck (hs : Stuck th p0 J X) {wk : Work K} {e : Eng K W} (h : Keep th p0 J wk e) (hp : e.par = p0) (k : ℕ) (hk : k < 4)
    (hl : e.alambda = 10 ^ k / 1000) :
    ∃ wk' e', mrqTry th wk e = (some wk', e', .more) ∧ Keep th p0 J wk' e' ∧ Frame e e' ∧ e'.par = p0 ∧ e'.chisq = e.chisq ∧
      e'.alambda = 10 ^ (k + 1) / 1000 := by
  have hpos : 0 < e.alambda := by rw [hl]; positivity
  have hm := mrqTry_more hs.toBase h hp hpos.le
  obtain ⟨wk', g1, g2, g3, g4, g5⟩ := mrqTry_down hs.keep h hpos hm
  generalize mrqTry th wk e = r at hm g1 g2 g3 g4 g5
  obtain ⟨o1, e', o2⟩ := r
  dsimp only at hm g1 g2 g3 g4 g5
  subst hm g1
  obtain ⟨w0, w', y, q, v0, v', c1, c2, c3, c4, -, c6, c7, c8, c9, c10⟩ := g5
  rw [hp] at c2 c7
  have hX := hs.up k hk w0 w' y q v0 v' c1 c2 (by rw [← hl]; exact c4) c6 c7 c8 c9
  have hc := (hs.here w0 w' c1 c2).2
  rw [c3, hc] at c10
  rcases c10 with ⟨d1, -⟩ | ⟨-, d2, d3, d4⟩
  · exact absurd hX (not_le.2 d1)
  · refine ⟨wk', e', rfl, g2, g3, d2.trans hp, by rw [d3, c3, hc], ?_⟩
    rw [d4, hl, pow_succ]
    ring

/-- Between two calls. -/
structure StuckRun (th : Theory K W) (p0 : ParStore K) (J : W → Prop) (X : K) (i st : ℕ) (s : Statics K) (e : Eng K W) : Prop where
  run : s.fitRunning = true
  it : e.iter = i
  stag : e.stagnating = st
  lam : e.alambda = 10 ^ i / 1000
  par : e.par = p0
  chi : e.chisq = X
  work : ∃ wk, s.work = some wk ∧ Keep th p0 J wk e

theorem Keep.chi (hs : Base th p0 J X) {wk : Work K} {e : Eng K W} (h : Keep th p0 J wk e) (hp : e.par = p0) : e.chisq = X := by
  obtain ⟨w0, w', k1, k2, k3, k4⟩ := h.eqs
  rw [hp] at k2
  rw [k3, (hs.here w0 w' k1 k2).2]

theorem stuck_first (hs : Stuck th p0 J X) (toler : K) (s : Statics K) (e : Eng K W)
    (hfresh : ¬ (s.fitRunning = true ∧ e.iter ≠ 0)) (hp : e.par = p0) (w : W)
    (hset : th.setup p0 e.world = (w, none)) (hw : J w) :
    (refineStep th toler s e).2.2 = .more ∧
    StuckRun th p0 J X 1 0 (refineStep th toler s e).1 (refineStep th toler s e).2.1 := by
  have hadm : Adm p0 e.par := by rw [hp]; exact adm_refl p0
  have hi := mrqInit_stuck hs.toBase s.work
    ({ e with iter := 0, alambda := -1, stagnating := 0, chisq := th.dmax, world := w, ochisq := th.dmax } : Eng K W) hadm hw
  have hI := mrqInit_down hs.keep s.work
    ({ e with iter := 0, alambda := -1, stagnating := 0, chisq := th.dmax, world := w, ochisq := th.dmax } : Eng K W) hadm hw hi
  unfold refineStep
  rw [if_neg hfresh]
  dsimp only
  rw [hp, hset]
  dsimp only
  unfold refineBody
  rw [if_pos (Or.inl (by simp))]
  unfold mrqmin
  rw [if_pos (by simp)]
  rw [← hp]
  generalize mrqInit th s.work
    ({ e with iter := 0, alambda := -1, stagnating := 0, chisq := th.dmax, world := w, ochisq := th.dmax } : Eng K W) = r at hi hI ⊢
  obtain ⟨wk, e1, o⟩ := r
  dsimp only at hi hI ⊢
  subst hi
  obtain ⟨h1, h2, h3, h4⟩ := hI
  have hp1 : e1.par = p0 := h4.trans hp
  obtain ⟨wk', e', g1, g2, g3, g4, g5, g6⟩ := mrqTry_stuck hs h1 hp1 0 (by norm_num) (by rw [h2]; norm_num)
  dsimp only
  rw [g1]
  dsimp only
  have hit : e'.iter = 0 := g3.iter.trans h3.iter
  rw [if_neg (by rw [hit]; simp), hp]
  exact ⟨rfl, rfl, by show e'.iter + 1 = 1; rw [hit], rfl, g6, g4, g2.chi hs.toBase g4, wk', rfl, g2.congr rfl rfl rfl rfl⟩

theorem stuck_mid (hs : Stuck th p0 J X) (hX : 0 ≤ X) (toler : K) (ht : 0 ≤ toler) (i st : ℕ) (hi : 0 < i) (hi4 : i < 4)
    (hc : i < 3 ∨ st < 3 ∧ i < 100) (s : Statics K) (e : Eng K W) (h : StuckRun th p0 J X i st s e) :
    (refineStep th toler s e).2.2 = .more ∧
    StuckRun th p0 J X (i + 1) (st + 1) (refineStep th toler s e).1 (refineStep th toler s e).2.1 := by
  obtain ⟨h1, h2, h3, h4, h7, h8, wk, h5, h6⟩ := h
  have hpos : 0 < e.alambda := by rw [h4]; positivity
  unfold refineStep
  rw [if_pos ⟨h1, by rw [h2]; omega⟩]
  unfold refineBody
  rw [if_pos (by rw [h2, h3]; exact hc)]
  unfold mrqmin
  rw [if_neg (not_lt.2 hpos.le), h5]
  dsimp only
  rw [if_pos ⟨h6.ma, h6.mfit⟩]
  obtain ⟨wk', e', g1, g2, g3, g4, g5, g6⟩ := mrqTry_stuck hs (e := { e with ochisq := e.chisq }) (h6.congr rfl rfl rfl rfl) h7 i hi4 h4
  rw [g1]
  dsimp only
  have hit : e'.iter = i := g3.iter.trans h2
  have hoc : e'.ochisq = X := g3.och.trans h8
  have hst : e'.stagnating = st := g3.stag.trans h3
  have hce : e'.chisq = X := g2.chi hs.toBase g4
  rw [if_pos ⟨by rw [hit]; omega, by rw [hoc, hce, sub_self]; exact mul_nonneg ht hX⟩]
  exact ⟨rfl, rfl, by show e'.iter + 1 = i + 1; rw [hit], by show e'.stagnating + 1 = st + 1; rw [hst], g6, g4, hce, wk', rfl,
    g2.congr rfl rfl rfl rfl⟩

theorem stuck_last (hs : Stuck th p0 J X) (toler : K) (i st : ℕ)
    (hc : ¬ (i < 3 ∨ st < 3 ∧ i < 100)) (s : Statics K) (e : Eng K W) (h : StuckRun th p0 J X i st s e) :
    (refineStep th toler s e).2.2 = .done ∧ (refineStep th toler s e).1.fitRunning = false ∧ (refineStep th toler s e).2.1.par = p0 ∧
    (refineStep th toler s e).2.1.chisq = X ∧ J (refineStep th toler s e).2.1.world := by
  obtain ⟨h1, h2, h3, h4, h7, h8, wk, h5, h6⟩ := h
  have h6' : Keep th p0 J wk { e with alambda := 0 } := h6.congr rfl rfl rfl rfl
  have hmore := mrqTry_more hs.toBase h6' h7 le_rfl
  have hfin := mrqTry_final th wk { e with alambda := 0 } h6.mfit rfl hmore
  unfold refineStep
  rw [if_pos ⟨h1, by rw [h2]; omega⟩]
  unfold refineBody
  rw [if_neg (by rw [h2, h3]; exact hc)]
  unfold mrqmin
  rw [if_neg (lt_irrefl _), h5]
  dsimp only
  rw [if_pos ⟨h6.ma, h6.mfit⟩]
  dsimp only at hfin
  generalize mrqTry th wk { e with alambda := 0 } = r at hmore hfin ⊢
  obtain ⟨wk', e', o⟩ := r
  dsimp only at hmore hfin ⊢
  subst hmore
  obtain ⟨f1, f2, f3, f4, -⟩ := hfin
  dsimp only
  obtain ⟨w', k1, k2⟩ := hs.ev p0 e'.world (adm_refl p0).1 (by rw [f4]; exact h6.world)
  rw [f1, h7, k1]
  exact ⟨rfl, rfl, rfl, f3.trans h8, k2⟩

/-- `refine()` stops at the starting parameters after five calls. -/
theorem stuck_loop (hs : Stuck th p0 J X) (hX : 0 ≤ X) (toler : K) (ht : 0 ≤ toler) (s : Statics K) (e : Eng K W)
    (hfresh : ¬ (s.fitRunning = true ∧ e.iter ≠ 0)) (hp : e.par = p0) (w : W)
    (hset : th.setup p0 e.world = (w, none)) (hw : J w) (fuel : ℕ) (hf : 5 ≤ fuel) :
    let r := refineLoop th toler fuel (s, e)
    r.2 = (.done, 5) ∧ r.1.1.fitRunning = false ∧ r.1.2.par = p0 ∧ r.1.2.chisq = X ∧ J r.1.2.world := by
  obtain ⟨n, rfl⟩ : ∃ n, fuel = n + 1 + 1 + 1 + 1 + 1 := ⟨fuel - 5, by omega⟩
  obtain ⟨a1, b1⟩ := stuck_first hs toler s e hfresh hp w hset hw
  rw [refineLoop_succ_more th toler _ s e a1]
  generalize refineStep th toler s e = r1 at b1
  obtain ⟨a2, b2⟩ := stuck_mid hs hX toler ht 1 0 (by omega) (by omega) (by omega) _ _ b1
  rw [refineLoop_succ_more th toler _ _ _ a2]
  generalize refineStep th toler r1.1 r1.2.1 = r2 at b2
  obtain ⟨a3, b3⟩ := stuck_mid hs hX toler ht 2 1 (by omega) (by omega) (by omega) _ _ b2
  rw [refineLoop_succ_more th toler _ _ _ a3]
  generalize refineStep th toler r2.1 r2.2.1 = r3 at b3
  obtain ⟨a4, b4⟩ := stuck_mid hs hX toler ht 3 2 (by omega) (by omega) (by omega) _ _ b3
  rw [refineLoop_succ_more th toler _ _ _ a4]
  generalize refineStep th toler r3.1 r3.2.1 = r4 at b4
  obtain ⟨a5, b5⟩ := stuck_last hs toler 4 3 (by omega) _ _ b4
  rw [refineLoop_succ_done th toler _ _ _ a5]
  exact ⟨rfl, b5⟩

end Down
end Pdffit
