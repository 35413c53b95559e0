import Verif.Lemmas.RefineStat
import Verif.Lemmas.ConstrDet
import Mathlib.Data.Rat.Floor
import Mathlib.Tactic.FinCases

/-!
# C67: a refinement that starts at the best fit stays there

* `C67_minimum_is_kept`: the gradient of chi-square vanishes at the starting values, and the points determine the free parameters.
* `C67_perfect_model`: every observed value is met.
* `C67_constrained`: the engine with its constraints; the variables keep their values too.
-/

namespace Pdffit.C67
variable {K W : Type} [Field K] [LinearOrder K] [IsStrictOrderedRing K]

/-- The points `dss` are a stationary point for the free parameters of `par` with chi-square `X` and normalisation `wn`,
and they determine the free parameters. -/
structure Best (par : ParStore K) (dss : List (List (Pt K))) (X wn : K) : Prop where
  chi : (dss.flatten.map fun pt => pt.w * (pt.obs - pt.mod) ^ 2).sum = X
  norm : (dss.flatten.map fun pt => pt.w * pt.obs * pt.obs).sum = wn
  grad : ∀ i, i < par.p.length → par.ip.getD i false = true →
    (dss.flatten.map fun pt => pt.w * (pt.obs - pt.mod) * pt.d i).sum = 0
  det : Determined par dss

theorem Best.nonneg {par : ParStore K} {dss : List (List (Pt K))} {X wn : K} (h : Best par dss X wn) : 0 ≤ X := by
  rw [← h.chi]
  refine List.sum_nonneg fun x hx => ?_
  obtain ⟨pt, hpt, rfl⟩ := List.mem_map.1 hx
  exact mul_nonneg (h.det.weight pt hpt) (sq_nonneg _)

/-- The points meet every observed value that has a weight. -/
theorem Best.of_perfect {par : ParStore K} {dss : List (List (Pt K))} {wn : K}
    (hn : (dss.flatten.map fun pt => pt.w * pt.obs * pt.obs).sum = wn) (hd : Determined par dss)
    (hp : ∀ pt ∈ dss.flatten, pt.w ≠ 0 → pt.mod = pt.obs) : Best par dss 0 wn := by
  refine ⟨List.sum_eq_zero fun x hx => ?_, hn, fun i _ _ => List.sum_eq_zero fun x hx => ?_, hd⟩
  all_goals
    obtain ⟨pt, hpt, rfl⟩ := List.mem_map.1 hx
    by_cases h : pt.w = 0
    · rw [h]; ring
    · rw [hp pt hpt h]; ring

/-- **C67** `refine()`, started afresh where the gradient of chi-square vanishes, ends normally after the smallest possible number
of calls (five); the parameters are what they were, chi-square and `Rw` those of the start. -/
theorem C67_minimum_is_kept (th : Theory K W) (P : W → Prop) (X wn toler : K) (ht : 0 ≤ toler) (s : Statics K) (e : Eng K W)
    (hfresh : ¬ (s.fitRunning = true ∧ e.iter ≠ 0)) (w : W) (hset : th.setup e.par e.world = (w, none)) (hw : P w)
    (hev : ∀ w, P w → ∃ w', th.eval e.par w = (w', none) ∧ P w' ∧ Best e.par (th.pts w') X wn) (fuel : Nat) (hf : 5 ≤ fuel) :
    let r := refineLoop th toler fuel (s, e)
    r.2 = (.done, 5) ∧ r.1.2.par = e.par ∧ r.1.2.chisq = X ∧ r.1.2.rw2 = X / wn ∧
      ∃ w0, P w0 ∧ th.eval e.par w0 = (r.1.2.world, none) := by
  have hX : 0 ≤ X := by
    obtain ⟨w', -, -, h⟩ := hev w hw
    exact h.nonneg
  refine refineLoop_min (P := P) (X := X) (wn := wn) ?_ hX toler ht s e hfresh rfl w hset hw fuel hf
  intro w hw
  obtain ⟨w', h1, h2, h3⟩ := hev w hw
  exact ⟨w', h1, h2, h3.chi, h3.norm, h3.det, h3.grad⟩

/-- **C67** A model that reproduces the data is left alone, and `Rw` is zero. -/
theorem C67_perfect_model (th : Theory K W) (P : W → Prop) (wn toler : K) (ht : 0 ≤ toler) (hwn : wn ≠ 0) (s : Statics K)
    (e : Eng K W) (hfresh : ¬ (s.fitRunning = true ∧ e.iter ≠ 0)) (w : W)
    (hset : th.setup e.par e.world = (w, none)) (hw : P w)
    (hev : ∀ w, P w → ∃ w', th.eval e.par w = (w', none) ∧ P w' ∧ Determined e.par (th.pts w') ∧
      ((th.pts w').flatten.map fun pt => pt.w * pt.obs * pt.obs).sum = wn ∧
      ∀ pt ∈ (th.pts w').flatten, pt.w ≠ 0 → pt.mod = pt.obs) (fuel : Nat) (hf : 5 ≤ fuel) :
    let r := refineLoop th toler fuel (s, e)
    r.2 = (.done, 5) ∧ r.1.2.par = e.par ∧ r.1.2.chisq = 0 ∧ r.1.2.rw2 = 0 := by
  have h := C67_minimum_is_kept th P 0 wn toler ht s e hfresh w hset hw (fun w hw => by
    obtain ⟨w', h1, h2, h3, h4, h5⟩ := hev w hw
    exact ⟨w', h1, h2, Best.of_perfect h4 h3 h5⟩) fuel hf
  obtain ⟨h1, h2, h3, h4, -⟩ := h
  exact ⟨h1, h2, h3, by rw [h4]; exact div_eq_zero_iff.2 (Or.inl rfl)⟩

section
variable {F C : Type} [FloorRing K]

/-- **C67** (constraints) For the engine with its constraints.  `V` are the variables that the constraints prescribe at the
starting parameters (coordinates wrapped into the block of cells).  If the curves calculated from `V` are stationary
points, `refine()` ends after five calls, with the parameters unchanged and the variables at `V`. -/
theorem C67_constrained (S : CStatic F K C) (hp : ParserOK S.parse) (hicc : ∀ a n, S.icc a = some n → 0 < n) (X wn toler : K)
    (ht : 0 ≤ toler) (s : Statics K) (e : Eng K (CWorld F K C)) (hw : e.par.Wf) (hm : e.world.dvdp.WF)
    (hnp : S.slots.length = S.npar) (hcon : ∀ c ∈ e.world.cons, ∃ r, cres S.parse e.par c = .ok r)
    (V : Nat → K) (hV : V = wrapVars S.icc (e.world.cons.foldl (cstep S.parse e.par) e.world.vars))
    (hcalc : ∀ rv vr m c, (S.det V rv vr m c).2 = none)
    (hbest : ∀ w w', (constrTheory S).eval e.par w = (w', none) → w'.vars = V →
      w'.cons.map Constr.core = e.world.cons.map Constr.core → Best e.par (S.pts w'.curve) X wn)
    (hfresh : ¬ (s.fitRunning = true ∧ e.iter ≠ 0)) (fuel : Nat) (hf : 5 ≤ fuel) :
    let r := refineLoop (constrTheory S) toler fuel (s, e)
    r.2 = (.done, 5) ∧ r.1.2.par = e.par ∧ r.1.2.world.vars = V ∧ r.1.2.chisq = X ∧ r.1.2.rw2 = X / wn := by
  have hkk : SameKeys e.par e.par := ⟨rfl, rfl, rfl⟩
  let P : CWorld F K C → Prop := CInv S (fun _ => True) e.world.cons e.world.vars
  have hP0 : P e.world := ⟨rfl, fun _ _ => rfl, hm, trivial⟩
  have hfill : ∀ w, P w → ∃ cs' v' m', fillVariables S.parse e.par w.cons w.vars w.dvdp = (cs', v', m', none) ∧
      P { w with cons := cs', vars := v', dvdp := m' } ∧ wrapVars S.icc v' = V := by
    intro w hw'
    obtain ⟨cs', v', m', so, h1, h2, h3, h4, -⟩ := fill_inv hp hw hkk hw'
    cases so with
    | some x => exact absurd hcon (h4 (by simp))
    | none => exact ⟨cs', v', m', h1, h2, by rw [hV]; exact (h3 rfl).2⟩
  have heval : ∀ w, P w → ∃ w', (constrTheory S).eval e.par w = (w', none) ∧ P w' ∧ w'.vars = V := by
    intro w hw'
    obtain ⟨cs', v', m', h1, h2, h3⟩ := hfill w hw'
    refine ⟨((constrTheory S).eval e.par w).1, Prod.ext rfl ?_, ?_, ?_⟩
    · simp only [constrTheory, fitTheory, h1, h3, hcalc, Option.map_none]
    · simp only [constrTheory, fitTheory, h1]
      refine ⟨h2.cons, ?_, h2.wf, trivial⟩
      intro a ha
      dsimp only
      rw [wrapVars_idem hicc]
      exact h2.vars a ha
    · simp only [constrTheory, fitTheory, h1]
      exact h3
  have hset : ∃ w, (constrTheory S).setup e.par e.world = (w, none) ∧ P w := by
    obtain ⟨cs', v', m', h1, h2, h3⟩ := hfill e.world hP0
    refine ⟨((constrTheory S).setup e.par e.world).1, Prod.ext rfl ?_, ?_⟩
    · simp only [constrTheory, fitSetup, h1, hnp, ne_eq, not_true_eq_false, if_false, Option.map_none]
    · simp only [constrTheory, fitSetup, h1, hnp, ne_eq, not_true_eq_false, if_false]
      exact ⟨h2.cons, h2.vars, h2.wf, trivial⟩
  obtain ⟨w, hw1, hw2⟩ := hset
  obtain ⟨h1, h2, h3, h4, w0, h5, h6⟩ := C67_minimum_is_kept (constrTheory S) P X wn toler ht s e hfresh w hw1 hw2
    (fun w hw' => by
      obtain ⟨w', g1, g2, g3⟩ := heval w hw'
      exact ⟨w', g1, g2, hbest w w' g1 g3 g2.cons⟩) fuel hf
  refine ⟨h1, h2, ?_, h3, h4⟩
  obtain ⟨w', g1, g2, g3⟩ := heval w0 h5
  rw [g1] at h6
  cases h6
  exact g3

end

/-! ### Non-trivial cases -/

/-- Two observed values 1 and 3, both calculated as the single parameter. -/
def two : Theory ℚ ℚ where
  setup _ w := (w, none)
  eval par _ := (par.p.getD 0 0, none)
  pts w := [[⟨1, 1, w, fun _ => 1⟩, ⟨1, 3, w, fun _ => 1⟩]]
  dmax := 1000000

def eng (x : ℚ) : Eng ℚ ℚ := ⟨⟨[x], [true], [1]⟩, 0, 0, 0, 0, 0, 0, fun _ _ => 0, fun _ _ => 0, [], 0⟩

theorem two_best : Best (eng 2).par (two.pts 2) 2 10 := by
  refine ⟨by norm_num [two], by norm_num [two], ?_, ?_, ?_⟩
  · intro i _ _
    norm_num [two]
  · intro pt hpt
    simp only [two, List.flatten_cons, List.flatten_nil, List.append_nil, List.mem_cons, List.not_mem_nil, or_false] at hpt
    rcases hpt with rfl | rfl <;> norm_num
  · intro y hy i hi _
    have h := hy ⟨1, 1, 2, fun _ => 1⟩ (by simp [two]) (by norm_num)
    have hi0 : i = 0 := by
      have : i < 1 := hi
      omega
    subst hi0
    simpa [eng, Finset.sum_filter] using h

/-- The mean is the best fit; the refinement leaves it there although chi-square is 2. -/
example (fuel : Nat) (hf : 5 ≤ fuel) :
    (refineLoop two (1 / 100) fuel ({}, eng 2)).2 = (.done, 5) ∧
    (refineLoop two (1 / 100) fuel ({}, eng 2)).1.2.par = (eng 2).par ∧
    (refineLoop two (1 / 100) fuel ({}, eng 2)).1.2.chisq = 2 := by
  have h := C67_minimum_is_kept two (fun _ => True) 2 10 (1 / 100) (by norm_num) {} (eng 2) (by simp) 0 rfl trivial
    (fun _ _ => ⟨2, rfl, trivial, two_best⟩) fuel hf
  exact ⟨h.1, h.2.1, h.2.2.1⟩

/-- Started elsewhere it moves. -/
example : (refineLoop two (1 / 100) 1 ({}, eng 5)).1.2.par.p ≠ [5] := by decide +kernel

/-- Constraint `var 7 = par 1`; one data point with value 3, calculated as variable 7. -/
def oneS : CStatic Unit ℚ ℚ where
  parse := fun _ _ => .error .parse
  icc := fun _ => none
  slots := [7]
  npar := 1
  det := fun v _ _ _ _ => (v 7, none)
  pts := fun c => [[⟨4, 3, c, fun _ => 1⟩]]
  dmax := 1000000

def oneE : Eng ℚ (CWorld Unit ℚ ℚ) where
  par := ⟨[3, 2], [true, false], [1, 2]⟩
  world := { vars := fun a => (a : ℚ), cons := [⟨7, none, 1, .ident, true⟩], dvdp := .empty, refvar := [], curve := 0 }
  iter := 0
  stagnating := 0
  alambda := 0
  chisq := 0
  ochisq := 0
  alpha := fun _ _ => 0
  covar := fun _ _ => 0
  cum := []
  rw2 := 0

/-- The free parameter starts at the observed value: the refinement keeps it and sets variable 7 to it. -/
example : (refineLoop (constrTheory oneS) (1 / 100) 5 ({}, oneE)).2 = (.done, 5) ∧
    (refineLoop (constrTheory oneS) (1 / 100) 5 ({}, oneE)).1.2.par = oneE.par ∧
    (refineLoop (constrTheory oneS) (1 / 100) 5 ({}, oneE)).1.2.world.vars = upd (fun a => (a : ℚ)) 7 3 := by
  have hcres : cres oneS.parse oneE.par ⟨7, none, 1, .ident, true⟩ = .ok (some 3, true, [(0, 1)]) := by
    have : oneE.par.parfind (toUnsigned 1) = some 0 := by decide
    simp only [cres, this]
    rfl
  have h := C67_constrained oneS (fun f par x ders _ h => by cases h) (fun _ _ h => by cases h) 0 36 (1 / 100) (by norm_num) {}
    oneE ⟨rfl, rfl, show [1, 2].Nodup by decide⟩ (by simp [oneE, Mat.WF, Mat.empty]) rfl
    (fun c hc => by
      simp only [oneE, List.mem_singleton] at hc
      subst hc
      exact ⟨_, hcres⟩)
    (upd (fun a => (a : ℚ)) 7 3)
    (by
      funext a
      show _ = (cstep oneS.parse oneE.par (fun a => (a : ℚ)) ⟨7, none, 1, .ident, true⟩) a
      unfold cstep
      rw [hcres])
    (fun _ _ _ _ => rfl)
    (fun w w' hev hv _ => by
      have hc : w'.curve = w'.vars 7 := by
        simp only [constrTheory, fitTheory] at hev
        split at hev
        · simp at hev
        · simp only [Prod.mk.injEq] at hev
          rw [← hev.1]
          rfl
      rw [hv] at hc
      have hc3 : w'.curve = 3 := by rw [hc]; rfl
      rw [hc3]
      refine Best.of_perfect (by norm_num [oneS]) ⟨?_, ?_⟩ ?_
      · intro pt hpt
        simp only [oneS, List.flatten_cons, List.flatten_nil, List.append_nil, List.mem_singleton] at hpt
        subst hpt
        norm_num
      · intro y hy i hi hfree
        have h1 := hy _ (List.mem_singleton.2 rfl) (by norm_num)
        have hi0 : i = 0 := by
          have : i < 2 := hi
          interval_cases i
          · rfl
          · simp [oneE] at hfree
        subst hi0
        simpa [oneE, Finset.sum_filter, Finset.sum_range_succ] using h1
      · intro pt hpt _
        simp only [oneS, List.flatten_cons, List.flatten_nil, List.append_nil, List.mem_singleton] at hpt
        subst hpt
        rfl)
    (by simp) 5 (by omega)
  exact ⟨h.1, h.2.1, h.2.2.1⟩

end Pdffit.C67
