import Verif.Lemmas.RefineSeq
import Verif.Lemmas.ConstrDet
import Verif.Model.RefineReal
import Verif.Props.RefineDemo

/-!
# C04  Rw never gets worse during a refinement

`Theory.Det` (Lemmas/RefineChi.lean) says that the model evaluation is a function of the
parameter values; `constr_det` (Lemmas/ConstrDet.lean) proves it for the constraint machinery of the engine, and
`C04_with_constraints_partial` is the resulting statement.

Missing for the full statement: after a call that raised in a trial evaluation, `getpar` gives
the trial values while `getrw` still is the old residual (`C04_after_exception_rw_is_stale`).
-/

namespace Pdffit.C04
variable {W : Type}

/-- Residual that belongs to parameter values `p`: `sqrt(chi(p)/wn)`. -/
noncomputable def rwAt (chi : List ℝ → Option ℝ) (wn : ℝ) (p : List ℝ) : Option ℝ :=
  (chi p).map fun c => Real.sqrt (c / wn)

/-- **C04** (calls that return normally) Start a refinement and make `n + 1` calls of which the
first `n` return "not finished" and the last one returns normally.  Then

* `getrw` is the residual that belongs to the values reported by `getpar`, and
* it is not larger than before the last call; for `n = 0`: not larger than the residual of the
  starting values. -/
theorem C04_rw_never_worse_partial {p0 : ParStore ℝ} {I : W → Prop} {chi : List ℝ → Option ℝ}
    {wn : ℝ} (th : Theory ℝ W) (hd : th.Det p0 I chi wn) (hwn : 0 < wn) (toler : ℝ)
    (s : Statics ℝ) (e : Eng ℝ W) (hk : SameKeys p0 e.par) (hi : I e.world)
    (c0 : ℝ) (hc : chi e.par.p = some c0)
    (hfresh : ¬ (s.fitRunning = true ∧ e.iter ≠ 0)) (n : Nat)
    (hmore : ∀ o ∈ outN th toler n (s, e), o = .more)
    (hlast : (outN th toler (n + 1) (s, e)).getLast? = some .more ∨
      (outN th toler (n + 1) (s, e)).getLast? = some .done) :
    rwAt chi wn (stepN th toler (n + 1) (s, e)).2.par.p =
      some (stepN th toler (n + 1) (s, e)).2.getrw ∧
    (stepN th toler (n + 1) (s, e)).2.getrw ≤
      (if n = 0 then Real.sqrt (c0 / wn) else (stepN th toler n (s, e)).2.getrw) := by
  -- state before the last call
  have hpre : ∃ c1, ((¬ ((stepN th toler n (s, e)).1.fitRunning = true ∧
        (stepN th toler n (s, e)).2.iter ≠ 0) ∧ chi (stepN th toler n (s, e)).2.par.p = some c1) ∨
      (Mid th p0 I chi wn (stepN th toler n (s, e)).1 (stepN th toler n (s, e)).2 ∧
        c1 = (stepN th toler n (s, e)).2.chisq)) ∧
      SameKeys p0 (stepN th toler n (s, e)).2.par ∧ I (stepN th toler n (s, e)).2.world ∧
      Real.sqrt (c1 / wn) =
        (if n = 0 then Real.sqrt (c0 / wn) else (stepN th toler n (s, e)).2.getrw) := by
    cases n with
    | zero => exact ⟨c0, Or.inl ⟨hfresh, hc⟩, hk, hi, by simp⟩
    | succ n =>
      obtain ⟨hm, -⟩ := stepN_mid hd toler n s e hk hi c0 (Or.inl ⟨hfresh, hc⟩) hmore
      refine ⟨_, Or.inr ⟨hm, rfl⟩, hm.ok.keys, hm.ok.inv, ?_⟩
      simp only [Nat.succ_ne_zero, if_false, Eng.getrw, hm.rw]
  obtain ⟨c1, hst, hk1, hi1, hrw⟩ := hpre
  rw [← hrw]
  have h := refineStep_mid hd toler _ _ hk1 hi1 c1 hst
  rw [stepN_succ]
  rw [outN_succ] at hlast
  simp only [List.getLast?_append, List.getLast?_singleton, Option.some_or] at hlast
  rcases hlast with hl | hl
  · obtain ⟨hm, hle⟩ := h.2.1 (Option.some.inj hl)
    constructor
    · simp only [rwAt, hm.ok.chi, Option.map_some, Eng.getrw, hm.rw]
    · simp only [Eng.getrw, hm.rw]
      exact Real.sqrt_le_sqrt (div_le_div_of_nonneg_right hle hwn.le)
  · obtain ⟨h1, h2, h3, h4, -⟩ := h.2.2 (Option.some.inj hl)
    constructor
    · simp only [rwAt, h4.chi, Option.map_some, Eng.getrw, h3, h2]
    · simp only [Eng.getrw, h3]
      exact le_refl _

/-- **C04** for the machine with constraints (`Model/Constr.lean`): any constraint system `cs0`, any variables `v0`; the only
assumption on the calculation behind the variables is that success and chi-square depend on the variables alone
(`DetOK`). -/
theorem C04_with_constraints_partial {F C : Type} (S : CStatic F ℝ C) (hp : ParserOK S.parse)
    (hicc : ∀ a n, S.icc a = some n → 0 < n) {J : C → Prop} {cv : (Nat → ℝ) → Option ℝ} {wn : ℝ}
    (hd : S.DetOK J cv wn) (hwn : 0 < wn) (toler : ℝ)
    (s : Statics ℝ) (e : Eng ℝ (CWorld F ℝ C)) (hpar : e.par.Wf) (hm : e.world.dvdp.WF)
    (hJ : J e.world.curve) (c0 : ℝ)
    (hc : chiOf S cv e.par e.world.cons e.world.vars e.par.p = some c0)
    (hfresh : ¬ (s.fitRunning = true ∧ e.iter ≠ 0)) (n : Nat)
    (hmore : ∀ o ∈ outN (constrTheory S) toler n (s, e), o = .more)
    (hlast : (outN (constrTheory S) toler (n + 1) (s, e)).getLast? = some .more ∨
      (outN (constrTheory S) toler (n + 1) (s, e)).getLast? = some .done) :
    rwAt (chiOf S cv e.par e.world.cons e.world.vars) wn
        (stepN (constrTheory S) toler (n + 1) (s, e)).2.par.p =
      some (stepN (constrTheory S) toler (n + 1) (s, e)).2.getrw ∧
    (stepN (constrTheory S) toler (n + 1) (s, e)).2.getrw ≤
      (if n = 0 then Real.sqrt (c0 / wn) else (stepN (constrTheory S) toler n (s, e)).2.getrw) :=
  C04_rw_never_worse_partial (constrTheory S)
    (constr_det hp hicc hd hpar e.world.cons e.world.vars) hwn toler s e ⟨rfl, rfl, rfl⟩
    ⟨rfl, fun _ _ => rfl, hm, hJ⟩ c0 hc hfresh n hmore hlast

/-! ### Counterexample for calls that raise -/

/-- Like `demoTheory`, but the evaluation fails unless `x = 0`. -/
def failingTheory : Theory ℚ (List ℚ) :=
  { demoTheory with
    eval := fun par w => if par.p.headD 0 = 0 then (par.p, none) else (w, some .calculation) }

/-- The first call raises inside the trial evaluation: `getpar` now gives a value for which the
model cannot be evaluated, `getrw² = 1/4` still belongs to the starting value 0. -/
theorem C04_after_exception_rw_is_stale :
    let r := refineStep failingTheory (1/100000000) {} (demoEng 0)
    r.2.2 = .exc .calculation ∧ r.2.1.rw2 = 1/4 ∧ r.2.1.par.getpar 1 = .ok (-1000/1001) ∧
      (failingTheory.eval r.2.1.par r.2.1.world).2 = some .calculation := by
  decide +kernel

/-! ### Non-trivial case -/

/-- A theory over ℝ that satisfies `Det`, with non-constant chi-square. -/
noncomputable def realDemo : Theory ℝ (List ℝ) where
  setup := fun _ w => (w, none)
  eval := fun par _ => (par.p, none)
  pts := fun w => [[⟨1, 2, w.headD 0, fun _ => 1⟩]]
  dmax := 1000

example : realDemo.Det { p := [3], ip := [true], id := [1] } (fun _ => True)
    (fun p => some ((2 - p.headD 0) ^ 2)) 4 where
  setup := fun _ _ _ _ => trivial
  eval := fun _ _ _ _ => trivial
  fails := fun par w w' x _ _ h => by simp [realDemo] at h
  value := fun par w w' _ _ h => by
    simp only [realDemo, Prod.mk.injEq, and_true] at h
    subst h
    constructor
    · simp [chisqOf, realDemo]
    · norm_num [wnormOf, realDemo]

end Pdffit.C04
