import Verif.Lemmas.RefineLive
import Verif.Lemmas.ConstrDet
import Verif.Props.C03
import Mathlib.Data.Rat.Floor

/-!
# C54: a well-posed refinement finishes, an ill-posed one is reported
-/

namespace Pdffit.C54
variable {K W : Type} [Field K] [LinearOrder K] [IsStrictOrderedRing K]

/-- Same identifiers and flags, arbitrary values. -/
def Variant (p0 par : ParStore K) : Prop := par.id = p0.id ∧ par.ip = p0.ip ∧ par.p.length = p0.p.length

/-- **C54** Let `P0`, `P` be properties of the world such that the set-up leads from `P0` to `P` and every evaluation,
at any parameter values, succeeds from `P` and keeps `P`.  If the points of every evaluation determine the free
parameters (`Determined`), then `refine()` started afresh finishes normally, within 101 calls. -/
theorem C54_well_posed_finishes (th : Theory K W) (P0 P : W → Prop) (toler : K) (s : Statics K) (e : Eng K W)
    (hset : ∀ par w, Variant e.par par → P0 w → ∃ w', th.setup par w = (w', none) ∧ P w')
    (hev : ∀ par w, Variant e.par par → P w → ∃ w', th.eval par w = (w', none) ∧ P w')
    (hdet : ∀ par w w', Variant e.par par → th.eval par w = (w', none) → Determined par (th.pts w'))
    (hfresh : ¬ (s.fitRunning = true ∧ e.iter ≠ 0)) (h0 : P0 e.world) (fuel : Nat) (hf : 101 ≤ fuel) :
    (refineLoop th toler fuel (s, e)).2.1 = .done ∧ (refineLoop th toler fuel (s, e)).2.2 ≤ 101 := by
  have h1 := refineLoop_live (th := th) (Q := Variant e.par) (P := P) (P0 := P0)
    (fun e' a h => ⟨h.1, h.2.1, by simp [Eng.setP, Eng.ma, h.2.2]⟩) hev
    (fun par dss hq ⟨w0, w', g1, g2⟩ => g2 ▸ hdet par w0 w' hq g1) hset toler fuel s e ⟨rfl, rfl, rfl⟩
    (Or.inl ⟨hfresh, h0⟩)
  obtain ⟨r, h2, h3, h4⟩ := C03.C03_refine_terminates th toler s e
  rw [h2 fuel hf] at h1 ⊢
  exact ⟨h1.resolve_left h3, h4⟩

/-- **C54** If the first evaluation gives points on which some free parameter has no influence, `refine()` raises
`calculationError`. -/
theorem C54_dead_parameter_raises (th : Theory K W) (toler : K) (s : Statics K) (e : Eng K W)
    (hfresh : ¬ (s.fitRunning = true ∧ e.iter ≠ 0)) (w w' : W) (hset : th.setup e.par e.world = (w, none))
    (hev : th.eval e.par w = (w', none)) (i : Nat) (hi : i < e.par.p.length)
    (hfree : e.par.ip.getD i false = true) (hdead : ∀ pt ∈ (th.pts w').flatten, pt.w = 0 ∨ pt.d i = 0)
    (fuel : Nat) (hf : 0 < fuel) : (refineLoop th toler fuel (s, e)).2 = (.exc .calculation, 1) := by
  have hstep : (refineStep th toler s e).2.2 = .exc .calculation := by
    unfold refineStep
    rw [if_neg hfresh]
    dsimp only
    rw [hset]
    dsimp only
    unfold refineBody
    rw [if_pos (Or.inl (by simp))]
    unfold mrqmin
    rw [if_pos (by simp)]
    set e0 : Eng K W := { e with iter := 0, alambda := -1, stagnating := 0, chisq := th.dmax, world := w,
                                 ochisq := th.dmax } with he0
    have hp : (e0.setP e0.a).par = e.par :=
      parStore_ext (Eng.setP_self e0) rfl rfl
    have hinit : ∃ wk e1, mrqInit th s.work e0 = (wk, e1, none) ∧ e1.ia = e.ia ∧ e1.ma = e.ma ∧
        wk.mfit = nfree e.ia e.ma ∧ NormalEqs e.ia e.ma (th.pts w') e1.alpha wk.beta := by
      have hcof : ∃ e2 al be, mrqcof th { e0 with alambda := 1 / 1000 } e0.a e0.alpha (fun _ => 0) = (e2, .ok (al, be)) ∧
          e2.world = w' := by
        unfold mrqcof
        dsimp only
        have : (Eng.setP { e0 with alambda := 1 / 1000 } e0.a).par = e.par := hp
        rw [this]
        have : (Eng.setP { e0 with alambda := 1 / 1000 } e0.a).world = w := rfl
        rw [this, hev]
        exact ⟨_, _, _, rfl, rfl⟩
      obtain ⟨e2, al, be, hc, hw2⟩ := hcof
      have hn := mrqcof_norm th _ _ _ _ _ _ _ hc
      have hfr := mrqcof_frame th { e0 with alambda := 1 / 1000 } e0.a e0.alpha (fun _ => 0)
      rw [hc] at hfr
      dsimp only at hfr
      unfold mrqInit
      dsimp only
      have hc' : mrqcof th { e0 with alambda := 1 / 1000 } (Eng.a { e0 with alambda := 1 / 1000 }) e0.alpha
          (fun _ => 0) = (e2, .ok (al, be)) := hc
      rw [hc']
      refine ⟨_, _, rfl, hfr.ia, hfr.ma, rfl, ?_⟩
      have := hn.2.2.1
      rw [hw2] at this
      exact this
    obtain ⟨wk, e1, h1, h2, h3, h4, h5⟩ := hinit
    rw [h1]
    dsimp only
    have hsing : solveNormal wk.mfit (augmented e1) wk.beta e1.covar wk.da = .err .calculation := by
      rw [h4]
      unfold solveNormal
      rw [C13.C13_gaussj_raises_iff_singular (K := K) (fun (a b : Fin (nfree e.ia e.ma)) => augmented e1 a b)
        (fun a (_ : Fin 1) => wk.beta a) |>.2 ?_]
      have hri := nfree_lt e.ia (show i < e.ma from hi) hfree
      refine Matrix.det_eq_zero_of_row_eq_zero ⟨nfree e.ia i, hri⟩ fun t => ?_
      obtain ⟨l, l1, l2, l3⟩ := nfree_surj e.ia t.2
      have hz : e1.alpha (nfree e.ia i) (nfree e.ia l) = 0 := by
        rw [h5.1 i l hi l1 hfree l2]
        refine List.sum_eq_zero fun x hx => ?_
        obtain ⟨pt, hpt, rfl⟩ := List.mem_map.1 hx
        rcases hdead pt hpt with h | h <;> rw [h] <;> ring
      have hz' : e1.alpha (nfree e.ia i) t = 0 := by rw [← l3]; exact hz
      show augmented e1 (nfree e.ia i) t = 0
      unfold augmented
      split
      · rename_i heq
        rw [heq] at hz' ⊢
        rw [hz', zero_mul]
      · exact hz'
    unfold mrqTry
    rw [hsing]
  obtain ⟨m, rfl⟩ : ∃ m, fuel = m + 1 := ⟨fuel - 1, by omega⟩
  rw [refineLoop]
  generalize refineStep th toler s e = r at hstep ⊢
  obtain ⟨s1, e1, o⟩ := r
  dsimp only at hstep
  subst hstep
  rfl

/-! ### With constraints -/

section
variable {F C : Type} [FloorRing K]

/-- **C54** (constraints) The same for the engine with its constraints: every constraint can be evaluated at all values
of the parameters, the curves can be calculated, and the fitted points determine the free parameters. -/
theorem C54_constrained_finishes (S : CStatic F K C) (hp : ParserOK S.parse) (toler : K) (s : Statics K)
    (e : Eng K (CWorld F K C)) (hw : e.par.Wf) (hm : e.world.dvdp.WF) (hnp : S.slots.length = S.npar)
    (hcon : ∀ par, Variant e.par par → ∀ c ∈ e.world.cons, ∃ r, cres S.parse par c = .ok r)
    (hcalc : ∀ v refvar flags m c, (S.det v refvar flags m c).2 = none)
    (hdet : ∀ par v refvar flags m c, Variant e.par par →
      Determined par (S.pts (S.det v refvar flags m c).1))
    (hfresh : ¬ (s.fitRunning = true ∧ e.iter ≠ 0)) (fuel : Nat) (hf : 101 ≤ fuel) :
    (refineLoop (constrTheory S) toler fuel (s, e)).2.1 = .done ∧
    (refineLoop (constrTheory S) toler fuel (s, e)).2.2 ≤ 101 := by
  let P : CWorld F K C → Prop := fun w => w.dvdp.WF ∧ w.cons.map Constr.core = e.world.cons.map Constr.core
  have hwf : ∀ par, Variant e.par par → par.Wf := by
    intro par hv
    obtain ⟨h1, h2, h3⟩ := hw
    refine ⟨?_, ?_, ?_⟩ <;> simp [hv.1, hv.2.1, hv.2.2, h1, h2, h3]
  have hfill : ∀ par w, Variant e.par par → P w → ∃ m', fillVariables S.parse par w.cons w.vars w.dvdp =
        (w.cons.map (cmark S.parse par), w.cons.foldl (cstep S.parse par) w.vars, m', none) ∧ m'.WF ∧
      (w.cons.map (cmark S.parse par)).map Constr.core = e.world.cons.map Constr.core := by
    intro par w hv hP
    obtain ⟨m', e1, -, -, e4, -⟩ := fillVariables_ok hp (hwf par hv) w.cons w.vars w.dvdp hP.1 (by
      intro c hc
      have : c.core ∈ e.world.cons.map Constr.core := by rw [← hP.2]; exact List.mem_map_of_mem hc
      obtain ⟨c', hc', heq⟩ := List.mem_map.1 this
      obtain ⟨r, hr⟩ := hcon par hv c' hc'
      exact ⟨r, by rw [cres_core heq.symm]; exact hr⟩)
    refine ⟨m', e1, e4, ?_⟩
    rw [← hP.2, List.map_map]
    exact List.map_congr_left fun c _ => cmark_core _ _ c
  refine C54_well_posed_finishes (constrTheory S) P P toler s e ?_ ?_ ?_ hfresh ⟨hm, rfl⟩ fuel hf
  · intro par w hv hP
    obtain ⟨m', h1, h2, h3⟩ := hfill par w hv hP
    refine ⟨((constrTheory S).setup par w).1, Prod.ext rfl ?_, ?_⟩
    · simp only [constrTheory, fitSetup, h1, hnp, ne_eq, not_true_eq_false, if_false, Option.map_none]
    · simp only [constrTheory, fitSetup, h1, hnp, ne_eq, not_true_eq_false, if_false, Option.map_none]
      exact ⟨h2, h3⟩
  · intro par w hv hP
    obtain ⟨m', h1, h2, h3⟩ := hfill par w hv hP
    refine ⟨((constrTheory S).eval par w).1, Prod.ext rfl ?_, ?_⟩
    · simp only [constrTheory, fitTheory, h1, hcalc, Option.map_none]
    · simp only [constrTheory, fitTheory, h1, hcalc, Option.map_none]
      exact ⟨h2, h3⟩
  · intro par w w' hv hev
    simp only [constrTheory, fitTheory] at hev ⊢
    split at hev
    · simp at hev
    · simp only [Prod.mk.injEq] at hev
      rw [← hev.1]
      exact hdet par _ _ _ _ _ hv

end

/-! ### Non-trivial cases: one data point with value 3; the variable at address 7 is the calculated value -/

/-- Constraint `var 7 = par 1`; the free parameter 1 and the fixed parameter 2. -/
def demoPar (x : K) (b : Bool) : ParStore K := ⟨[x, 2], [true, b], [1, 2]⟩

def demoS (K : Type) [Field K] : CStatic Unit K K where
  parse := fun _ _ => .error .parse
  icc := fun _ => none
  slots := [7]
  npar := 1
  det := fun v _ _ _ _ => (v 7, none)
  pts := fun c => [[⟨4, 3, c, fun l => if l = 0 then 1 else 0⟩]]
  dmax := 1000000

def demoE (x : K) (b : Bool) : Eng K (CWorld Unit K K) where
  par := demoPar x b
  world := { vars := fun _ => 0, cons := [⟨7, none, 1, .ident, true⟩], dvdp := .empty, refvar := [], curve := 0 }
  iter := 0
  stagnating := 0
  alambda := 0
  chisq := 0
  ochisq := 0
  alpha := fun _ _ => 0
  covar := fun _ _ => 0
  cum := []
  rw2 := 0

theorem demo_parserOK (K : Type) [Field K] : ParserOK (demoS K).parse := by
  intro f par x ders _ h
  cases h

/-- The refinement of the free parameter finishes, from every starting value. -/
theorem demo_finishes [FloorRing K] (x toler : K) (fuel : Nat) (hf : 101 ≤ fuel) :
    (refineLoop (constrTheory (demoS K)) toler fuel ({}, demoE x false)).2.1 = .done := by
  refine (C54_constrained_finishes (demoS K) (demo_parserOK K) toler {} (demoE x false)
    ⟨rfl, rfl, show [1, 2].Nodup by decide⟩ (by simp [demoE, Mat.WF, Mat.empty]) rfl ?_ (fun _ _ _ _ _ => rfl) ?_ (by simp) fuel hf).1
  · intro par hv c hc
    simp only [demoE, List.mem_singleton] at hc
    subst hc
    have : par.parfind (toUnsigned 1) = some 0 := by
      unfold ParStore.parfind
      rw [hv.1]
      show [1, 2].findIdx? (fun x => x == toUnsigned 1) = some 0
      decide
    exact ⟨(some (par.p.getD 0 0), par.ip.getD 0 false, [(0, 1)]), by simp only [cres, this]⟩
  · intro par v refvar flags m c hv
    have hlen : par.p.length = 2 := hv.2.2
    have hip : par.ip = [true, false] := hv.2.1
    refine ⟨?_, ?_⟩
    · intro pt hpt
      simp only [demoS, List.flatten_cons, List.flatten_nil, List.append_nil, List.mem_singleton] at hpt
      subst hpt
      norm_num
    · intro y hy i hi hfree
      have h1 := hy _ (List.mem_singleton.2 rfl) (by norm_num)
      rw [hlen, hip] at h1
      rw [hlen] at hi
      rw [hip] at hfree
      have hi0 : i = 0 := by
        interval_cases i
        · rfl
        · simp at hfree
      subst hi0
      simpa [Finset.sum_filter, Finset.sum_range_succ] using h1

/-- With the second parameter free as well, which nothing depends on, it raises. -/
example : (refineLoop (constrTheory (demoS ℚ)) (1 / 100) 101 ({}, demoE 5 true)).2 = (.exc .calculation, 1) := by
  refine C54_dead_parameter_raises (constrTheory (demoS ℚ)) (1 / 100) {} (demoE 5 true) (by simp) _ _ rfl rfl 1
    (by decide) (by decide) ?_ 101 (by omega)
  intro pt hpt
  have : pt.d 1 = 0 := by
    simp only [constrTheory, demoS, List.flatten_cons, List.flatten_nil, List.append_nil, List.mem_singleton] at hpt
    subst hpt
    rfl
  exact Or.inr this

end Pdffit.C54
