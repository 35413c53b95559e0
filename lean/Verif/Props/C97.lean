import Verif.Lemmas.ReorderPh
import Verif.Props.C44Wit
import Verif.Props.C54
import Verif.Props.C67
import Verif.Props.C96

/-!
# C97: the order of the phases does not matter for a refinement

A refinement with several phases gives the same in whatever order their structures were read.

This is **false** when the peak broadening `qbroad` of a data set with several phases is refined: its derivatives are multiplied with the
factor of the phase that was read last (fit.cc 404, 535; C44). `C97_order_violated`: `refine()` returns in one order and raises an exception in the
other. `C97_order_partial`: otherwise the order does not matter.
-/

namespace Pdffit.C97
open Geom Det Deriv Layout Conf DMat Full _root_.Pdffit.Parser

/-- The peak broadening is constrained only for data sets that use a single phase. -/
def Apart (I : Input) (cons : List (Constr (List Char))) : Prop :=
  ∀ c ∈ cons, ∀ (is : ℕ) s, I.sets[is]? = some s → c.addr = I.addr (.qbroad is) →
    ∀ ip ip', s.sel.getD ip none ≠ none → s.sel.getD ip' none ≠ none → ip = ip'

section
variable {I I' : Input} {π : Equiv.Perm ℕ} {p0 : ParStore ℝ} {cs : List (Constr (List Char))} {v0 : ℕ → ℝ}

theorem apart (R : ReorderPh I I' π) (h : Apart I cs) : Apart I' cs := by
  intro c hc is s' hs' ha ip ip' h1 h2
  obtain ⟨s, hs, S⟩ := R.symm.set hs'
  have := h c hc is s hs (by rw [ha]; exact R.addr (.qbroad is)) (π.symm ip) (π.symm ip') (by rw [S.sel]; exact h1) (by rw [S.sel]; exact h2)
  exact π.symm.injective this

theorem one_selected {s : SetIn} (v : ℕ → ℝ) (h : ∀ ip ip', s.sel.getD ip none ≠ none → s.sel.getD ip' none ≠ none → ip = ip')
    (q q' : ℕ) (x y : PPhase × Sel) (hx : (I.sel v s)[q]? = some (some x)) (hy : (I.sel v s)[q']? = some (some y)) : q = q' := by
  have key : ∀ (q : ℕ) (x : PPhase × Sel), (I.sel v s)[q]? = some (some x) → s.sel.getD q none ≠ none := by
    intro q x hx he
    unfold Input.sel selFrom Input.template at hx
    rw [List.getElem?_mapIdx, List.getElem?_mapIdx, he] at hx
    cases hp : I.phases[q]? with
    | none => rw [hp] at hx; cases hx
    | some ph => rw [hp] at hx; simp at hx
  exact h q q' (key q x hx) (key q' y hy)

theorem slope (R : ReorderPh I I' π) (hA : Apart I cs) {tv : ℕ → RVar}
    (htv : ∀ (c : ℕ) x, cs[c]? = some x → C47.Exists I.natoms I.nset (tv c) ∧ x.addr = I.addr (tv c)) (v : ℕ → ℝ) {is : ℕ} {s s' : SetIn}
    (hs : I.sets[is]? = some s) (S : SameSet π s s') (d : ℕ → ℕ → ℝ) (i : ℤ) (j : ℕ) :
    I'.slope v is s' cs.length (fun c => renPh π (tv c)) d i j = I.slope v is s cs.length tv d i j := by
  unfold Input.slope
  refine Finset.sum_congr rfl fun c _ => ?_
  rw [R.dat v is S, (R.sel v S).column]
  intro he
  have hc := List.getElem?_eq_getElem c.2
  have := (htv c _ hc).2
  rw [he] at this
  exact one_selected v (hA _ (List.getElem_mem _) is s hs this)

theorem after (R : ReorderPh I I' π) (H : I.Ok) (dmax : ℝ) (hF : C75.Fair I cs) (hA : Apart I cs) {tv : ℕ → RVar}
    (htv : ∀ (c : ℕ) x, cs[c]? = some x → C47.Exists I.natoms I.nset (tv c) ∧ x.addr = I.addr (tv c))
    (htv' : ∀ (c : ℕ) x, cs[c]? = some x → C47.Exists I'.natoms I'.nset (renPh π (tv c)) ∧ x.addr = I'.addr (renPh π (tv c)))
    {par : ParStore ℝ} (hs : C53.Same p0 par) (hW : I.Works p0 cs v0 tv par) {w w' : CWorld (List Char) ℝ (List Out)}
    (hw : I.Ready dmax p0 cs v0 w) (hw' : I'.Ready dmax p0 cs v0 w') :
    ∃ u u', (constrTheory (I.static dmax)).eval par w = (u, none) ∧ (constrTheory (I'.static dmax)).eval par w' = (u', none) ∧
      C96.After I I' 1 dmax p0 cs v0 u u' := by
  have hW' := R.works H hW
  obtain ⟨u, G, e1, e2, e3, e4, e5⟩ := Input.eval_ok H dmax hF.one hF.assigns tv htv hw hs hW.con hW.num hW.div
  obtain ⟨u', G', f1, f2, f3, f4, f5⟩ := Input.eval_ok (R.ok H) dmax hF.one hF.assigns (fun c => renPh π (tv c)) htv' hw' hs hW'.con hW'.num hW'.div
  rw [R.vars H] at f3 f4 f5
  have hN := hW.num
  generalize I.vars cs v0 par = v at *
  have hcur : ∀ (is : ℕ) s s', I.sets[is]? = some s → I'.sets[is]? = some s' → ∀ i ∈ grid s.d.D.nfmin s.d.D.nfmax,
      I'.curveOf v is s' i = I.curveOf v is s i := by
    intro is s s' hs hs' i hi
    obtain ⟨f', h1, h2⟩ := R.det H v hs (R.sets is s s' hs hs') (hN.curve hs)
    rw [← h2 i hi]
    unfold Input.curveOf
    rw [h1]
  have hG : ∀ (is : ℕ) s s', I.sets[is]? = some s → I'.sets[is]? = some s' → ∀ i ∈ grid s.d.D.nfmin s.d.D.nfmax, ∀ j, j < p0.p.length →
      p0.ip.getD j false = true → G' is i j = G is i j := by
    intro is s s' hs hs' i hi j hj hf
    have S := R.sets is s s' hs hs'
    rw [e5 is s hs i hi j hj hf, f5 is s' hs' i (by rw [S.d]; exact hi) j hj hf, slope R hA htv v hs S]
  have maps : ∀ {β : Type} (f : Pt ℝ → β), (∀ (is : ℕ) s, I.sets[is]? = some s → ∀ i ∈ grid s.d.D.nfmin s.d.D.nfmax,
      f (Input.pt s (I.curveOf v is s) (G' is) i) = f (Input.pt s (I.curveOf v is s) (G is) i)) →
      ((I'.static dmax).pts u'.curve).map (List.map f) = ((I.static dmax).pts u.curve).map (List.map f) := by
    intro β f hf
    rw [e4, f4, C74.map_mapIdx, C74.map_mapIdx]
    refine List.ext_getElem? fun is => ?_
    rw [List.getElem?_mapIdx, List.getElem?_mapIdx]
    cases hs : I.sets[is]? with
    | none =>
      have : I'.sets[is]? = none := by
        rw [List.getElem?_eq_none_iff] at hs ⊢
        rw [R.sets_count]
        exact hs
      rw [this]
      rfl
    | some s =>
      obtain ⟨s', hs', S⟩ := R.set hs
      rw [hs']
      simp only [Option.map_some, Option.some.injEq, List.map_map, S.d]
      refine List.map_congr_left fun i hi => ?_
      refine Eq.trans ?_ (hf is s hs i hi)
      simp only [Function.comp, Input.pt, S.d, hcur is s s' hs hs' i hi]
  have sums : ∀ f : Pt ℝ → ℝ, (∀ (is : ℕ) s, I.sets[is]? = some s → ∀ i ∈ grid s.d.D.nfmin s.d.D.nfmax,
      f (Input.pt s (I.curveOf v is s) (G' is) i) = f (Input.pt s (I.curveOf v is s) (G is) i)) →
      (((I'.static dmax).pts u'.curve).flatten.map f).sum = (((I.static dmax).pts u.curve).flatten.map f).sum := by
    intro f hf
    rw [List.map_flatten, List.map_flatten, maps f hf]
  have hGG : ∀ (is : ℕ) s, I.sets[is]? = some s → ∀ i ∈ grid s.d.D.nfmin s.d.D.nfmax, ∀ j, j < p0.p.length →
      p0.ip.getD j false = true → G' is i j = G is i j := by
    intro is s hs i hi j hj hf
    obtain ⟨s', hs', -⟩ := R.set hs
    exact hG is s s' hs hs' i hi j hj hf
  refine ⟨u, u', e1, f1, e2, f2, by rw [e3, f3], fun k => ?_, ?_, ?_, ?_, ?_⟩
  · unfold C96.Modelled
    rw [maps Pt.mod fun _ _ _ _ _ => rfl]
    rfl
  · show _ = 1 * _
    rw [one_mul]
    exact sums _ fun _ _ _ _ _ => rfl
  · show _ = 1 * _
    rw [one_mul]
    exact sums _ fun _ _ _ _ _ => rfl
  · intro l m hl hm h1 h2
    show _ * (1 * 1) = 1 * _
    rw [one_mul, mul_one, one_mul]
    refine sums _ fun is s hs' i hi => ?_
    show _ * G' is i l * G' is i m = _ * G is i l * G is i m
    rw [hGG is s hs' i hi l hl h1, hGG is s hs' i hi m hm h2]
    rfl
  · intro l hl h1
    show _ * 1 = 1 * _
    rw [mul_one, one_mul]
    refine sums _ fun is s hs' i hi => ?_
    show _ * G' is i l = _ * G is i l
    rw [hGG is s hs' i hi l hl h1]
    rfl

theorem twin (R : ReorderPh I I' π) (H : I.Ok) (dmax : ℝ) (hF : C75.Fair I cs) (hA : Apart I cs) : C96.Twin I I' 1 dmax p0 cs v0 := by
  intro par w w' hs hw hw'
  obtain ⟨tv, htv⟩ := C75.targets hF
  have htv' : ∀ (c : ℕ) x, cs[c]? = some x → C47.Exists I'.natoms I'.nset (renPh π (tv c)) ∧ x.addr = I'.addr (renPh π (tv c)) := fun c x hx => by
    obtain ⟨h1, h2⟩ := htv c x hx
    rw [R.exist, R.addr]
    exact ⟨h1, h2⟩
  by_cases hW : I.Works p0 cs v0 tv par
  · exact .inl (after R H dmax hF hA htv htv' hs hW hw hw')
  · refine .inr ⟨fun u hu => hW (Input.eval_none H dmax hF.one tv htv hw hs hu), fun u hu => hW ?_⟩
    have := R.symm.works (R.ok H) (Input.eval_none (R.ok H) dmax hF.one _ htv' hw' hs hu)
    simpa only [renPh_symm'] using this

end

/-- **C97** (partial) Two sessions with the same calls of `constrain`, `setpar` etc. and the same values of all variables, whose structures were
read in different orders. `refine()` returns in the one exactly when it returns in the other; then after the same number of steps and
with the same results. Missing: refined peak broadening of data sets that use several phases, where it is false. -/
theorem C97_order_partial (I I' : Input) (π : Equiv.Perm ℕ) (R : ReorderPh I I' π) (H : I.Ok) (dmax toler : ℝ) (ops : List (COp (List Char) ℝ))
    (hn : C08.NoRepl (fparse builtinTab) {} ops) (s s' : Statics ℝ) (e e' : Eng ℝ (CWorld (List Char) ℝ (List Out)))
    (hst : CState.run (fparse builtinTab) {} ops = ⟨e.par, e.world.cons, e.world.dvdp⟩)
    (hst' : CState.run (fparse builtinTab) {} ops = ⟨e'.par, e'.world.cons, e'.world.dvdp⟩) (hv : e'.world.vars = e.world.vars)
    (hcur : ∀ x ∈ e.world.curve, x.1.WF) (hcur' : ∀ x ∈ e'.world.curve, x.1.WF)
    (hfresh : ¬ (s.fitRunning = true ∧ e.iter ≠ 0)) (hfresh' : ¬ (s'.fitRunning = true ∧ e'.iter ≠ 0)) (hF : C75.Fair I e.world.cons)
    (hA : Apart I e.world.cons) (fuel : ℕ) (r r' : (Statics ℝ × Eng ℝ (CWorld (List Char) ℝ (List Out))) × Outcome × ℕ)
    (hr : r = refineLoop (constrTheory (I.static dmax)) toler fuel (s, e))
    (hr' : r' = refineLoop (constrTheory (I'.static dmax)) toler fuel (s', e')) :
    (r'.2.1 = .done ↔ r.2.1 = .done) ∧ (r.2.1 = .done → r'.2 = r.2 ∧ C96.SameResults I I' 1 dmax r.1.2 r'.1.2) := by
  subst hr hr'
  have hcc := hst.symm.trans hst'
  have h2 : e'.world.cons = e.world.cons := by
    simp only [CState.mk.injEq] at hcc
    exact hcc.2.1.symm
  refine ⟨⟨fun h => ?_, fun h => ?_⟩, fun h => ?_⟩
  · obtain ⟨k, -⟩ := C96.one_way I' I 1 (R.ok H) dmax toler ops hn s' s e' e hst' hst hv.symm hcur' hcur hfresh' hfresh
      (by rw [h2]; exact R.fair hF) (twin R.symm (R.ok H) dmax (by rw [h2]; exact R.fair hF) (by rw [h2]; exact apart R hA)) fuel h
    rw [k]; exact h
  · obtain ⟨k, -⟩ := C96.one_way I I' 1 H dmax toler ops hn s s' e e' hst hst' hv hcur hcur' hfresh hfresh' hF (twin R H dmax hF hA) fuel h
    rw [k]; exact h
  · exact C96.one_way I I' 1 H dmax toler ops hn s s' e e' hst hst' hv hcur hcur' hfresh hfresh' hF (twin R H dmax hF hA) fuel h

/-! ## Two phases that differ in their scale factors only: 1 and 0 -/

section Example
open C44

noncomputable abbrev W : PPhase := wit (33 / 10) 120 0 (1 / 200)

/-- The phase without weight. -/
noncomputable abbrev W0 : PPhase := { W with pscale := 0 }

/-- One data set with one point, the observed value `o`; `sel` are the selections of atoms, `none` for a phase that is not used. `τ` is the order of
the variables of the phases in memory. -/
noncomputable def duo (τ : Equiv.Perm ℕ) (sel : List (Option Sel)) (o : ℝ) : Input where
  addr := fun v => (setup [2, 2] 1).slots.idxOf (renPh τ v)
  phases := [W, W]
  sets := [⟨⟨witD 1, 11 / 5, 1, [o], [1]⟩, sel, fun _ _ => 1⟩]

theorem swap_two (k : ℕ) : (Equiv.swap 0 1 k = 0 ∧ k = 1) ∨ (Equiv.swap 0 1 k = 1 ∧ k = 0) ∨ (2 ≤ k ∧ Equiv.swap 0 1 k = k) := by
  rcases k with _ | _ | k
  · simp
  · simp
  · exact .inr (.inr ⟨by omega, Equiv.swap_apply_of_ne_of_ne (by omega) (by omega)⟩)

theorem duo_reorder (a b : Option Sel) (o : ℝ) : ReorderPh (duo 1 [a, b] o) (duo (Equiv.swap 0 1) [b, a] o) (Equiv.swap 0 1) where
  addr x := by
    show (setup [2, 2] 1).slots.idxOf (renPh (Equiv.swap 0 1) (renPh (Equiv.swap 0 1) x)) = (setup [2, 2] 1).slots.idxOf (renPh 1 x)
    congr 1
    cases x <;> simp [renPh]
  count := rfl
  phases k := by
    rcases swap_two k with ⟨h, rfl⟩ | ⟨h, rfl⟩ | ⟨h1, h⟩ <;> rw [h] <;> rfl
  sets_count := rfl
  sets k s s' h h' := by
    have hk := (List.getElem?_eq_some_iff.1 h).1
    have : k = 0 := by
      have : k < 1 := hk
      omega
    subst this
    simp only [duo, List.getElem?_cons_zero, Option.some.injEq] at h h'
    subst h h'
    refine ⟨rfl, fun ip => ?_, fun _ _ => rfl⟩
    dsimp only
    rcases swap_two ip with ⟨h, rfl⟩ | ⟨h, rfl⟩ | ⟨h1, h⟩ <;> rw [h]
    · rfl
    · rfl
    · rw [List.getD_eq_default _ _ (by simpa using h1), List.getD_eq_default _ _ (by simpa using h1)]

theorem duo_addr (sel : List (Option Sel)) (o : ℝ) (x : RVar) : (duo 1 sel o).addr x = (setup [2, 2] 1).slots.idxOf x := by
  show (setup [2, 2] 1).slots.idxOf (renPh 1 x) = _
  congr 1
  cases x <;> rfl

theorem duo_ok (sel : List (Option Sel)) (o : ℝ) : (duo 1 sel o).Ok where
  sep := by
    intro v w hv hw e
    rw [← C47.complete] at hv
    rw [duo_addr, duo_addr] at e
    exact (List.idxOf_inj hv).1 e
  icc := by
    intro ph hp k
    have : ph = W := by simpa [duo] using hp
    subst this
    fin_cases k <;> simp [wit]
  data := by
    intro s hs
    simp only [duo, List.mem_singleton] at hs
    subst hs
    refine ⟨by norm_num [witD], by norm_num [witD], by norm_num [witD], by norm_num [witD], by norm_num [witD], rfl, rfl⟩

noncomputable def val2 : RVar → ℝ
  | .a0 _ k => (![33 / 10, 4, 10] : Fin 3 → ℝ) k
  | .win _ k => (![90, 90, 120] : Fin 3 → ℝ) k
  | .pscale ip => if ip = 0 then 1 else 0
  | .sratio _ => 1
  | .occ _ _ => 1
  | .pos _ ia k => if ia = 1 ∧ k = 0 then 1 / 3 else 0
  | .u _ _ k => (![1 / 200, 1 / 200, 1 / 200, 0, 0, 0] : Fin 6 → ℝ) k
  | .dscale _ => 1
  | .qbroad _ => 1
  | _ => 0

noncomputable def vars2 : ℕ → ℝ := fun a => (((setup [2, 2] 1).slots[a]?).map val2).getD 0

/-- `qbroad` is constrained to parameter 1. -/
def cons2 : List (Constr (List Char)) := [⟨(setup [2, 2] 1).slots.idxOf (.qbroad 0), none, 1, .ident, true⟩]

def calls : List (COp (List Char) ℝ) := [.setpar 1 1, .int ((setup [2, 2] 1).slots.idxOf (.qbroad 0)) 1 .ident]

theorem vars2_val (x : RVar) (hx : C47.Exists [2, 2] 1 x) : vars2 ((setup [2, 2] 1).slots.idxOf x) = val2 x := by
  rw [← C47.complete] at hx
  unfold vars2
  rw [List.getElem?_eq_getElem (List.idxOf_lt_length_of_mem hx), List.getElem_idxOf]
  rfl

theorem duo_fair (sel : List (Option Sel)) (o : ℝ) : C75.Fair (duo 1 sel o) cons2 where
  one := by simp [cons2]
  assigns := by
    intro c hc
    simp only [cons2, List.mem_singleton] at hc
    subst hc
    simp [Constr.assigns]
  target := by
    intro c hc
    simp only [cons2, List.mem_singleton] at hc
    subst hc
    exact ⟨.qbroad 0, by show 0 < 1; norm_num, by rw [duo_addr]⟩

theorem duo_value : ∀ c ∈ cons2, ∃ y, c.value (fparse builtinTab) (C74.store 1) = some y := by
  intro c hc
  simp only [cons2, List.mem_singleton] at hc
  subst hc
  exact ⟨1, rfl⟩

theorem duo_val (sel : List (Option Sel)) (o : ℝ) (x : RVar) (hx : C47.Exists [2, 2] 1 x) :
    (duo 1 sel o).val ((duo 1 sel o).vars cons2 vars2 (C74.store 1)) x = val2 x := by
  have hsep := (duo_ok sel o).sep
  rw [C75.vars_eq (duo_fair sel o) duo_value]
  unfold Input.val C75.structureAt
  have e0 : ((match cons2.find? fun c => c.addr == (duo 1 sel o).addr x with
      | some c => (c.value (fparse builtinTab) (C74.store 1)).getD 0
      | none => vars2 ((duo 1 sel o).addr x)) : ℝ) = val2 x := by
    cases hf : cons2.find? fun c' => c'.addr == (duo 1 sel o).addr x with
    | some c' =>
      have hm := List.mem_of_find?_eq_some hf
      have ha : c'.addr = (duo 1 sel o).addr x := by simpa using List.find?_some hf
      simp only [cons2, List.mem_singleton] at hm
      subst hm
      have := hsep x (.qbroad 0) hx (by show 0 < 1; norm_num) (by rw [← ha, duo_addr])
      subst this
      rfl
    | none => dsimp only; rw [duo_addr]; exact vars2_val x hx
  unfold wrapVars
  rw [icc_exists (duo_ok sel o) hx]
  cases x with
  | pos ip ia k =>
    dsimp only
    cases hp : (duo 1 sel o).phases[ip]? with
    | none => exact e0
    | some ph =>
      have : ph = W := by
        have := List.mem_of_getElem? hp
        simpa [duo] using this
      subst this
      have h1 : ((W.icc k : ℕ) : ℝ) = 1 := by fin_cases k <;> simp [wit]
      simp only [Option.map_some, h1]
      refine (congrArg (fun t => fmodK t 1) e0).trans ?_
      show fmodK (if ia = 1 ∧ k = 0 then (1 / 3 : ℝ) else 0) 1 = if ia = 1 ∧ k = 0 then (1 / 3 : ℝ) else 0
      unfold fmodK
      split <;> norm_num
  | _ => exact e0

theorem duo_phase (sel : List (Option Sel)) (o : ℝ) {ip : ℕ} (h : ip < 2) :
    phaseFrom ((duo 1 sel o).val ((duo 1 sel o).vars cons2 vars2 (C74.store 1))) ip W = if ip = 0 then W else W0 := by
  have hv := duo_val sel o
  generalize (duo 1 sel o).val ((duo 1 sel o).vars cons2 vars2 (C74.store 1)) = f at hv
  have ha : ∀ ia, ia < 2 → ∃ n, [2, 2][ip]? = some n ∧ ia < n := by
    intro ia hi
    have : ip = 0 ∨ ip = 1 := by omega
    rcases this with rfl | rfl <;> exact ⟨2, rfl, hi⟩
  have e1 : (fun k => f (.a0 ip k)) = ![33 / 10, 4, 10] := funext fun k => hv (.a0 ip k) h
  have e2 : (fun k => f (.win ip k)) = ![90, 90, 120] := funext fun k => hv (.win ip k) h
  have e3 : ∀ ia, ia < 2 → ∀ p u, p = ![if ia = 1 then 1 / 3 else 0, 0, 0] → u = ![1 / 200, 1 / 200, 1 / 200, 0, 0, 0] →
      atomFrom f ip ia ⟨p, 1, u, 1⟩ = ⟨p, 1, u, 1⟩ := by
    rintro ia hi p u rfl rfl
    unfold atomFrom
    rw [hv (.occ ip ia) (ha ia hi)]
    congr 1
    · funext k
      rw [hv (.pos ip ia k) (ha ia hi)]
      fin_cases k <;> simp [val2]
    · funext k
      exact hv (.u ip ia k) (ha ia hi)
  have e4 : W.atom.mapIdx (atomFrom f ip) = W.atom := by
    show [atomFrom f ip 0 ⟨![0, 0, 0], 1, ![1 / 200, 1 / 200, 1 / 200, 0, 0, 0], 1⟩,
      atomFrom f ip 1 ⟨![1 / 3, 0, 0], 1, ![1 / 200, 1 / 200, 1 / 200, 0, 0, 0], 1⟩] = _
    rw [e3 0 (by norm_num) _ _ (by simp) rfl, e3 1 (by norm_num) _ _ (by simp) rfl]
    rfl
  unfold Conf.phaseFrom
  rw [e1, e2, e4, hv (.delta2 ip) h, hv (.delta1 ip) h, hv (.sratio ip) h, hv (.spdiameter ip) h, hv (.pscale ip) h]
  have : ip = 0 ∨ ip = 1 := by omega
  rcases this with rfl | rfl <;> rfl

theorem duo_sel (b : Option Sel) (o : ℝ) {is : ℕ} {s : SetIn} (hs : (duo 1 [some witS, b] o).sets[is]? = some s) :
    is = 0 ∧ s.d.obs = [o] ∧ s.d.wic = [1] ∧ s.d.D.nfmin = 0 ∧ s.d.D.nfmax = 0 ∧
    (duo 1 [some witS, b] o).dat ((duo 1 [some witS, b] o).vars cons2 vars2 (C74.store 1)) is s = witD 1 ∧
    (duo 1 [some witS, b] o).sel ((duo 1 [some witS, b] o).vars cons2 vars2 (C74.store 1)) s = [some (W, witS), b.map fun x => (W0, x)] := by
  have hk : is < 1 := (List.getElem?_eq_some_iff.1 hs).1
  have : is = 0 := by omega
  subst this
  simp only [duo, List.getElem?_cons_zero, Option.some.injEq] at hs
  subst hs
  have n0 : (witD 1).nfmin = 0 := by
    unfold Data.nfmin
    rw [show ((witD 1).rfmin - (witD 1).rmin) / (witD 1).deltar = 0 by simp [witD], nint_zero]
  have n1 : (witD 1).nfmax = 0 := by
    unfold Data.nfmax
    rw [show ((witD 1).rfmax - (witD 1).rmin) / (witD 1).deltar = 0 by simp [witD], nint_zero]
  refine ⟨rfl, rfl, rfl, n0, n1, ?_, ?_⟩
  · have hv := duo_val [some witS, b] o
    have h0 : (0 : ℕ) < 1 := by norm_num
    unfold Input.dat dataFrom
    rw [hv (.dscale 0) h0, hv (.qdamp 0) h0, hv (.qbroad 0) h0]
    rfl
  · have p0 := duo_phase [some witS, b] o (ip := 0) (by norm_num)
    have p1 := duo_phase [some witS, b] o (ip := 1) (by norm_num)
    rw [if_pos rfl] at p0
    rw [if_neg (by norm_num)] at p1
    generalize (duo 1 [some witS, b] o).vars cons2 vars2 (C74.store 1) = v at *
    cases b with
    | none =>
      show [some (Conf.phaseFrom ((duo 1 [some witS, none] o).val v) 0 W, witS), none] = _
      rw [p0]
      rfl
    | some x =>
      show [some (Conf.phaseFrom ((duo 1 [some witS, some x] o).val v) 0 W, witS),
        some (Conf.phaseFrom ((duo 1 [some witS, some x] o).val v) 1 W, x)] = _
      rw [p0, p1]
      rfl

theorem W_good : ¬Bad (witD 1) W witS := (wit_dec reg120 1).2
theorem W0_good : ¬Bad (witD 1) W0 witS := (wit_dec reg120 1).2

theorem val_qbroad (p : Pk) (is ip ia ja : ℕ) : valOf (.qbroad is) (p.adds is ip ia ja) = p.dTds * p.dsds2 * (2 * p.qbroad * p.dist ^ 2) := by
  simp [valOf, Pk.adds]

/-- The derivative of the peak. -/
theorem W_peak : decSum (witD 1) W witS (dval (witD 1) W 0 0 (.qbroad 0)) 0 ≠ 0 := by
  rw [wit_decSum reg120]
  unfold dval
  rw [val_qbroad]
  have hs := wit_sig reg120 1 false
  have hd := wit_dist reg120
  have hm : 0 < √(msdOf W x₀) := by
    rw [wit_msd reg120, msd120]
    exact Real.sqrt_pos.2 (by norm_num)
  have hh : hgt (witD 1) W (x₀, 0, false) ≠ 0 := by
    rw [wit_hgt reg120]
    unfold hgt₀ gaus
    rw [msd120]
    have : 0 < √(1 / 60 : ℝ) := Real.sqrt_pos.2 (by norm_num)
    have : 0 < √(2 * Real.pi) := Real.sqrt_pos.2 (by positivity)
    have : 0 < √(1 + 1 ^ 2 * (33 / 10 * (0 + 2 / 3)) ^ 2 : ℝ) := Real.sqrt_pos.2 (by positivity)
    positivity
  have hT : (pk (witD 1) W x₀ (√(dist2 W x₀)) (sigB (witD 1) W x₀ false) 0).T = hgt (witD 1) W (x₀, 0, false) := by
    unfold hgt Pk.T pk
    dsimp only
    congr 1
    simp [half, x₀]
    ring
  have e1 : (pk (witD 1) W x₀ (√(dist2 W x₀)) (sigB (witD 1) W x₀ false) 0).dTds = -(hgt (witD 1) W (x₀, 0, false) / sigB (witD 1) W x₀ false) := by
    unfold Pk.dTds
    rw [hT]
    have : (pk (witD 1) W x₀ (√(dist2 W x₀)) (sigB (witD 1) W x₀ false) 0).rd = 0 := by
      unfold Pk.rd
      show (11 / 5 + ((0 : ℤ) : ℝ) * (1 / 10) - √(dist2 W x₀)) / _ = 0
      rw [hd]
      norm_num
    rw [this]
    show _ / sigB (witD 1) W x₀ false * _ = _
    ring
  have e2 : (pk (witD 1) W x₀ (√(dist2 W x₀)) (sigB (witD 1) W x₀ false) 0).dsds2 = √(msdOf W x₀) ^ 2 / (2 * sigB (witD 1) W x₀ false) := by
    unfold Pk.dsds2
    have : (pk (witD 1) W x₀ (√(dist2 W x₀)) (sigB (witD 1) W x₀ false) 0).phi = 1 := by
      unfold Pk.phi
      split <;> rfl
    rw [this, one_mul]
    rfl
  have e3 : (2 * (pk (witD 1) W x₀ (√(dist2 W x₀)) (sigB (witD 1) W x₀ false) 0).qbroad *
      (pk (witD 1) W x₀ (√(dist2 W x₀)) (sigB (witD 1) W x₀ false) 0).dist ^ 2) = 2 * (33 / 10 * (0 + 2 / 3)) ^ 2 := by
    show 2 * 1 * √(dist2 W x₀) ^ 2 = _
    rw [hd]
    ring
  rw [e1, e2, e3]
  have hs' : sigB (witD 1) W x₀ false ≠ 0 := by linarith
  refine mul_ne_zero (mul_ne_zero (neg_ne_zero.2 (div_ne_zero hh hs')) (div_ne_zero (pow_ne_zero _ hm.ne') (mul_ne_zero two_ne_zero hs'))) (by norm_num)

theorem W0_peak : decSum (witD 1) W0 witS (dval (witD 1) W0 0 0 (.qbroad 0)) 0 = decSum (witD 1) W witS (dval (witD 1) W 0 0 (.qbroad 0)) 0 := by
  have e : ∀ δ, dval (witD 1) W0 0 0 (.qbroad 0) δ = dval (witD 1) W 0 0 (.qbroad 0) δ := by
    intro δ
    unfold dval
    rw [val_qbroad, val_qbroad]
    rfl
  rw [show dval (witD 1) W0 0 0 (.qbroad 0) = dval (witD 1) W 0 0 (.qbroad 0) from funext e]
  rfl

theorem W_fac : fac (witD 1) W ((witD 1).r 0) ≠ 0 := by
  rw [witD_r]
  unfold fac facs facp shapeEnv bk
  rw [wit_np]
  simp [wit, witD]

/-- Phase 1 is not used. -/
theorem col_alone : column (witD 1) 0 (.qbroad 0) [some (W, witS), none] 0 ≠ 0 := by
  rw [column_qbroad, raw_qbroad, lastFac_used]
  simp only [List.filterMap_cons, id_eq, List.filterMap_nil, List.map_cons, List.map_nil, List.sum_cons, List.sum_nil, add_zero, List.foldl_cons,
    List.foldl_nil]
  exact mul_ne_zero W_peak W_fac

/-- The phase with the scale factor 0 was read last. -/
theorem col_last : column (witD 1) 0 (.qbroad 0) [some (W, witS), some (W0, witS)] 0 = 0 := by
  rw [column_qbroad, lastFac_used]
  simp [fac, facp]

/-- The phase with the scale factor 0 was read first. -/
theorem col_first : column (witD 1) 0 (.qbroad 0) [some (W0, witS), some (W, witS)] 0 ≠ 0 := by
  rw [column_qbroad, raw_qbroad, lastFac_used]
  simp only [List.filterMap_cons, id_eq, List.filterMap_nil, List.map_cons, List.map_nil, List.sum_cons, List.sum_nil, add_zero, List.foldl_cons,
    List.foldl_nil]
  rw [W0_peak, ← two_mul]
  exact mul_ne_zero (mul_ne_zero two_ne_zero W_peak) W_fac

/-- The value calculated at the start. -/
noncomputable def start₀ (l : List (Option (PPhase × Sel))) : ℝ :=
  match determine (witD 1) l with
  | .ok (some f) => f 0
  | _ => 0

noncomputable def eng (dv : Mat ℝ) : Eng ℝ (CWorld (List Char) ℝ (List Out)) :=
  ⟨C74.store 1, ⟨vars2, cons2, dv, [], []⟩, 0, 0, 0, 0, 0, fun _ _ => 0, fun _ _ => 0, [], 0⟩

/-- One data set with one point; the variables of the start. -/
structure Case (I : Input) (l : List (Option (PPhase × Sel))) (o : ℝ) : Prop where
  ok : I.Ok
  fair : C75.Fair I cons2
  target : C47.Exists I.natoms I.nset (.qbroad 0) ∧ (setup [2, 2] 1).slots.idxOf (.qbroad 0) = I.addr (.qbroad 0)
  works : I.Works (C74.store 1) cons2 vars2 (fun _ => .qbroad 0) (C74.store 1)
  one : I.sets.length = 1
  set : ∀ (is : ℕ) s, I.sets[is]? = some s → s.d.obs = [o] ∧ s.d.wic = [1] ∧ s.d.D.nfmin = 0 ∧ s.d.D.nfmax = 0 ∧
    I.dat (I.vars cons2 vars2 (C74.store 1)) is s = witD 1 ∧ I.sel (I.vars cons2 vars2 (C74.store 1)) s = l

theorem Case.begin {I : Input} {l : List (Option (PPhase × Sel))} {o : ℝ} (C : Case I l o) (dmax : ℝ) (dv : Mat ℝ)
    (hdv : CState.run (fparse builtinTab) {} calls = ⟨C74.store 1, cons2, dv⟩) :
    ∃ w, (constrTheory (I.static dmax)).setup (eng dv).par (eng dv).world = (w, none) ∧ I.Ready dmax (C74.store 1) cons2 vars2 w := by
  have hi := C08.inv_run (fparse_parserOK builtinTab) (fparse_parserUses builtinTab) calls (by simp [calls, C08.NoRepl]; rfl)
  rw [hdv] at hi
  exact Input.setup_ok dmax (w := (eng dv).world) hi ⟨rfl, fun _ _ => rfl, hi.m, fun x hx => absurd hx List.not_mem_nil⟩ C.works.con

theorem Case.eval {I : Input} {l : List (Option (PPhase × Sel))} {o : ℝ} (C : Case I l o) (dmax : ℝ) {w : CWorld (List Char) ℝ (List Out)}
    (hw : I.Ready dmax (C74.store 1) cons2 vars2 w) :
    ∃ w' d, (constrTheory (I.static dmax)).eval (C74.store 1) w = (w', none) ∧ I.Ready dmax (C74.store 1) cons2 vars2 w' ∧
      (constrTheory (I.static dmax)).pts w' = [[⟨1, o, start₀ l, d⟩]] ∧ d 0 = column (witD 1) 0 (.qbroad 0) l 0 := by
  have htv : ∀ (c : ℕ) x, cons2[c]? = some x → C47.Exists I.natoms I.nset (.qbroad 0) ∧ x.addr = I.addr (.qbroad 0) := by
    intro c x hx
    have := List.mem_of_getElem? hx
    simp only [cons2, List.mem_singleton] at this
    subst this
    exact C.target
  obtain ⟨u, G, e1, e2, e3, e4, e5⟩ := Input.eval_ok C.ok dmax C.fair.one C.fair.assigns (fun _ => .qbroad 0) htv hw ⟨rfl, rfl, rfl⟩ C.works.con
    C.works.num C.works.div
  have h0 : 0 < I.sets.length := by rw [C.one]; norm_num
  obtain ⟨g1, g2, g3, g4, g5, g6⟩ := C.set 0 _ (List.getElem?_eq_getElem h0)
  have hl : I.sets = [I.sets[0]] := by
    refine List.ext_getElem (by rw [C.one]; rfl) fun i h1 h2 => ?_
    have : i = 0 := by
      rw [C.one] at h1
      omega
    subst this
    rfl
  have hg : grid I.sets[0].d.D.nfmin I.sets[0].d.D.nfmax = [0] := by
    rw [g3, g4]
    rfl
  have hc : I.curveOf (I.vars cons2 vars2 (C74.store 1)) 0 I.sets[0] 0 = start₀ l := by
    unfold Input.curveOf start₀
    rw [g5, g6]
    cases determine (witD 1) l with
    | ok f => cases f <;> rfl
    | _ => rfl
  refine ⟨u, G 0 0, e1, e2, ?_, ?_⟩
  · show (I.static dmax).pts u.curve = _
    rw [e4]
    generalize hgen : I.sets[0] = s at *
    rw [hl]
    simp only [List.mapIdx_cons, List.mapIdx_nil, hg, List.map_cons, List.map_nil, Input.pt, hc, g1, g2]
    rfl
  · rw [e5 0 _ (List.getElem?_eq_getElem h0) 0 (by rw [hg]; simp) 0 (by simp [C74.store]) rfl]
    unfold Input.slope
    rw [g5, g6]
    show ∑ c : Fin 1, _ = _
    rw [Fin.sum_univ_one]
    unfold filt
    rw [if_neg (by simp [witD])]
    show _ * (1 : ℝ) = _
    rw [mul_one]

/-- If the derivative is 0, `refine()` raises an exception. -/
theorem Case.raises {I : Input} {l : List (Option (PPhase × Sel))} {o : ℝ} (C : Case I l o) (dmax toler : ℝ) (dv : Mat ℝ)
    (hdv : CState.run (fparse builtinTab) {} calls = ⟨C74.store 1, cons2, dv⟩) (h : column (witD 1) 0 (.qbroad 0) l 0 = 0) :
    (refineLoop (constrTheory (I.static dmax)) toler 101 ({}, eng dv)).2 = (.exc .calculation, 1) := by
  obtain ⟨w, h1, h2⟩ := C.begin dmax dv hdv
  obtain ⟨w', d, h3, -, h5, h6⟩ := C.eval dmax h2
  refine C54.C54_dead_parameter_raises (constrTheory (I.static dmax)) toler {} (eng dv) (by simp) w w' h1 h3 0 (by simp [eng, C74.store]) rfl ?_ 101 (by norm_num)
  rw [h5]
  intro pt hpt
  simp only [List.flatten_cons, List.flatten_nil, List.append_nil, List.mem_singleton] at hpt
  subst hpt
  exact .inr (h6.trans h)

/-- If the derivative is not 0 and the calculated value is the observed one, `refine()` returns. -/
theorem Case.returns {I : Input} {l : List (Option (PPhase × Sel))} (C : Case I l (start₀ l)) (dmax toler : ℝ) (ht : 0 ≤ toler) (dv : Mat ℝ)
    (hdv : CState.run (fparse builtinTab) {} calls = ⟨C74.store 1, cons2, dv⟩) (h : column (witD 1) 0 (.qbroad 0) l 0 ≠ 0) :
    (refineLoop (constrTheory (I.static dmax)) toler 101 ({}, eng dv)).2 = (.done, 5) := by
  obtain ⟨w, h1, h2⟩ := C.begin dmax dv hdv
  refine (C67.C67_minimum_is_kept (constrTheory (I.static dmax)) (I.Ready dmax (C74.store 1) cons2 vars2) 0 (1 * start₀ l * start₀ l) toler ht {}
    (eng dv) (by simp) w h1 h2 (fun w hw => ?_) 101 (by norm_num)).1
  obtain ⟨w', d, h3, h4, h5, h6⟩ := C.eval dmax hw
  refine ⟨w', h3, h4, ?_⟩
  rw [h5]
  refine C67.Best.of_perfect (by simp) ⟨fun pt hpt => ?_, fun y hy i hi hf => ?_⟩ fun pt hpt _ => ?_
  · simp only [List.flatten_cons, List.flatten_nil, List.append_nil, List.mem_singleton] at hpt
    subst hpt
    exact zero_le_one
  · have hi : i < 1 := hi
    have : i = 0 := by omega
    subst this
    have := hy _ (by simp; rfl) one_ne_zero
    have e : (Finset.range (eng dv).par.p.length).filter (fun i => (eng dv).par.ip.getD i false = true) = {0} := by rfl
    rw [e, Finset.sum_singleton] at this
    dsimp only at this
    rw [h6] at this
    exact (mul_eq_zero.1 this).resolve_right h
  · simp only [List.flatten_cons, List.flatten_nil, List.append_nil, List.mem_singleton] at hpt
    subst hpt
    rfl

theorem duo_num (b : Option Sel) (hb : b = none ∨ b = some witS) (o : ℝ) :
    Input.Num (duo 1 [some witS, b] o) ((duo 1 [some witS, b] o).vars cons2 vars2 (C74.store 1)) where
  lat ip hip := by
    have hip : ip < 2 := hip
    obtain ⟨m, hm⟩ := (wit_fine reg120).acc
    have h := duo_phase [some witS, b] o hip
    refine ⟨m, ?_⟩
    have h2 : (Conf.phaseFrom ((duo 1 [some witS, b] o).val ((duo 1 [some witS, b] o).vars cons2 vars2 (C74.store 1))) ip W).cell = W.cell := by
      rw [h]
      split <;> rfl
    refine Eq.trans ?_ hm
    exact congrArg lattice h2
  det is s hs := by
    obtain ⟨rfl, -, -, -, -, h1, h2⟩ := duo_sel b o hs
    rw [h1, h2]
    obtain ⟨f, hf, -⟩ := determine_of (witD_ok 1) (psel := [some (W, witS), b.map fun x => (W0, x)]) (by
      intro x hx
      simp only [List.mem_cons, Option.some.injEq, List.not_mem_nil, or_false] at hx
      rcases hx with rfl | hx
      · exact W_good
      · rcases hb with rfl | rfl
        · cases hx
        · simp only [Option.map_some, Option.some.injEq] at hx
          subst hx
          exact W0_good)
    exact ⟨f, hf⟩

theorem duo_works (b : Option Sel) (hb : b = none ∨ b = some witS) (o : ℝ) :
    (duo 1 [some witS, b] o).Works (C74.store 1) cons2 vars2 (fun _ => .qbroad 0) (C74.store 1) where
  con c hc := by
    simp only [cons2, List.mem_singleton] at hc
    subst hc
    exact ⟨_, rfl⟩
  num := duo_num b hb o
  div is s hs c x hx hu hd := by
    rcases hd with ⟨h, -⟩ | ⟨_, _, _, _, h, -⟩ <;> cases h

theorem duo_case (b : Option Sel) (hb : b = none ∨ b = some witS) (o : ℝ) :
    Case (duo 1 [some witS, b] o) [some (W, witS), b.map fun x => (W0, x)] o where
  ok := duo_ok _ o
  fair := duo_fair _ o
  target := ⟨by show 0 < 1; norm_num, (duo_addr _ o _).symm⟩
  works := duo_works b hb o
  one := rfl
  set is s hs := (duo_sel b o hs).2

/-- The same, read in the other order. -/
theorem duo_case' (b : Option Sel) (hb : b = none ∨ b = some witS) (o : ℝ) :
    Case (duo (Equiv.swap 0 1) [b, some witS] o) [b.map fun x => (W0, x), some (W, witS)] o where
  ok := (duo_reorder (some witS) b o).ok (duo_ok _ o)
  fair := (duo_reorder (some witS) b o).fair (duo_fair _ o)
  target := ⟨by show 0 < 1; norm_num, ((duo_reorder (some witS) b o).addr (.qbroad 0)).symm ▸ (duo_addr _ o _).symm⟩
  works := (duo_reorder (some witS) b o).works (duo_ok _ o) (duo_works b hb o)
  one := rfl
  set is s' hs' := by
    have R := duo_reorder (some witS) b o
    obtain ⟨s, hs, S⟩ := R.symm.set hs'
    have S' := R.sets is s s' hs hs'
    obtain ⟨rfl, h1, h2, h3, h4, h5, h6⟩ := duo_sel b o hs
    rw [R.vars (duo_ok _ o), R.dat _ _ S', S'.d]
    refine ⟨h1, h2, h3, h4, h5, ?_⟩
    simp only [duo, List.getElem?_cons_zero, Option.some.injEq] at hs'
    subst hs'
    have p0 := duo_phase [some witS, b] o (ip := 0) (by norm_num)
    have p1 := duo_phase [some witS, b] o (ip := 1) (by norm_num)
    rw [if_pos rfl] at p0
    rw [if_neg (by norm_num)] at p1
    generalize (duo 1 [some witS, b] o).vars cons2 vars2 (C74.store 1) = v at *
    have q0 := (R.phaseFrom v 1 W).trans p1
    have q1 := (R.phaseFrom v 0 W).trans p0
    rw [Equiv.swap_apply_right] at q0
    rw [Equiv.swap_apply_left] at q1
    cases b with
    | none =>
      show [none, some (Conf.phaseFrom ((duo (Equiv.swap 0 1) [none, some witS] o).val v) 1 W, witS)] = _
      rw [q1]
      rfl
    | some x =>
      show [some (Conf.phaseFrom ((duo (Equiv.swap 0 1) [some x, some witS] o).val v) 0 W, x),
        some (Conf.phaseFrom ((duo (Equiv.swap 0 1) [some x, some witS] o).val v) 1 W, witS)] = _
      rw [q0, q1]
      rfl

/-- **C97** (violation) A data set calculated from two phases, one of which has the scale factor 0; its peak broadening is refined. Two sessions that
differ only in the order in which the phases were read: `refine()` returns if the phase without weight was read first, and raises an exception if it was read last. -/
theorem C97_order_violated : ∃ (I I' : Input) (π : Equiv.Perm ℕ) (e : Eng ℝ (CWorld (List Char) ℝ (List Out))), ReorderPh I I' π ∧ I.Ok ∧
    C08.NoRepl (fparse builtinTab) {} calls ∧ CState.run (fparse builtinTab) {} calls = ⟨e.par, e.world.cons, e.world.dvdp⟩ ∧
    e.world.curve = [] ∧ e.iter = 0 ∧ C75.Fair I e.world.cons ∧
    (refineLoop (constrTheory (I.static 1000000)) (1 / 1000) 101 ({}, e)).2 = (.exc .calculation, 1) ∧
    (refineLoop (constrTheory (I'.static 1000000)) (1 / 1000) 101 ({}, e)).2 = (.done, 5) := by
  generalize hdv : (CState.run (fparse builtinTab) {} calls).dvdp = dv
  have hrun : CState.run (fparse builtinTab) {} calls = ⟨C74.store 1, cons2, dv⟩ := by rw [← hdv]; rfl
  let o := start₀ [some (W0, witS), some (W, witS)]
  exact ⟨duo 1 [some witS, some witS] o, duo (Equiv.swap 0 1) [some witS, some witS] o, Equiv.swap 0 1, eng dv, duo_reorder _ _ o, duo_ok _ o,
    by simp [calls, C08.NoRepl]; rfl, hrun, rfl, rfl, duo_fair _ o, (duo_case (some witS) (.inr rfl) o).raises 1000000 (1 / 1000) dv hrun col_last,
    (duo_case' (some witS) (.inr rfl) o).returns 1000000 (1 / 1000) (by norm_num) dv hrun col_first⟩

/-- With a data set that uses only one of the two phases: `refine()` returns whichever of the two was read first. -/
example : ∃ (o : ℝ) (dv : Mat ℝ), CState.run (fparse builtinTab) {} calls = ⟨C74.store 1, cons2, dv⟩ ∧
    (refineLoop (constrTheory ((duo 1 [some witS, none] o).static 1000000)) (1 / 1000) 101 ({}, eng dv)).2 = (.done, 5) ∧
    (refineLoop (constrTheory ((duo (Equiv.swap 0 1) [none, some witS] o).static 1000000)) (1 / 1000) 101 ({}, eng dv)).2 = (.done, 5) := by
  refine ⟨start₀ [some (W, witS), none], (CState.run (fparse builtinTab) {} calls).dvdp, rfl, ?_⟩
  generalize hdv : (CState.run (fparse builtinTab) {} calls).dvdp = dv
  have hrun : CState.run (fparse builtinTab) {} calls = ⟨C74.store 1, cons2, dv⟩ := by rw [← hdv]; rfl
  have h := (duo_case none (.inl rfl) (start₀ [some (W, witS), none])).returns 1000000 (1 / 1000) (by norm_num) dv hrun col_alone
  refine ⟨h, ?_⟩
  obtain ⟨-, k⟩ := C97_order_partial _ _ _ (duo_reorder (some witS) none (start₀ [some (W, witS), none])) (duo_ok _ _) 1000000 (1 / 1000) calls
    (by simp [calls, C08.NoRepl]; rfl) {} {} (eng dv) (eng dv) hrun hrun rfl (fun x hx => absurd hx List.not_mem_nil)
    (fun x hx => absurd hx List.not_mem_nil) (by simp) (by simp) (duo_fair _ _) (by
      intro c _ is s hs _ ip ip' h1 h2
      have hk : is < 1 := (List.getElem?_eq_some_iff.1 hs).1
      have : is = 0 := by omega
      subst this
      simp only [duo, List.getElem?_cons_zero, Option.some.injEq] at hs
      subst hs
      have key : ∀ ip : ℕ, [some witS, none].getD ip none ≠ none → ip = 0 := by
        intro ip h
        rcases ip with _ | _ | ip
        · rfl
        · exact absurd rfl h
        · exact absurd (List.getD_eq_default _ _ (by simp)) h
      rw [key ip h1, key ip' h2]) 101 _ _ rfl rfl
  rw [(k (by rw [h])).1]
  exact h

end Example

end Pdffit.C97
