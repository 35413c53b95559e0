import Verif.Lemmas.Reorder

/-!
# C96: the order of the data sets does not matter for a refinement

A refinement with several data sets gives the same in whatever order they were read: `refine()` returns in the one order
exactly when it returns in the other, after the same number of steps, with the same parameters, the same structures and settings,
the same chi-square and Rw, the same covariances, and the same calculated PDF of every data set.

C66 is about the order of the parameters, the units and the way constraints are written.
-/

namespace Pdffit.C96
open Geom Det Deriv Layout Conf DMat Full _root_.Pdffit.Parser

section
variable {I I' : Input} {σ : Equiv.Perm ℕ} {p0 : ParStore ℝ} {cs : List (Constr (List Char))} {v0 : ℕ → ℝ}

/-- Parameters stay what they are. -/
def same (n : ℕ) : Redescr ℝ where
  n := n
  ρ := Equiv.refl ℕ
  hρ _ := Iff.rfl
  s _ := 1
  t _ := 0
  hs _ := one_ne_zero
  κ := 1
  hκ := one_pos

theorem same_par {n : ℕ} {par par' : ParStore ℝ} (hi : par.ip = p0.ip) (hd : par.id = p0.id) (hi' : par'.ip = p0.ip) (hd' : par'.id = p0.id)
    (h : ParRel (same n) par par') : par' = par := by
  have e : par'.p = par.p := by
    refine List.ext_getElem (h.len'.trans h.len.symm) fun l h1 h2 => ?_
    have := h.val l (by rw [← h.len]; exact h2)
    simpa [same, List.getD_eq_getElem, h1, h2] using this
  cases par; cases par'
  simp_all

/-- The calculated values of the data sets. -/
noncomputable def Modelled (I : Input) (dmax : ℝ) (w : CWorld (List Char) ℝ (List Out)) : List (List ℝ) := ((I.static dmax).pts w.curve).map (List.map Pt.mod)

/-- The worlds after an evaluation. -/
structure After (I I' : Input) (σ : Equiv.Perm ℕ) (dmax : ℝ) (p0 : ParStore ℝ) (cs : List (Constr (List Char))) (v0 : ℕ → ℝ)
    (w w' : CWorld (List Char) ℝ (List Out)) : Prop where
  ready : I.Ready dmax p0 cs v0 w
  ready' : I'.Ready dmax p0 cs v0 w'
  vars : w'.vars = w.vars
  mod : ∀ k, (Modelled I' dmax w')[σ k]? = (Modelled I dmax w)[k]?
  pts : PtsRel (same p0.p.length) (fun l => p0.ip.getD l false) ((I.static dmax).pts w.curve) ((I'.static dmax).pts w'.curve)

theorem after (R : Reorder I I' σ) (H : I.Ok) (dmax : ℝ) (hF : C75.Fair I cs) {tv : ℕ → RVar}
    (htv : ∀ (c : ℕ) x, cs[c]? = some x → C47.Exists I.natoms I.nset (tv c) ∧ x.addr = I.addr (tv c))
    {par : ParStore ℝ} (hs : C53.Same p0 par) (hW : I.Works p0 cs v0 tv par) {w w' : CWorld (List Char) ℝ (List Out)}
    (hw : I.Ready dmax p0 cs v0 w) (hw' : I'.Ready dmax p0 cs v0 w') :
    ∃ u u', (constrTheory (I.static dmax)).eval par w = (u, none) ∧ (constrTheory (I'.static dmax)).eval par w' = (u', none) ∧
      After I I' σ dmax p0 cs v0 u u' := by
  have htv' : ∀ (c : ℕ) x, cs[c]? = some x → C47.Exists I'.natoms I'.nset (ren σ (tv c)) ∧ x.addr = I'.addr (ren σ (tv c)) := fun c x hx => by
    obtain ⟨h1, h2⟩ := htv c x hx
    rw [R.natoms, R.nset, exists_ren R.lt, R.addr]
    exact ⟨h1, h2⟩
  have hW' := R.works hW
  obtain ⟨u, G, e1, e2, e3, e4, e5⟩ := Input.eval_ok H dmax hF.one hF.assigns tv htv hw hs hW.con hW.num hW.div
  obtain ⟨u', G', f1, f2, f3, f4, f5⟩ := Input.eval_ok (R.ok H) dmax hF.one hF.assigns (fun c => ren σ (tv c)) htv' hw' hs hW'.con hW'.num hW'.div
  rw [R.vars] at f3 f4 f5
  have hG : ∀ is s, I.sets[is]? = some s → ∀ i ∈ grid s.d.D.nfmin s.d.D.nfmax, ∀ j, j < p0.p.length → p0.ip.getD j false = true →
      G' (σ is) i j = G is i j := by
    intro is s hs' i hi j hj hf
    rw [e5 is s hs' i hi j hj hf, f5 (σ is) s (by rw [R.sets]; exact hs') i hi j hj hf, R.slope]
  have sums : ∀ f : Pt ℝ → ℝ, (∀ is s, I.sets[is]? = some s → ∀ i ∈ grid s.d.D.nfmin s.d.D.nfmax,
      f (Input.pt s (I.curveOf (I.vars cs v0 par) is s) (G' (σ is)) i) = f (Input.pt s (I.curveOf (I.vars cs v0 par) is s) (G is) i)) →
      (((I'.static dmax).pts u'.curve).flatten.map f).sum = (((I.static dmax).pts u.curve).flatten.map f).sum := by
    intro f hf
    rw [e4, f4, List.map_flatten, List.sum_flatten, List.map_flatten, List.sum_flatten, List.map_map, List.map_map, C74.map_mapIdx, C74.map_mapIdx]
    refine R.sum _ _ fun is s hs' => ?_
    simp only [Function.comp, List.map_map]
    rw [R.curveOf]
    congr 1
    exact List.map_congr_left fun i hi => hf is s hs' i hi
  refine ⟨u, u', e1, f1, e2, f2, by rw [e3, f3], fun k => ?_, ?_, ?_, ?_, ?_⟩
  · unfold Modelled
    rw [e4, f4, List.getElem?_map, List.getElem?_map, List.getElem?_mapIdx, List.getElem?_mapIdx, R.sets]
    cases I.sets[k]? with
    | none => rfl
    | some s =>
      simp only [Option.map_some, List.map_map, R.curveOf]
      rfl
  · show _ = 1 * _
    rw [one_mul]
    exact sums _ fun _ _ _ _ _ => rfl
  · show _ = 1 * _
    rw [one_mul]
    exact sums _ fun _ _ _ _ _ => rfl
  · intro l m hl hm h1 h2
    show _ * (1 * 1) = 1 * _
    rw [one_mul, mul_one, one_mul]
    refine sums _ fun is s hs' i hi => ?_
    have g1 := hG is s hs' i hi l hl h1
    have g2 := hG is s hs' i hi m hm h2
    show _ * G' (σ is) i l * G' (σ is) i m = _ * G is i l * G is i m
    rw [g1, g2]
    rfl
  · intro l hl h1
    show _ * 1 = 1 * _
    rw [mul_one, one_mul]
    refine sums _ fun is s hs' i hi => ?_
    have g1 := hG is s hs' i hi l hl h1
    show _ * G' (σ is) i l = _ * G is i l
    rw [g1]
    rfl

/-- An evaluation succeeds for both inputs with the same results, or for none. -/
def Twin (I I' : Input) (σ : Equiv.Perm ℕ) (dmax : ℝ) (p0 : ParStore ℝ) (cs : List (Constr (List Char))) (v0 : ℕ → ℝ) : Prop :=
  ∀ par w w', C53.Same p0 par → I.Ready dmax p0 cs v0 w → I'.Ready dmax p0 cs v0 w' →
    (∃ u u', (constrTheory (I.static dmax)).eval par w = (u, none) ∧ (constrTheory (I'.static dmax)).eval par w' = (u', none) ∧
      After I I' σ dmax p0 cs v0 u u') ∨
    ((∀ u, (constrTheory (I.static dmax)).eval par w ≠ (u, none)) ∧ ∀ u, (constrTheory (I'.static dmax)).eval par w' ≠ (u, none))

theorem twin (R : Reorder I I' σ) (H : I.Ok) (dmax : ℝ) (hF : C75.Fair I cs) : Twin I I' σ dmax p0 cs v0 := by
  intro par w w' hs hw hw'
  obtain ⟨tv, htv⟩ := C75.targets hF
  have htv' : ∀ (c : ℕ) x, cs[c]? = some x → C47.Exists I'.natoms I'.nset (ren σ (tv c)) ∧ x.addr = I'.addr (ren σ (tv c)) := fun c x hx => by
    obtain ⟨h1, h2⟩ := htv c x hx
    rw [R.natoms, R.nset, exists_ren R.lt, R.addr]
    exact ⟨h1, h2⟩
  by_cases hW : I.Works p0 cs v0 tv par
  · exact .inl (after R H dmax hF htv hs hW hw hw')
  · refine .inr ⟨fun u hu => hW (Input.eval_none H dmax hF.one tv htv hw hs hu), fun u hu => hW ?_⟩
    have := R.symm.works (Input.eval_none (R.ok H) dmax hF.one _ htv' hw' hs hu)
    simpa only [ren_symm'] using this

theorem theories (dmax : ℝ) (T : Twin I I' σ dmax p0 cs v0) :
    TheoryRel (same p0.p.length) (constrTheory (I.static dmax)).hush (constrTheory (I'.static dmax)).hush p0 p0
      (fun w w' => I.Ready dmax p0 cs v0 w ∧ I'.Ready dmax p0 cs v0 w') (After I I' σ dmax p0 cs v0) where
  weaken w w' h := ⟨h.ready, h.ready'⟩
  setup par par' w w' _ _ _ _ _ h := ⟨rfl, h⟩
  eval par par' w w' h1 h2 h3 h4 hp hw := by
    have e := same_par h1 h2 h3 h4 hp
    subst e
    have hs : C53.Same p0 par' := ⟨h2, h1, hp.len⟩
    rcases T par' w w' hs hw.1 hw.2 with ⟨u, u', e1, e2, e3⟩ | ⟨e1, e2⟩
    · rw [hush_eval_none.2 e1, hush_eval_none.2 e2]
      exact ⟨rfl, ⟨e3.ready, e3.ready'⟩, fun _ => e3⟩
    · rw [hush_eval_some e1, hush_eval_some e2]
      exact ⟨rfl, hw, by simp⟩
  pts w w' h := h.pts

end

/-- The results of two refinements are the same. -/
structure SameResults (I I' : Input) (σ : Equiv.Perm ℕ) (dmax : ℝ) (e e' : Eng ℝ (CWorld (List Char) ℝ (List Out))) : Prop where
  par : e'.par = e.par
  vars : e'.world.vars = e.world.vars
  mod : ∀ k, (Modelled I' dmax e'.world)[σ k]? = (Modelled I dmax e.world)[k]?
  chisq : e'.chisq = e.chisq
  rw : e'.getrw = e.getrw
  covar : ∀ l k, l < e.par.p.length → k < e.par.p.length → e'.covar l k = e.covar l k

theorem one_way (I I' : Input) (σ : Equiv.Perm ℕ) (H : I.Ok) (dmax toler : ℝ) (ops : List (COp (List Char) ℝ))
    (hn : C08.NoRepl (fparse builtinTab) {} ops) (s s' : Statics ℝ) (e e' : Eng ℝ (CWorld (List Char) ℝ (List Out)))
    (hst : CState.run (fparse builtinTab) {} ops = ⟨e.par, e.world.cons, e.world.dvdp⟩)
    (hst' : CState.run (fparse builtinTab) {} ops = ⟨e'.par, e'.world.cons, e'.world.dvdp⟩) (hv : e'.world.vars = e.world.vars)
    (hcur : ∀ x ∈ e.world.curve, x.1.WF) (hcur' : ∀ x ∈ e'.world.curve, x.1.WF)
    (hfresh : ¬ (s.fitRunning = true ∧ e.iter ≠ 0)) (hfresh' : ¬ (s'.fitRunning = true ∧ e'.iter ≠ 0)) (hF : C75.Fair I e.world.cons)
    (T : Twin I I' σ dmax e.par e.world.cons e.world.vars) (fuel : ℕ)
    (hdone : (refineLoop (constrTheory (I.static dmax)) toler fuel (s, e)).2.1 = .done) :
    (refineLoop (constrTheory (I'.static dmax)) toler fuel (s', e')).2 = (refineLoop (constrTheory (I.static dmax)) toler fuel (s, e)).2 ∧
    SameResults I I' σ dmax (refineLoop (constrTheory (I.static dmax)) toler fuel (s, e)).1.2
      (refineLoop (constrTheory (I'.static dmax)) toler fuel (s', e')).1.2 := by
  have hcc := hst.symm.trans hst'
  obtain ⟨h1, h2, h3⟩ : e'.par = e.par ∧ e'.world.cons = e.world.cons ∧ e'.world.dvdp = e.world.dvdp := by
    simp only [CState.mk.injEq] at hcc
    exact ⟨hcc.1.symm, hcc.2.1.symm, hcc.2.2.symm⟩
  obtain ⟨tv, htv⟩ := C75.targets hF
  have hfc := C75.first_call hdone
  obtain ⟨w, hw⟩ := C75.setup_none hfresh hfc
  obtain ⟨hwf, hrd⟩ := C75.start dmax ops hn e.world w hst hcur hw
  obtain ⟨-, hev⟩ := C75.det (p0 := e.par) (v0 := e.world.vars) H dmax hF htv
  obtain ⟨w1, hw1⟩ := first_evaluates hfresh hw hfc
  obtain ⟨hW, -, -⟩ := hev _ _ _ ⟨rfl, rfl, rfl⟩ hrd hw1
  have hi := C08.inv_run (fparse_parserOK builtinTab) (fparse_parserUses builtinTab) ops hn
  rw [hst'] at hi
  obtain ⟨w', hw', hrd'⟩ := Input.setup_ok (I := I') dmax hi ⟨rfl, fun _ _ => rfl, hi.m, hcur'⟩ (by rw [h1, h2]; exact hW.con)
  rw [h1, h2, hv] at hrd'
  have hq := hush_loop hfresh hw (.inl hdone)
  have hf : 0 < fuel := by
    rcases Nat.eq_zero_or_pos fuel with rfl | h
    · cases hdone
    · exact h
  obtain ⟨k1, k2, k3, -, -, k4⟩ := loop_rel (theories dmax T) toler fuel hf s s' { e with world := w } { e' with world := w' } hfresh hfresh'
    ⟨rfl, rfl, by rw [← h1], by rw [← h1], rfl, by rw [← h1]; rfl, fun l _ => by show e'.par.ip.getD l false = _; rw [h1],
      fun l _ => by show e'.par.p.getD l 0 = 1 * _ + 0; rw [h1, one_mul, add_zero]⟩ ⟨hrd, hrd'⟩
  dsimp only at k1 k2 k3 k4
  have hq' := hush_loop (th := constrTheory (I'.static dmax)) (toler := toler) (n := fuel) hfresh' hw' (.inr (by rw [k1, hq]; exact hdone))
  rw [hq] at k1 k3 k4
  rw [hq'] at k1 k3 k4
  obtain ⟨m1, m2, m3, m4⟩ := k4 hdone
  refine ⟨k1, same_par k3.ip k3.id k3.ip' k3.id' k3.par, m1.vars, m1.mod, m3.trans (one_mul _), by unfold Eng.getrw; rw [m2], fun l k hl hk => ?_⟩
  have := m4 l k (by rw [← k3.par.len]; exact hl) (by rw [← k3.par.len]; exact hk)
  simpa [same] using this

/-- **C96** Two sessions with the same calls of `constrain`, `setpar` etc. and the same values of all variables, whose data sets were read in
different orders. `refine()` returns in the one exactly when it returns in the other; then after the same number of steps and with
the same results. -/
theorem C96_order (I I' : Input) (σ : Equiv.Perm ℕ) (R : Reorder I I' σ) (H : I.Ok) (dmax toler : ℝ) (ops : List (COp (List Char) ℝ))
    (hn : C08.NoRepl (fparse builtinTab) {} ops) (s s' : Statics ℝ) (e e' : Eng ℝ (CWorld (List Char) ℝ (List Out)))
    (hst : CState.run (fparse builtinTab) {} ops = ⟨e.par, e.world.cons, e.world.dvdp⟩)
    (hst' : CState.run (fparse builtinTab) {} ops = ⟨e'.par, e'.world.cons, e'.world.dvdp⟩) (hv : e'.world.vars = e.world.vars)
    (hcur : ∀ x ∈ e.world.curve, x.1.WF) (hcur' : ∀ x ∈ e'.world.curve, x.1.WF)
    (hfresh : ¬ (s.fitRunning = true ∧ e.iter ≠ 0)) (hfresh' : ¬ (s'.fitRunning = true ∧ e'.iter ≠ 0)) (hF : C75.Fair I e.world.cons) (fuel : ℕ)
    (r r' : (Statics ℝ × Eng ℝ (CWorld (List Char) ℝ (List Out))) × Outcome × ℕ)
    (hr : r = refineLoop (constrTheory (I.static dmax)) toler fuel (s, e))
    (hr' : r' = refineLoop (constrTheory (I'.static dmax)) toler fuel (s', e')) :
    (r'.2.1 = .done ↔ r.2.1 = .done) ∧ (r.2.1 = .done → r'.2 = r.2 ∧ SameResults I I' σ dmax r.1.2 r'.1.2) := by
  subst hr hr'
  have hcc := hst.symm.trans hst'
  have h2 : e'.world.cons = e.world.cons := by
    simp only [CState.mk.injEq] at hcc
    exact hcc.2.1.symm
  refine ⟨⟨fun h => ?_, fun h => ?_⟩, fun h => ?_⟩
  · obtain ⟨k, -⟩ := one_way I' I σ.symm (R.ok H) dmax toler ops hn s' s e' e hst' hst hv.symm hcur' hcur hfresh' hfresh
      (by rw [h2]; exact R.fair hF) (twin R.symm (R.ok H) dmax (by rw [h2]; exact R.fair hF)) fuel h
    rw [k]; exact h
  · obtain ⟨k, -⟩ := one_way I I' σ H dmax toler ops hn s s' e e' hst hst' hv hcur hcur' hfresh hfresh' hF (twin R H dmax hF) fuel h
    rw [k]; exact h
  · exact one_way I I' σ H dmax toler ops hn s s' e e' hst hst' hv hcur hcur' hfresh hfresh' hF (twin R H dmax hF) fuel h

/-! ## Example: the structure of C74 fitted to two data sets with the weights 1 and 2, read in both orders -/

section Example
open C74

noncomputable def set2 (obs : List ℝ) (c : ℝ) : SetIn :=
  ⟨⟨C68.span C68.isoD 1 3, 3, 5, obs, [c, c, c, c, c]⟩, [some C60.noSel], fun _ _ => 1⟩

/-- Data set 0 has the weight `c`, data set 1 the weight `d`; `τ` is the order of the variables of the data sets in memory. -/
noncomputable def pair (τ : Equiv.Perm ℕ) (obs : List ℝ) (c d : ℝ) : Input where
  addr := fun v => (setup [1] 2).slots.idxOf (ren τ v)
  phases := [C68.iso (1 / 200)]
  sets := [set2 obs c, set2 obs d]

theorem swap_lt (k : ℕ) : Equiv.swap 0 1 k < 2 ↔ k < 2 := by
  rcases k with _ | _ | k
  · simp
  · simp
  · rw [Equiv.swap_apply_of_ne_of_ne (by omega) (by omega)]

theorem pair_reorder (obs : List ℝ) (c d : ℝ) : Reorder (pair 1 obs c d) (pair (Equiv.swap 0 1) obs d c) (Equiv.swap 0 1) where
  addr x := by
    show (setup [1] 2).slots.idxOf (ren (Equiv.swap 0 1) (ren (Equiv.swap 0 1) x)) = (setup [1] 2).slots.idxOf (ren 1 x)
    congr 1
    cases x <;> simp [ren]
  phases := rfl
  count := rfl
  sets k := by
    rcases k with _ | _ | k
    · simp [pair]
    · simp [pair]
    · rw [Equiv.swap_apply_of_ne_of_ne (by omega) (by omega)]
      rfl

noncomputable def vars2 : ℕ → ℝ := fun a => (((setup [1] 2).slots[a]?).map val1).getD 0

theorem ren_one (x : RVar) : ren 1 x = x := by cases x <;> rfl

theorem pair_addr (obs : List ℝ) (c d : ℝ) (x : RVar) : (pair 1 obs c d).addr x = (setup [1] 2).slots.idxOf x := by
  show (setup [1] 2).slots.idxOf (ren 1 x) = _
  rw [ren_one]

theorem pair_ok (obs : List ℝ) (c d : ℝ) (h : obs.length = 5) : (pair 1 obs c d).Ok where
  sep := by
    intro v w hv hw e
    rw [← C47.complete] at hv
    rw [pair_addr, pair_addr] at e
    exact (List.idxOf_inj hv).1 e
  icc := by
    intro ph hp k
    simp only [pair, List.mem_singleton] at hp
    subst hp
    fin_cases k <;> simp [C68.iso, demo]
  data := by
    intro s hs
    have : ∃ c, s = set2 obs c := by
      simp only [pair, List.mem_cons, List.not_mem_nil, or_false] at hs
      rcases hs with rfl | rfl
      exacts [⟨_, rfl⟩, ⟨_, rfl⟩]
    obtain ⟨c, rfl⟩ := this
    refine ⟨by norm_num [set2, C68.span, C68.isoD], by norm_num [set2, C68.span, C68.isoD], by norm_num [set2, C68.span, C68.isoD],
      by norm_num [set2, C68.span, C68.isoD], by norm_num [set2, C68.span, C68.isoD], h, rfl⟩

theorem vars2_val (x : RVar) (hx : C47.Exists [1] 2 x) : vars2 ((setup [1] 2).slots.idxOf x) = val1 x := by
  rw [← C47.complete] at hx
  unfold vars2
  rw [List.getElem?_eq_getElem (List.idxOf_lt_length_of_mem hx), List.getElem_idxOf]
  rfl

theorem pair_val (obs : List ℝ) (c d : ℝ) (h : obs.length = 5) (x : RVar) (hx : C47.Exists [1] 2 x) :
    (pair 1 obs c d).val (prescribed (pair 1 obs c d) cons1 vars2 (store 2)) x = val1 x := by
  have hsep := (pair_ok obs c d h).sep
  unfold Input.val prescribed
  cases hf : cons1.find? fun c' => c'.addr == (pair 1 obs c d).addr x with
  | some c' =>
    have hm := List.mem_of_find?_eq_some hf
    have ha : c'.addr = (pair 1 obs c d).addr x := by simpa using List.find?_some hf
    simp only [cons1, List.mem_singleton] at hm
    subst hm
    have := hsep x (.pscale 0) hx (by show 0 < 1; norm_num) ha.symm
    subst this
    rfl
  | none =>
    dsimp only
    unfold wrapVars Input.icc
    cases hq : (setup (pair 1 obs c d).natoms (pair 1 obs c d).nset).slots.find? fun v => (pair 1 obs c d).addr v == (pair 1 obs c d).addr x with
    | none => dsimp only; rw [pair_addr]; exact vars2_val x hx
    | some y =>
      have hy : y = x := by
        have h1 := List.mem_of_find?_eq_some hq
        rw [C47.complete] at h1
        have h2 := List.find?_some hq
        exact hsep y x h1 hx (by simpa using h2)
      subst hy
      have e0 : vars2 ((pair 1 obs c d).addr y) = val1 y := by rw [pair_addr]; exact vars2_val _ hx
      cases y with
      | pos ip ia k =>
        dsimp only
        cases (pair 1 obs c d).phases[ip]? with
        | none => exact e0
        | some ph =>
          have e1 : vars2 ((pair 1 obs c d).addr (.pos ip ia k)) = 0 := e0
          simp [e1, fmodK, val1]
      | _ => exact e0

theorem pair_phase (obs : List ℝ) (c d : ℝ) (h : obs.length = 5) :
    phaseFrom ((pair 1 obs c d).val (prescribed (pair 1 obs c d) cons1 vars2 (store 2))) 0 (C68.iso (1 / 200)) = C68.iso (1 / 200) := by
  have hv := pair_val obs c d h
  generalize (pair 1 obs c d).val (prescribed (pair 1 obs c d) cons1 vars2 (store 2)) = f at hv
  have h0 : (0 : ℕ) < 1 := by norm_num
  have ha : ∃ n, [1][0]? = some n ∧ 0 < n := ⟨1, rfl, h0⟩
  have e1 : (fun k => f (.a0 0 k)) = ![3, 3, 3] := by
    funext k
    rw [hv (.a0 0 k) h0]
    fin_cases k <;> rfl
  have e2 : (fun k => f (.win 0 k)) = ![90, 90, 90] := by
    funext k
    rw [hv (.win 0 k) h0]
    fin_cases k <;> rfl
  have e3 : (fun k => f (.pos 0 0 k)) = ![0, 0, 0] := by
    funext k
    rw [hv (.pos 0 0 k) ha]
    fin_cases k <;> rfl
  have e4 : (fun k => f (.u 0 0 k)) = ![1 / 200, 1 / 200, 1 / 200, 0, 0, 0] := by
    funext k
    rw [hv (.u 0 0 k) ha]
    fin_cases k <;> simp [val1]
  have e5 : atomFrom f 0 0 ⟨![0, 0, 0], 1, ![1 / 200, 1 / 200, 1 / 200, 0, 0, 0], 1⟩ =
      ⟨![0, 0, 0], 1, ![1 / 200, 1 / 200, 1 / 200, 0, 0, 0], 1⟩ := by
    unfold atomFrom
    rw [e3, e4, hv (.occ 0 0) ha]
    rfl
  show (⟨⟨fun k => f (.a0 0 k), fun k => f (.win 0 k)⟩, ![1, 1, 1],
    [atomFrom f 0 0 ⟨![0, 0, 0], 1, ![1 / 200, 1 / 200, 1 / 200, 0, 0, 0], 1⟩], f (.delta2 0), f (.delta1 0), 0, f (.sratio 0), 0,
    f (.spdiameter 0), f (.pscale 0)⟩ : PPhase) = _
  rw [e1, e2, e5, hv (.delta2 0) h0, hv (.delta1 0) h0, hv (.sratio 0) h0, hv (.spdiameter 0) h0, hv (.pscale 0) h0]
  rfl

theorem pair_sel (obs : List ℝ) (c d e : ℝ) (h : obs.length = 5) :
    (pair 1 obs c d).sel (prescribed (pair 1 obs c d) cons1 vars2 (store 2)) (set2 obs e) = [some (C68.iso (1 / 200), C60.noSel)] := by
  have e : Input.sel (pair 1 obs c d) (prescribed (pair 1 obs c d) cons1 vars2 (store 2)) (set2 obs e) =
      [some (phaseFrom ((pair 1 obs c d).val (prescribed (pair 1 obs c d) cons1 vars2 (store 2))) 0 (C68.iso (1 / 200)), C60.noSel)] := rfl
  rw [e, pair_phase obs c d h]

theorem pair_dat (obs : List ℝ) (c d e : ℝ) (h : obs.length = 5) {is : ℕ} (h0 : is < 2) :
    (pair 1 obs c d).dat (prescribed (pair 1 obs c d) cons1 vars2 (store 2)) is (set2 obs e) = C68.span C68.isoD 1 3 := by
  have hv := pair_val obs c d h
  unfold Input.dat dataFrom
  rw [hv (.dscale is) h0, hv (.qdamp is) h0, hv (.qbroad is) h0]
  rfl

theorem pair_set (obs : List ℝ) (c d : ℝ) {is : ℕ} {s : SetIn} (hs : (pair 1 obs c d).sets[is]? = some s) :
    is < 2 ∧ ∃ e, (e = c ∨ e = d) ∧ s = set2 obs e := by
  have h1 : is < 2 := (List.getElem?_eq_some_iff.1 hs).1
  refine ⟨h1, ?_⟩
  have := List.mem_of_getElem? hs
  simp only [pair, List.mem_cons, List.not_mem_nil, or_false] at this
  rcases this with rfl | rfl
  exacts [⟨_, .inl rfl, rfl⟩, ⟨_, .inr rfl, rfl⟩]

theorem pair_num (obs : List ℝ) (c d : ℝ) (h : obs.length = 5) : (pair 1 obs c d).Num (prescribed (pair 1 obs c d) cons1 vars2 (store 2)) := by
  refine ⟨?_, ?_⟩
  · intro ip hip
    have hip : ip = 0 := by
      have : ip < 1 := hip
      omega
    subst hip
    have := (C68.iso_fine (1 / 200)).acc
    have e := congrArg PPhase.cell (pair_phase obs c d h)
    obtain ⟨m, hm⟩ := this
    exact ⟨m, by rw [← hm]; exact congrArg lattice e⟩
  · intro is s hs
    obtain ⟨h0, e, -, rfl⟩ := pair_set obs c d hs
    rw [pair_dat obs c d e h h0, pair_sel obs c d e h]
    obtain ⟨f, hf, -⟩ := C71.iso_base
    exact ⟨f, hf⟩

theorem pair_mix (obs : List ℝ) (c d : ℝ) (hc : 0 ≤ c) (hd : 0 ≤ d) (h : obs.length = 5) : Mix (pair 1 obs c d) (store 2) cons1 vars2 where
  one := by simp [cons1]
  scale := by
    intro c hc
    simp only [cons1, List.mem_singleton] at hc
    subst hc
    exact ⟨0, by show 0 < 1; norm_num, rfl⟩
  lin := (cubic_mix obs h).lin
  num := pair_num obs c d h
  weight := by
    intro s hs i _
    obtain ⟨is, his⟩ := List.getElem?_of_mem hs
    obtain ⟨-, e, he, rfl⟩ := pair_set obs c d his
    have : 0 ≤ e := by rcases he with rfl | rfl <;> assumption
    show 0 ≤ [e, e, e, e, e].getD i.toNat 0
    rcases i.toNat with _ | _ | _ | _ | _ | n <;> simp [this]

theorem pair_curve (obs : List ℝ) (c d : ℝ) (hc : 0 ≤ c) (hd : 0 ≤ d) (h : obs.length = 5) (x : ℝ) {is : ℕ} {s : SetIn}
    (hs : (pair 1 obs c d).sets[is]? = some s) (i : ℤ) (hi : i ∈ grid (C68.span C68.isoD 1 3).nfmin (C68.span C68.isoD 1 3).nfmax) :
    (pair 1 obs c d).curveOf (prescribed (pair 1 obs c d) cons1 vars2 (store x)) is s i =
      x * (pair 1 obs c d).unit (prescribed (pair 1 obs c d) cons1 vars2 (store 2)) is s 0 i := by
  have H := pair_ok obs c d h
  have hoff := (pair_mix obs c d hc hd h).off H (store x)
  obtain ⟨-, e, -, rfl⟩ := pair_set obs c d hs
  rw [Input.mix H (hoff.num H (pair_num obs c d h)) hs i hi]
  show ∑ ip ∈ Finset.range 1, _ = _
  rw [Finset.sum_range_one, hoff.unit hs]
  congr 1

/-- At the start both curves are twice those of the phase. -/
theorem pair_start (obs : List ℝ) (c d : ℝ) (h : obs.length = 5) {is : ℕ} {s : SetIn}
    (hs : (pair 1 obs c d).sets[is]? = some s) :
    ∃ f, determine (C68.span C68.isoD 1 3) [some (C68.iso (1 / 200), C60.noSel)] = .ok (some f) ∧
      (pair 1 obs c d).curveOf (prescribed (pair 1 obs c d) cons1 vars2 (store 2)) is s = f := by
  obtain ⟨h0, e, -, rfl⟩ := pair_set obs c d hs
  obtain ⟨f, hf, -⟩ := C71.iso_base
  refine ⟨f, hf, ?_⟩
  unfold Input.curveOf
  rw [pair_dat obs c d e h h0, pair_sel obs c d e h, hf]

theorem cubic_start (obs : List ℝ) (h : obs.length = 5) :
    ∃ f, determine (C68.span C68.isoD 1 3) [some (C68.iso (1 / 200), C60.noSel)] = .ok (some f) ∧
      (cubic obs).curveOf (prescribed (cubic obs) cons1 vars1 (store 2)) 0 (set1 obs) = f := by
  obtain ⟨f, hf, -⟩ := C71.iso_base
  refine ⟨f, hf, ?_⟩
  unfold Input.curveOf
  rw [cubic_dat obs h, cubic_sel obs h, hf]

/-- The curves are those of the fit with one data set. -/
theorem pair_cubic (obs : List ℝ) (c d : ℝ) (hc : 0 ≤ c) (hd : 0 ≤ d) (h : obs.length = 5) (x : ℝ) {is : ℕ} {s : SetIn}
    (hs : (pair 1 obs c d).sets[is]? = some s) (i : ℤ) (hi : i ∈ grid (C68.span C68.isoD 1 3).nfmin (C68.span C68.isoD 1 3).nfmax) :
    (pair 1 obs c d).curveOf (prescribed (pair 1 obs c d) cons1 vars2 (store x)) is s i =
      (cubic obs).curveOf (prescribed (cubic obs) cons1 vars1 (store x)) 0 (set1 obs) i := by
  obtain ⟨f, hf, e⟩ := pair_start obs c d h hs
  obtain ⟨g, hg, e'⟩ := cubic_start obs h
  rw [hf] at hg
  cases hg
  have h1 := pair_curve obs c d hc hd h 2 hs i hi
  have h2 := cubic_curve obs h 2 i hi
  rw [pair_curve obs c d hc hd h x hs i hi, cubic_curve obs h x i hi]
  rw [e] at h1
  rw [e'] at h2
  have : (pair 1 obs c d).unit (prescribed (pair 1 obs c d) cons1 vars2 (store 2)) is s 0 i =
      (cubic obs).unit (prescribed (cubic obs) cons1 vars1 (store 2)) 0 (set1 obs) 0 i := by linarith
  rw [this]

theorem pair_ident (obs : List ℝ) (c d : ℝ) (hc : 0 < c) (hd : 0 ≤ d) (h : obs.length = 5) : Identified (pair 1 obs c d) (store 2) cons1 vars2 := by
  intro par hs he i hi
  rw [free1, Finset.mem_singleton] at hi
  subst hi
  have h1 := he 0 (set2 obs c) rfl 0 zero_mem hc.ne'
  rw [same1 hs, pair_cubic obs c d hc.le hd h _ rfl 0 zero_mem, pair_cubic obs c d hc.le hd h _ rfl 0 zero_mem, cubic_curve obs h _ 0 zero_mem,
    cubic_curve obs h _ 0 zero_mem] at h1
  exact mul_right_cancel₀ (cubic_unit obs h) h1

noncomputable def eng2 (dv : Mat ℝ) : Eng ℝ (CWorld (List Char) ℝ (List Out)) :=
  ⟨store 2, ⟨vars2, cons1, dv, [], []⟩, 0, 0, 0, 0, 0, fun _ _ => 0, fun _ _ => 0, [], 0⟩

def calls : List (COp (List Char) ℝ) := [.setpar 1 2, .int ((setup [1] 1).slots.idxOf (.pscale 0)) 1 .ident]

theorem data5_zero (c d : ℝ) (hc : 0 ≤ c) (hd : 0 ≤ d) : chi (pair 1 data5 c d) (prescribed (pair 1 data5 c d) cons1 vars2 (store 5)) = 0 := by
  have h5 : data5.length = 5 := by simp [data5]
  unfold chi over
  refine List.sum_eq_zero fun x hx => ?_
  obtain ⟨is, his, rfl⟩ := List.mem_mapIdx.1 hx
  have hs := List.getElem?_eq_getElem his
  obtain ⟨-, e, -, he⟩ := pair_set data5 c d hs
  refine List.sum_eq_zero fun y hy => ?_
  obtain ⟨i, hi, rfl⟩ := List.mem_map.1 hy
  have nf := C68.isoD_nf (lo := 1) (hi := 3)
  have hi1 : i ∈ grid (C68.span C68.isoD 1 3).nfmin (C68.span C68.isoD 1 3).nfmax := by rw [he] at hi; exact hi
  have hi2 := hi1
  rw [mem_grid] at hi2
  rw [nf.1, nf.2, show ((1 : ℝ) - 1) * 2 = ((0 : ℤ) : ℝ) by norm_num, nint_int,
    show ((3 : ℝ) - 1) * 2 = ((4 : ℤ) : ℝ) by norm_num, nint_int] at hi2
  have : data5.getD i.toNat 0 = (pair 1 data5 c d).curveOf (prescribed (pair 1 data5 c d) cons1 vars2 (store 5)) is
      (pair 1 data5 c d).sets[is] i := by
    rw [pair_cubic data5 c d hc hd h5 5 hs i hi1, data5_get data5 i.toNat (by omega), Int.toNat_of_nonneg hi2.1]
  dsimp only
  rw [← this, show (pair 1 data5 c d).sets[is].d.obs = data5 by rw [he]; rfl]
  ring

theorem pair_done (c d : ℝ) (hc : 0 < c) (hd : 0 ≤ d) (dv : Mat ℝ) (hdv : CState.run (fparse builtinTab) {} calls = ⟨store 2, cons1, dv⟩) :
    let r := refineLoop (constrTheory ((pair 1 data5 c d).static 1000000)) (1 / 1000) 101 ({}, eng2 dv)
    r.2.1 = .done ∧ |r.1.2.par.p.getD 0 0 - 5| ≤ 3 / 10 ^ 18 := by
  have h5 : data5.length = 5 := by simp [data5]
  have hnn : ∀ v, 0 ≤ chi (pair 1 data5 c d) v := by
    intro v
    unfold chi over
    refine List.sum_nonneg fun x hx => ?_
    obtain ⟨is, his, rfl⟩ := List.mem_mapIdx.1 hx
    refine List.sum_nonneg fun y hy => ?_
    obtain ⟨i, hi, rfl⟩ := List.mem_map.1 hy
    exact mul_nonneg ((pair_mix data5 c d hc.le hd h5).weight _ (List.getElem_mem _) i hi) (sq_nonneg _)
  obtain ⟨h1, h2⟩ := C74_one_parameter (pair 1 data5 c d) (pair_ok _ c d h5) 1000000 (1 / 1000) calls (by simp [calls, C08.NoRepl]; rfl) {} (eng2 dv)
    hdv (fun x hx => absurd hx List.not_mem_nil) (by simp) (pair_mix _ c d hc.le hd h5) (pair_ident _ c d hc hd h5) 0 (free1 2) 101 le_rfl _ rfl (store 5)
    ⟨rfl, rfl, rfl, fun i hi hf => by
      have hi : i < 1 := hi
      have : i = 0 := by omega
      subst this
      cases hf⟩ (fun par _ => by
      show chi (pair 1 data5 c d) (prescribed (pair 1 data5 c d) cons1 vars2 (store 5)) ≤ _
      rw [data5_zero c d hc.le hd]
      exact hnn _)
  refine ⟨h1, ?_⟩
  have e : |(eng2 dv).par.p.getD 0 0 - (store 5).p.getD 0 0| = 3 := by
    show |(2 : ℝ) - 5| = 3
    norm_num
  rw [e] at h2
  exact h2

theorem pair_fair : C75.Fair (pair 1 data5 1 2) cons1 where
  one := by simp [cons1]
  assigns := C75.cubic_fair.assigns
  target := by
    intro c hc
    simp only [cons1, List.mem_singleton] at hc
    subst hc
    exact ⟨.pscale 0, by show 0 < 1; norm_num, rfl⟩

/-- With the data sets exchanged `refine()` returns too, with the same parameter, and the calculated values are exchanged. -/
example : ∃ dv, CState.run (fparse builtinTab) {} calls = ⟨store 2, cons1, dv⟩ ∧
    let r := refineLoop (constrTheory ((pair 1 data5 1 2).static 1000000)) (1 / 1000) 101 ({}, eng2 dv)
    let r' := refineLoop (constrTheory ((pair (Equiv.swap 0 1) data5 2 1).static 1000000)) (1 / 1000) 101 ({}, eng2 dv)
    r'.2.1 = .done ∧ |r'.1.2.par.p.getD 0 0 - 5| ≤ 3 / 10 ^ 18 ∧ r'.1.2.getrw = r.1.2.getrw ∧
      (Modelled (pair (Equiv.swap 0 1) data5 2 1) 1000000 r'.1.2.world)[1]? = (Modelled (pair 1 data5 1 2) 1000000 r.1.2.world)[0]? := by
  refine ⟨(CState.run (fparse builtinTab) {} calls).dvdp, rfl, ?_⟩
  generalize hdv : (CState.run (fparse builtinTab) {} calls).dvdp = dv
  have hrun : CState.run (fparse builtinTab) {} calls = ⟨store 2, cons1, dv⟩ := by rw [← hdv]; rfl
  obtain ⟨h1, h2⟩ := pair_done 1 2 one_pos (by norm_num) dv hrun
  obtain ⟨-, h⟩ := C96_order _ _ _ (pair_reorder data5 1 2) (pair_ok _ 1 2 (by simp [data5])) 1000000 (1 / 1000) calls (by simp [calls, C08.NoRepl]; rfl)
    {} {} (eng2 dv) (eng2 dv) hrun hrun rfl (fun x hx => absurd hx List.not_mem_nil) (fun x hx => absurd hx List.not_mem_nil) (by simp) (by simp)
    pair_fair 101 _ _ rfl rfl
  obtain ⟨h3, h4⟩ := h h1
  refine ⟨by rw [h3]; exact h1, by rw [h4.par]; exact h2, h4.rw, ?_⟩
  have := h4.mod 0
  rwa [Equiv.swap_apply_left] at this

end Example

end Pdffit.C96
