import Verif.Model.Figures
import Verif.Props.C79

/-!
# C80: `getrw` and `getcrw` after `calc()`

The figures of merit should be those of the curve that `getpdf_fit` shows. They belong to the last refinement: no other call changes them
(`C80_kept`), except for the normalisation of `getcrw` (`C80_crw`). So the claim holds for `calc()` directly after a finished `refine()`
(`C80_after_refine_partial`), and fails after a change of parameters (`C80_stale`), before the first refinement (`C80_first`), after `pdfrange`
(`C80_length`) and after reading more data (`C80_shrinks`).
-/

namespace Pdffit.C80
open Geom Det Deriv Layout Conf Full Calc C79 _root_.Pdffit.Parser

theorem calcSet_cum {I : Input} {v : ℕ → ℝ} {is : ℕ} {s : SetIn} {o : SetSt} {r : SetSt × ℝ × ℤ} (h : calcSet I v is s o = .ok r) :
    r.1.cum = o.cum := by
  unfold calcSet at h
  cases h1 : determine (I.dat v is s) (I.sel v s) with
  | ok t =>
    rw [h1] at h
    cases h2 : wsq s with
    | ok w =>
      rw [h2] at h
      cases h
      rfl
    | err e => rw [h2] at h; cases h
    | ub => rw [h2] at h; cases h
  | err e => rw [h1] at h; cases h
  | ub => rw [h1] at h; cases h

theorem calcSets_cum (I : Input) (v : ℕ → ℝ) : ∀ (l : List SetIn) (is : ℕ) (c : List SetSt) (wn : ℝ) (nt : ℤ),
    (calcSets I v is l c wn nt).2.1.map SetSt.cum = c.map SetSt.cum
  | [], _, c, _, _ => by cases c <;> rfl
  | _ :: _, _, [], _, _ => rfl
  | s :: l, is, o :: c, wn, nt => by
    rw [calcSets]
    cases h : calcSet I v is s o with
    | ok r =>
      dsimp only
      rw [List.map_cons, List.map_cons, calcSets_cum I v l, calcSet_cum h]
    | err e => rfl
    | ub => rfl

theorem calculate_cum (s : St) : (calculate s).2.rw = s.rw ∧ (calculate s).2.sets.map SetSt.cum = s.sets.map SetSt.cum := by
  unfold calculate
  split
  · exact ⟨rfl, rfl⟩
  · dsimp only
    split
    · exact ⟨rfl, rfl⟩
    · exact ⟨rfl, rfl⟩
    · split
      · exact ⟨rfl, rfl⟩
      · exact ⟨rfl, calcSets_cum _ _ _ _ _ _ _⟩

/-- **C80** No call except refinement changes `getrw` or the sums behind `getcrw`, whatever the calls are and whether they raise. -/
theorem C80_kept (ops : List Op) : ∀ s : St, (run s ops).rw = s.rw ∧
    ∀ (is : ℕ) o, s.sets[is]? = some o → ∃ o', (run s ops).sets[is]? = some o' ∧ o'.cum = o.cum := by
  have key : ∀ (s : St) (op : Op), (exec s op).rw = s.rw ∧ s.sets.map SetSt.cum <+: (exec s op).sets.map SetSt.cum := by
    intro s op
    cases op with
    | compute =>
      obtain ⟨h1, h2⟩ := calculate_cum s
      refine ⟨h1, ?_⟩
      show _ <+: (calculate s).2.sets.map SetSt.cum
      rw [h2]
    | read d =>
      refine ⟨rfl, ?_⟩
      show _ <+: (s.sets ++ _).map SetSt.cum
      rw [List.map_append]
      exact List.prefix_append _ _
    | _ => exact ⟨rfl, List.prefix_rfl⟩
  have all : ∀ s : St, (run s ops).rw = s.rw ∧ s.sets.map SetSt.cum <+: (run s ops).sets.map SetSt.cum := by
    induction ops with
    | nil => exact fun s => ⟨rfl, List.prefix_rfl⟩
    | cons op l ih =>
      intro s
      obtain ⟨h1, h2⟩ := ih (exec s op)
      obtain ⟨h3, h4⟩ := key s op
      exact ⟨h1.trans h3, h4.trans h2⟩
  intro s
  obtain ⟨h1, h2⟩ := all s
  refine ⟨h1, fun is o ho => ?_⟩
  have hl : is < s.sets.length := (List.getElem?_eq_some_iff.1 ho).1
  obtain ⟨t, ht⟩ := h2
  have := congrArg (·[is]?) ht
  rw [List.getElem?_append_left (by simpa using hl), List.getElem?_map, List.getElem?_map, ho, Option.map_some] at this
  cases h3 : (run s ops).sets[is]? with
  | none => rw [h3] at this; cases this
  | some o' =>
    rw [h3] at this
    exact ⟨o', rfl, (Option.some.inj this).symm⟩

theorem norm_eq (I : Input) : (I.sets.map setNorm).sum = C75.norm I := by
  unfold C75.norm C74.over
  congr 1
  refine List.ext_getElem (by simp) fun n h1 h2 => ?_
  rw [List.getElem_map, List.getElem_mapIdx]
  rfl

/-- **C80** After a `calc()` that returns, `getcrw` is formed with the norm of the data in the fit ranges at that time. -/
theorem C80_crw {s s' : St} (h : Wf s) (hc : calculate s = (.ok (), s')) : s'.wnorm = C75.norm s.I ∧
    ∀ (is : ℕ) o, s.sets[is]? = some o → ∃ o', s'.sets[is]? = some o' ∧
      getcrw s' o' = o.cum.map fun x => √(x * if 0 < C75.norm s.I then 1 / C75.norm s.I else 1) := by
  obtain ⟨h1, h2, h3⟩ := (returns_iff h).1 (by rw [hc])
  have hk := C80_kept [.compute] s
  have hr : run s [.compute] = s' := by
    show (calculate s).2 = s'
    rw [hc]
  rw [hr] at hk
  have hw : s'.wnorm = C75.norm s.I := by
    rw [calculate_ok h h1 h2 h3] at hc
    obtain rfl := (Prod.mk.inj hc).2
    exact norm_eq s.I
  refine ⟨hw, fun is o ho => ?_⟩
  obtain ⟨o', e1, e2⟩ := hk.2 is o ho
  refine ⟨o', e1, ?_⟩
  unfold getcrw
  rw [hw, e2]

/-- **C80** (part) When the norm in use is that of the present data (as after a refinement or a calculation with the same data and fit ranges),
`calc()` keeps `getcrw`. -/
theorem C80_crw_partial {s s' : St} (h : Wf s) (hc : calculate s = (.ok (), s')) (hn : s.wnorm = C75.norm s.I) :
    ∀ (is : ℕ) o, s.sets[is]? = some o → ∃ o', s'.sets[is]? = some o' ∧ getcrw s' o' = getcrw s o := by
  intro is o ho
  obtain ⟨o', e1, e2⟩ := (C80_crw h hc).2 is o ho
  refine ⟨o', e1, ?_⟩
  rw [e2, ← hn]
  rfl

theorem sum_zip {s s' : St} (h : Wf s) (hc : calculate s = (.ok (), s')) (hn : Input.Num s.I s'.vars) (f : SetIn → ℤ → ℝ → ℝ) :
    ((s'.I.sets.zip s'.sets).map fun x => (List.zipWith (fun i y => x.1.d.wic.getD i.toNat 0 * f x.1 i y) (grid x.2.nfmin x.2.nfmax)
      ((getpdf_fit x.2).getD [])).sum).sum = C74.over s.I fun is d i => f d i (s.I.curveOf s'.vars is d i) := by
  obtain ⟨h1, h2, h3⟩ := (returns_iff h).1 (by rw [hc])
  rw [calculate_ok h h1 h2 h3] at hc
  obtain rfl := (Prod.mk.inj hc).2
  unfold C74.over
  congr 1
  set v := s.I.vars s.cons s.vars s.par with hv
  have hn : Input.Num s.I v := hn
  have hl : ((s.I.sets.zip s.sets).mapIdx fun k x => after s.I v k x.1 x.2).length = s.I.sets.length := by
    rw [List.length_mapIdx, List.length_zip, h.sets, Nat.min_self]
  refine List.ext_getElem ?_ fun n k1 k2 => ?_
  · rw [List.length_map, List.length_zip, List.length_mapIdx]
    show min s.I.sets.length ((s.I.sets.zip s.sets).mapIdx fun k x => after s.I v k x.1 x.2).length = _
    rw [hl, Nat.min_self]
  · rw [List.length_mapIdx] at k2
    have hd : s.I.sets[n]? = some s.I.sets[n] := List.getElem?_eq_getElem k2
    obtain ⟨o, g1, g2⟩ := after_get h v hd
    rw [List.getElem_map, List.getElem_mapIdx, List.getElem_zip]
    have e1 : (next s (fillVariables (fparse builtinTab) s.par s.cons s.vars s.dvdp).2.2.1).sets[n]'(by
        show n < ((s.I.sets.zip s.sets).mapIdx fun k x => after s.I v k x.1 x.2).length
        rw [hl]; exact k2) = after s.I v n s.I.sets[n] o := by
      have g2 : (next s (fillVariables (fparse builtinTab) s.par s.cons s.vars s.dvdp).2.2.1).sets[n]? = _ := g2
      exact (List.getElem?_eq_some_iff.1 g2).2
    rw [e1]
    have e2 : getpdf_fit (after s.I v n s.I.sets[n] o) = some ((grid s.I.sets[n].d.D.nfmin s.I.sets[n].d.D.nfmax).map (s.I.curveOf v n s.I.sets[n])) := by
      rw [vals_get (Input.dat_ok h.input (List.getElem_mem k2) v n) _ rfl rfl (some (s.I.curveOf v n s.I.sets[n])) ?_]
      · rfl
      · show toCurve _ _ = toCurve _ _
        congr 1
        unfold pdfOf
        rw [hn.curve hd]
    rw [e2, Option.getD_some]
    show (List.zipWith _ (grid s.I.sets[n].d.D.nfmin s.I.sets[n].d.D.nfmax) _).sum = _
    rw [List.zipWith_map_right, List.zipWith_self]
    rfl

/-- The residual of what is shown after `calc()` is that of the PDF of the structure. -/
theorem shown_eq {s s' : St} (h : Wf s) (hc : calculate s = (.ok (), s')) (hn : Input.Num s.I s'.vars) : shown s' = C75.residual s.I s'.vars := by
  unfold shown C75.residual
  dsimp only
  have a := sum_zip h hc hn fun d i y => (d.d.obs.getD i.toNat 0 - y) ^ 2
  have b := sum_zip h hc hn fun d i _ => d.d.obs.getD i.toNat 0 ^ 2
  rw [a, b]
  rfl

/-- **C80** (part) `calc()` after a `refine()` that returned: `getrw` is the residual of the curves that are shown. Missing: other calls in between, see
`C80_stale`, `C80_length` and `C80_shrinks`. -/
theorem C80_after_refine_partial (I : Input) (H : I.Ok) (hne : I.sets ≠ []) (hpos : 0 < C75.norm I) (dmax toler : ℝ)
    (ops : List (COp (List Char) ℝ)) (hn : C08.NoRepl (fparse builtinTab) {} ops)
    (s : Statics ℝ) (e : Eng ℝ (CWorld (List Char) ℝ (List Out)))
    (hst : CState.run (fparse builtinTab) {} ops = ⟨e.par, e.world.cons, e.world.dvdp⟩) (hcur : ∀ x ∈ e.world.curve, x.1.WF)
    (hfresh : ¬ (s.fitRunning = true ∧ e.iter ≠ 0)) (hF : C75.Fair I e.world.cons) (fuel : ℕ)
    (r : (Statics ℝ × Eng ℝ (CWorld (List Char) ℝ (List Out))) × Outcome × ℕ)
    (hr : r = refineLoop (constrTheory (I.static dmax)) toler fuel (s, e)) (hdone : r.2.1 = .done)
    (t : St) (h1 : t.I = I) (h2 : t.par = r.1.2.par) (h3 : t.vars = r.1.2.world.vars) (h4 : t.cons = r.1.2.world.cons)
    (h5 : t.dvdp = r.1.2.world.dvdp) (h6 : t.sets.length = I.sets.length) (h7 : t.rw = r.1.2.getrw) :
    ∃ t', calculate t = (.ok (), t') ∧ t'.rw = shown t' := by
  obtain ⟨hw, -, -, t', g1, g2, -⟩ := after_refine I H hne dmax toler ops hn s e hst hcur hfresh hF fuel r hr hdone t h1 h2 h3 h4 h5 h6
  obtain ⟨k1, k2, -, -, -, k3⟩ := C75.C75_refine I H dmax toler ops hn s e hst hcur hfresh hF fuel _ rfl r hr hdone
  refine ⟨t', g1, ?_⟩
  have hv : t'.vars = C75.structureAt I e.world.cons e.world.vars r.1.2.par := by rw [g2, h3, k1]
  rw [shown_eq hw g1 (by rw [hv, h1]; exact k2), hv, h1, ← (k3 hpos).1, ← h7]
  have := (calculate_cum t).1
  rw [g1] at this
  exact this

theorem wf_pdfrange {s : St} (h : Wf s) (is : ℕ) (lo hi : ℝ) : Wf (exec s (.pdfrange is lo hi)) := by
  have hl : (range s.I.sets is lo hi).length = s.I.sets.length := by unfold range; rw [List.length_mapIdx]
  refine ⟨⟨?_, h.input.icc, ?_⟩, h.par, h.dvdp, ?_⟩
  · intro v w hv hw e
    have hn : Input.nset { s.I with sets := range s.I.sets is lo hi } = s.I.nset := hl
    change C47.Exists s.I.natoms (Input.nset { s.I with sets := range s.I.sets is lo hi }) _ at hv hw
    rw [hn] at hv hw
    exact h.input.sep v w hv hw e
  · intro x hx
    obtain ⟨n, hn, rfl⟩ := List.mem_mapIdx.1 hx
    have h0 := h.input.data _ (List.getElem_mem hn)
    split
    · split
      · rename_i d' hd'
        exact C30.range_inv hd' h0
      · exact h0
    · exact h0
  · show s.sets.length = (range s.I.sets is lo hi).length
    rw [hl, h.sets]

/-- **C80** Violation: after `pdfrange` and `calc()`, `getR` and `getpdf_fit` have as many numbers as the new fit range has points, `getcrw` as many
as the range of the last refinement. -/
theorem C80_length {s s' : St} (h : Wf s) {is : ℕ} {d : SetIn} {o : SetSt} (hd : s.I.sets[is]? = some d) (ho : s.sets[is]? = some o) {lo hi : ℝ}
    {d' : DSet} (hr : d.d.range lo hi = .ok d') (hc : calculate (exec s (.pdfrange is lo hi)) = (.ok (), s')) :
    ∃ o', s'.sets[is]? = some o' ∧ (getR { d with d := d' } o').length = (d'.D.nfmax + 1 - d'.D.nfmin).toNat ∧
      (∀ l, getpdf_fit o' = some l → l.length = (d'.D.nfmax + 1 - d'.D.nfmin).toNat) ∧ (getcrw s' o').length = o.cum.length := by
  have hw := wf_pdfrange h is lo hi
  obtain ⟨h1, h2, h3⟩ := (returns_iff hw).1 (by rw [hc])
  obtain ⟨o', g1, g2⟩ := (C80_crw hw hc).2 is o ho
  have hd' : (exec s (.pdfrange is lo hi)).I.sets[is]? = some { d with d := d' } := by
    show (range s.I.sets is lo hi)[is]? = _
    unfold range
    rw [List.getElem?_mapIdx, hd, Option.map_some, if_pos rfl, hr]
  rw [calculate_ok hw h1 h2 h3] at hc
  obtain rfl := (Prod.mk.inj hc).2
  obtain ⟨o1, k1, k2⟩ := after_get hw ((exec s (.pdfrange is lo hi)).I.vars (exec s (.pdfrange is lo hi)).cons (exec s (.pdfrange is lo hi)).vars
    (exec s (.pdfrange is lo hi)).par) hd'
  have e : some o' = some _ := g1.symm.trans k2
  obtain rfl := Option.some.inj e
  refine ⟨_, g1, ?_, fun l hl => ?_, by rw [g2, List.length_map]⟩
  · unfold getR grid
    rw [List.length_map, List.length_map, List.length_range]
    rfl
  · unfold getpdf_fit at hl
    split at hl
    · split at hl
      · cases hl
        unfold grid
        rw [List.length_map, List.length_map, List.length_range]
        rfl
      · cases hl
    · cases hl

/-- **C80** Violation: after reading one more data set (of norm `setNorm d`) and `calc()`, every number of `getcrw` of the other data sets is smaller by the
same factor below 1, although nothing of their fit has changed; `getrw` is as before. -/
theorem C80_shrinks {s s' : St} {d : SetIn} (hw : Wf (exec s (.read d))) (hn : s.wnorm = C75.norm s.I) (hp : 0 < C75.norm s.I) (hd : 0 < setNorm d)
    (hc : calculate (exec s (.read d)) = (.ok (), s')) :
    ∃ c, c < 1 ∧ s'.rw = s.rw ∧ ∀ (is : ℕ) o, s.sets[is]? = some o → ∃ o', s'.sets[is]? = some o' ∧
      getcrw s' o' = (getcrw s o).map fun x => x * c := by
  have hN : C75.norm (exec s (.read d)).I = C75.norm s.I + setNorm d := by
    rw [← norm_eq, ← norm_eq]
    show ((s.I.sets ++ [d]).map setNorm).sum = _
    simp
  refine ⟨√(C75.norm s.I / (C75.norm s.I + setNorm d)), ?_, ?_, fun is o ho => ?_⟩
  · rw [Real.sqrt_lt' one_pos, one_pow, div_lt_one (by linarith)]
    linarith
  · have := (calculate_cum (exec s (.read d))).1
    rw [hc] at this
    exact this
  · obtain ⟨o', g1, g2⟩ := (C80_crw hw hc).2 is o (by
      show (s.sets ++ _)[is]? = _
      rw [List.getElem?_append_left (List.getElem?_eq_some_iff.1 ho).1, ho])
    refine ⟨o', g1, ?_⟩
    rw [g2, hN, if_pos (by linarith)]
    unfold getcrw
    rw [hn, if_pos hp, List.map_map]
    refine List.map_congr_left fun x _ => ?_
    show _ = √(x * (1 / C75.norm s.I)) * _
    rw [← Real.sqrt_mul' _ (by positivity)]
    congr 1
    have : C75.norm s.I + setNorm d ≠ 0 := by linarith
    field_simp

/-- Variables after an evaluation at other parameters. -/
theorem vars_over {I : Input} (H : I.Ok) (cs : List (Constr (List Char))) (v : ℕ → ℝ) (par par' : ParStore ℝ)
    (ha : ∀ c ∈ cs, ∃ r, cres (fparse builtinTab) par' c = .ok r) : I.vars cs (I.vars cs v par) par' = I.vars cs v par' := by
  funext a
  by_cases hc : ∃ c ∈ cs, c.addr = a ∧ c.assigns
  · unfold Input.vars
    simp only [wrapVars]
    rw [cstep_assigned cs a ha _ v (.inl hc)]
  · have hc' : ∀ c ∈ cs, c.addr = a → ¬ c.assigns := fun c hc1 h1 h2 => hc ⟨c, hc1, h1, h2⟩
    have e3 : ∀ (u : ℕ → ℝ) (p : ParStore ℝ), I.vars cs u p a = wrapVars I.icc u a := by
      intro u p
      unfold Input.vars
      simp only [wrapVars]
      rw [cstep_other cs a hc']
    have e := wrapVars_idem (S := I.static 0) (I.icc_pos H) v a
    rw [e3, e3]
    have e4 : wrapVars I.icc (I.vars cs v par) a = wrapVars I.icc (wrapVars I.icc v) a := by
      unfold wrapVars at e3 ⊢
      rw [e3]
    rw [e4]
    exact e

/-! ## Examples and witnesses -/

open C74

theorem cubic_chi (x : ℝ) : chi (cubic data5) (prescribed (cubic data5) cons1 vars1 (store x)) = ((x - 5) / 5) ^ 2 * C75.norm (cubic data5) := by
  unfold chi C75.norm
  rw [C75.cubic_over, C75.cubic_over, ← List.sum_map_mul_left]
  congr 1
  refine List.map_congr_left fun i hi => ?_
  rw [show (set1 data5).d.obs = data5 from rfl, C75.data5_unit hi, cubic_curve data5 C75.data5_length x i hi]
  ring

theorem cubic_vars (x : ℝ) : (cubic data5).vars cons1 vars1 (store x) = prescribed (cubic data5) cons1 vars1 (store x) := by
  refine C74.vars_eq (cubic_ok _ C75.data5_length) (cubic_mix _ C75.data5_length) ?_
  intro c hc
  simp only [cons1, List.mem_singleton] at hc
  subst hc
  exact ⟨x, rfl⟩

theorem cubic_residual (x : ℝ) : C75.residual (cubic data5) ((cubic data5).vars cons1 vars1 (store x)) = |x - 5| / 5 := by
  unfold C75.residual
  rw [cubic_vars, cubic_chi, mul_div_assoc, div_self C75.cubic_norm.ne', mul_one, Real.sqrt_sq_eq_abs, abs_div, abs_of_pos (show (0 : ℝ) < 5 by norm_num)]

theorem cubic_numx (x : ℝ) : (cubic data5).Num ((cubic data5).vars cons1 vars1 (store x)) := by
  rw [cubic_vars]
  exact ((cubic_mix data5 C75.data5_length).off (cubic_ok _ C75.data5_length) (store x)).num (cubic_ok _ C75.data5_length) (cubic_num data5 C75.data5_length)

theorem cubic_evaluates (x : ℝ) : ∀ c ∈ cons1, ∃ r, cres (fparse builtinTab) (store x) c = .ok r := by
  intro c hc
  simp only [cons1, List.mem_singleton] at hc
  subst hc
  exact cres_of_value (y := x) rfl

/-- **C80** Violation: before the first refinement `getrw` is 1 and `getcrw` is empty, whatever is calculated; here the calculated curve is the data. -/
theorem C80_first : ∃ s' : St, calculate (fresh (store 5) vars1 cons1) = (.ok (), s') ∧ shown s' = 0 ∧ s'.rw = 1 ∧ ∀ o ∈ s'.sets, getcrw s' o = [] := by
  have hw := fresh_wf 5 vars1 cons1
  have hc := calculate_ok hw (List.cons_ne_nil _ _) (cubic_evaluates 5) (cubic_numx 5).lat
  refine ⟨_, hc, ?_, rfl, fun o ho => ?_⟩
  · rw [shown_eq hw hc (cubic_numx 5)]
    have e : C75.residual (cubic data5) ((cubic data5).vars cons1 vars1 (store 5)) = 0 := by rw [cubic_residual]; norm_num
    exact e
  · have h1 := (calculate_cum (fresh (store 5) vars1 cons1)).2
    rw [hc] at h1
    have h2 : SetSt.cum o ∈ (fresh (store 5) vars1 cons1).sets.map SetSt.cum := h1 ▸ List.mem_map_of_mem ho
    simp only [fresh, List.map_cons, List.map_nil, List.mem_singleton] at h2
    unfold getcrw
    rw [h2]
    rfl

/-- **C80** Violation: the refined object of C74, then `setpar(1, 2)` and `calc()`. The curve that is shown has the residual 3/5, `getrw` is that of the
refinement, below `10⁻¹⁸`. -/
theorem C80_stale : ∃ (dv : Mat ℝ) (o : SetSt), CState.run (fparse builtinTab) {} [.setpar 1 2, .int ((setup [1] 1).slots.idxOf (.pscale 0)) 1 .ident] =
      ⟨store 2, cons1, dv⟩ ∧
    let e := (refineLoop (constrTheory ((cubic data5).static 1000000)) (1 / 1000) 101 ({}, eng1 dv)).1.2
    let t : St := ⟨cubic data5, e.par, e.world.vars, e.world.cons, e.world.dvdp, [o], C75.norm (cubic data5), 5, e.getrw⟩
    (calculate (exec t (.setpar 1 2))).1 = .ok () ∧ shown (run t [.setpar 1 2, .compute]) = 3 / 5 ∧ (run t [.setpar 1 2, .compute]).rw ≤ 1 / 10 ^ 18 := by
  obtain ⟨dv, h1, h2, h3⟩ := cubic_refined
  refine ⟨dv, ⟨0, 4, .empty, []⟩, h1, ?_⟩
  intro e t
  have H := cubic_ok data5 C75.data5_length
  obtain ⟨hw, hk, hcore, -⟩ := after_refine (cubic data5) H (List.cons_ne_nil _ _) 1000000 (1 / 1000)
    [.setpar 1 2, .int ((setup [1] 1).slots.idxOf (.pscale 0)) 1 .ident] (by simp [C08.NoRepl]; rfl) {} (eng1 dv) h1
    (fun x hx => absurd hx List.not_mem_nil) (by simp) C75.cubic_fair 101 _ rfl h2 t rfl rfl rfl rfl rfl rfl
  obtain ⟨k1, -, -, -, -, k3⟩ := C75.C75_refine (cubic data5) H 1000000 (1 / 1000)
    [.setpar 1 2, .int ((setup [1] 1).slots.idxOf (.pscale 0)) 1 .ident] (by simp [C08.NoRepl]; rfl) {} (eng1 dv) h1
    (fun x hx => absurd hx List.not_mem_nil) (by simp) C75.cubic_fair 101 _ rfl _ rfl h2
  have hpar : ∃ y, e.par = store y ∧ |y - 5| ≤ 3 / 10 ^ 18 := by
    refine ⟨e.par.p.getD 0 0, ?_, h3⟩
    change SameKeys (store 2) e.par at hk
    generalize e.par = q at hk ⊢
    obtain ⟨p, ip, id⟩ := q
    obtain ⟨q1, q2, q3⟩ := hk
    dsimp only at q1 q2 q3
    subst q1 q2
    match p, q3 with
    | [y], _ => rfl
  obtain ⟨y, hy, hy5⟩ := hpar
  have hvals : ∀ x, C75.structureAt (cubic data5) cons1 vars1 (store x) = (cubic data5).vars cons1 vars1 (store x) := fun x =>
    (C75.vars_eq C75.cubic_fair fun c hc => by
      simp only [cons1, List.mem_singleton] at hc
      subst hc
      exact ⟨x, rfl⟩).symm
  have hv0 : e.world.vars = (cubic data5).vars cons1 vars1 (store y) := by
    have : e.world.vars = C75.structureAt (cubic data5) cons1 vars1 e.par := k1
    rw [this, hy, hvals]
  have hrw : e.getrw = |y - 5| / 5 := by
    have : e.getrw = C75.residual (cubic data5) (C75.structureAt (cubic data5) cons1 vars1 e.par) := (k3 C75.cubic_norm).1
    rw [this, hy, hvals, cubic_residual]
  have hset : exec t (.setpar 1 2) = { t with par := store 2 } := by
    show ({ t with par := e.par.setpar 1 2 } : St) = _
    rw [hy]
    rfl
  have hw2 : Wf (exec t (.setpar 1 2)) := by
    rw [hset]
    exact ⟨hw.input, (fresh_wf 2 vars1 cons1).par, hw.dvdp, hw.sets⟩
  have hev : Evaluates (exec t (.setpar 1 2)) := by
    rw [hset]
    exact allok_core hcore.symm (cubic_evaluates 2)
  have hvars : (exec t (.setpar 1 2)).I.vars (exec t (.setpar 1 2)).cons (exec t (.setpar 1 2)).vars (exec t (.setpar 1 2)).par =
      (cubic data5).vars cons1 vars1 (store 2) := by
    rw [hset]
    have : (cubic data5).vars e.world.cons e.world.vars (store 2) = (cubic data5).vars cons1 e.world.vars (store 2) := by
      unfold Input.vars
      rw [foldl_cstep_core _ _ (show e.world.cons.map Constr.core = cons1.map Constr.core from hcore)]
    exact this.trans (by rw [hv0, vars_over H _ _ _ _ (cubic_evaluates 2)])
  have hI : (exec t (.setpar 1 2)).I = cubic data5 := rfl
  have hcalc := calculate_ok hw2 (List.cons_ne_nil _ _) hev (by rw [hvars, hI]; exact (cubic_numx 2).lat)
  have hrun : run t [.setpar 1 2, .compute] = (calculate (exec t (.setpar 1 2))).2 := rfl
  refine ⟨by rw [hcalc], ?_, ?_⟩
  · rw [hrun, hcalc]
    have hn : (next (exec t (.setpar 1 2)) (fillVariables (fparse builtinTab) (exec t (.setpar 1 2)).par (exec t (.setpar 1 2)).cons
        (exec t (.setpar 1 2)).vars (exec t (.setpar 1 2)).dvdp).2.2.1).vars = (cubic data5).vars cons1 vars1 (store 2) := hvars
    rw [shown_eq hw2 hcalc (by rw [hn, hI]; exact cubic_numx 2), hn, hI, cubic_residual]
    norm_num
  · rw [(C80_kept _ t).1]
    show e.getrw ≤ _
    rw [hrw]
    have : (3 : ℝ) / 10 ^ 18 / 5 ≤ 1 / 10 ^ 18 := by norm_num
    exact (div_le_div_of_nonneg_right hy5 (by norm_num)).trans this

/-- `C80_after_refine_partial`: the refined object of C74 without a change. -/
example (o : SetSt) : ∃ dv, CState.run (fparse builtinTab) {} [.setpar 1 2, .int ((setup [1] 1).slots.idxOf (.pscale 0)) 1 .ident] =
      ⟨store 2, cons1, dv⟩ ∧
    let e := (refineLoop (constrTheory ((cubic data5).static 1000000)) (1 / 1000) 101 ({}, eng1 dv)).1.2
    ∃ t', calculate ⟨cubic data5, e.par, e.world.vars, e.world.cons, e.world.dvdp, [o], C75.norm (cubic data5), 5, e.getrw⟩ = (.ok (), t') ∧
      t'.rw = shown t' := by
  obtain ⟨dv, h1, h2, -⟩ := cubic_refined
  refine ⟨dv, h1, ?_⟩
  intro e
  exact C80_after_refine_partial (cubic data5) (cubic_ok _ C75.data5_length) (List.cons_ne_nil _ _) C75.cubic_norm 1000000 (1 / 1000)
    [.setpar 1 2, .int ((setup [1] 1).slots.idxOf (.pscale 0)) 1 .ident] (by simp [C08.NoRepl]; rfl) {} (eng1 dv) h1
    (fun x hx => absurd hx List.not_mem_nil) (by simp) C75.cubic_fair 101 _ rfl h2
    ⟨cubic data5, e.par, e.world.vars, e.world.cons, e.world.dvdp, [o], C75.norm (cubic data5), 5, e.getrw⟩ rfl rfl rfl rfl rfl rfl rfl

/-- The object of C74 after a refinement of its five points: cumulative sums 1, 2, 3, 4, 5. -/
noncomputable def five : St := { fresh (store 2) vars1 cons1 with sets := [⟨0, 4, .empty, [1, 2, 3, 4, 5]⟩], wnorm := C75.norm (cubic data5) }

theorem five_wf : Wf five := ⟨(fresh_wf 2 vars1 cons1).input, (fresh_wf 2 vars1 cons1).par, rfl, rfl⟩

/-- `C80_length`: with `pdfrange(1, 1, 2)` three points are shown, and five cumulative values. -/
example : ∃ s' o', calculate (exec five (.pdfrange 0 1 2)) = (.ok (), s') ∧ s'.sets[0]? = some o' ∧ (getcrw s' o').length = 5 ∧
    ∃ d, (getR d o').length = 3 := by
  have hr : (set1 data5).d.range 1 2 = .ok { (set1 data5).d with D := { (set1 data5).d.D with rfmin := 1, rfmax := 2 } } := by
    unfold DSet.range
    rw [if_pos (by norm_num [set1, C68.span, C68.isoD])]
  have hc := calculate_ok (wf_pdfrange five_wf 0 1 2) (List.cons_ne_nil _ _) (cubic_evaluates 2) (cubic_numx 2).lat
  obtain ⟨o', h1, h2, -, h3⟩ := C80_length five_wf (is := 0) (d := set1 data5) rfl rfl hr hc
  refine ⟨_, o', hc, h1, h3, _, h2.trans ?_⟩
  have e1 : (C68.span C68.isoD 1 2).nfmin = 0 := by
    rw [(C68.isoD_nf (lo := 1) (hi := 2)).1, show ((1 : ℝ) - 1) * 2 = ((0 : ℤ) : ℝ) by norm_num, nint_int]
  have e2 : (C68.span C68.isoD 1 2).nfmax = 2 := by
    rw [(C68.isoD_nf (lo := 1) (hi := 2)).2, show ((2 : ℝ) - 1) * 2 = ((2 : ℤ) : ℝ) by norm_num, nint_int]
  show ((C68.span C68.isoD 1 2).nfmax + 1 - (C68.span C68.isoD 1 2).nfmin).toNat = 3
  rw [e1, e2]
  rfl

/-- `C80_crw_partial`: without a change, `getcrw` keeps its five values. -/
example : ∃ s' o', calculate five = (.ok (), s') ∧ s'.sets[0]? = some o' ∧ getcrw s' o' = getcrw five ⟨0, 4, .empty, [1, 2, 3, 4, 5]⟩ := by
  have hc := calculate_ok five_wf (List.cons_ne_nil _ _) (cubic_evaluates 2) (cubic_numx 2).lat
  obtain ⟨o', h1, h2⟩ := C80_crw_partial five_wf hc rfl 0 _ rfl
  exact ⟨_, o', hc, h1, h2⟩

/-- `five` with room for the variables of a second data set, nothing constrained. -/
noncomputable def room : St := { five with
  I := { cubic data5 with addr := fun v => (setup [1] 2).slots.idxOf v }
  vars := fun a => (((setup [1] 2).slots[a]?).map val1).getD 0
  cons := [] }

theorem room_wf : Wf (exec room (.read (set1 data5))) := by
  refine ⟨⟨?_, (cubic_ok data5 C75.data5_length).icc, ?_⟩, (fresh_wf 2 vars1 cons1).par, rfl, rfl⟩
  · intro v w hv hw e
    have hv : C47.Exists [1] 2 v := hv
    rw [← C47.complete] at hv
    exact (List.idxOf_inj hv).1 e
  · intro x hx
    refine (cubic_ok data5 C75.data5_length).data x ?_
    have : x ∈ [set1 data5, set1 data5] := hx
    simp only [List.mem_cons, List.not_mem_nil, or_false, or_self] at this
    exact List.mem_singleton.2 this

theorem room_val (x : RVar) (hx : C47.Exists [1] 2 x) : room.vars ((setup [1] 2).slots.idxOf x) = val1 x := by
  rw [← C47.complete] at hx
  show (((setup [1] 2).slots[(setup [1] 2).slots.idxOf x]?).map val1).getD 0 = _
  rw [List.getElem?_eq_getElem (List.idxOf_lt_length_of_mem hx), List.getElem_idxOf]
  rfl

/-- `C80_shrinks`: the data set read a second time. -/
example : ∃ s' o' c, c < 1 ∧ calculate (exec room (.read (set1 data5))) = (.ok (), s') ∧ s'.sets[0]? = some o' ∧
    getcrw s' o' = (getcrw room ⟨0, 4, .empty, [1, 2, 3, 4, 5]⟩).map fun x => x * c := by
  have H := room_wf.input
  have h0 : (0 : ℕ) < 1 := by norm_num
  have hcell : Cells (exec room (.read (set1 data5))).I ((exec room (.read (set1 data5))).I.vars [] room.vars (store 2)) := by
    intro ip hip
    have hip : ip = 0 := by
      have : ip < 1 := hip
      omega
    subst hip
    obtain ⟨m, hm⟩ := (C68.iso_fine (1 / 200)).acc
    refine ⟨m, ?_⟩
    rw [← hm]
    congr 1
    have e1 : (fun k => (exec room (.read (set1 data5))).I.val ((exec room (.read (set1 data5))).I.vars [] room.vars (store 2)) (.a0 0 k)) = ![3, 3, 3] := by
      funext k
      have i0 := icc_addr H (x := .a0 0 k) h0
      show wrapVars _ room.vars _ = _
      unfold wrapVars
      rw [i0]
      exact (room_val (.a0 0 k) h0).trans (by fin_cases k <;> rfl)
    have e2 : (fun k => (exec room (.read (set1 data5))).I.val ((exec room (.read (set1 data5))).I.vars [] room.vars (store 2)) (.win 0 k)) = ![90, 90, 90] := by
      funext k
      have i0 := icc_addr H (x := .win 0 k) h0
      show wrapVars _ room.vars _ = _
      unfold wrapVars
      rw [i0]
      exact (room_val (.win 0 k) h0).trans (by fin_cases k <;> rfl)
    rw [e1, e2]
    rfl
  have hN : C75.norm room.I = C75.norm (cubic data5) := rfl
  have hS : setNorm (set1 data5) = C75.norm (cubic data5) := by
    rw [← norm_eq]
    show _ = ([set1 data5].map setNorm).sum
    simp
  have hc := calculate_ok room_wf (List.cons_ne_nil _ _) (fun c hc => absurd hc List.not_mem_nil) hcell
  obtain ⟨c, h1, -, h2⟩ := C80_shrinks room_wf hN.symm (by rw [hN]; exact C75.cubic_norm) (by rw [hS]; exact C75.cubic_norm) hc
  obtain ⟨o', h3, h4⟩ := h2 0 _ rfl
  exact ⟨_, o', c, h1, hc, h3, h4⟩

end Pdffit.C80
