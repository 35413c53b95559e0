import Verif.Lemmas.Calc
import Verif.Props.C75

/-!
# C79: `calc()` calculates the PDF of the structure that the constraints prescribe, and changes nothing else

Proved: which calls return, what they change (`C79_effect`), that a second call changes nothing (`C79_again`), that the result does not depend
on what was calculated before (`C79_history`), and that `calc()` after `refine()` reproduces the fit (`C79_after_refine`).
What "nothing else" leaves out is proved too: coordinates outside the cell are changed although no constraint concerns them (`C79_wraps`), and
a call that raises may have changed variables (`C79_failed`).
-/

namespace Pdffit.C79
open Geom Det Layout Conf Full Calc _root_.Pdffit.Parser

/-- What the constraints prescribe: a constrained variable has the value of its last constraint, any other keeps its value; coordinates of
atoms are wrapped into the supercell. -/
noncomputable def meant (s : St) : ℕ → ℝ :=
  wrapVars s.I.icc fun a =>
    match s.cons.reverse.find? fun c => c.addr == a with
    | some c => (c.value (fparse builtinTab) s.par).getD 0
    | none => s.vars a

/-- Every constraint has a value. -/
def Values (s : St) : Prop := ∀ c ∈ s.cons, ∃ y, c.value (fparse builtinTab) s.par = some y

/-- Every constraint is of a kind that `constrain` makes from a formula or a parameter number. -/
def Assign (s : St) : Prop := ∀ c ∈ s.cons, c.assigns

theorem evaluates_iff {s : St} (h : Wf s) (ha : Assign s) : Evaluates s ↔ Values s :=
  ⟨fun he c hc => C75.value_of_cres h.par (ha c hc) (he c hc), fun hv c hc => let ⟨_, hy⟩ := hv c hc; cres_of_value hy⟩

theorem vars_meant {s : St} (hv : Values s) : s.I.vars s.cons s.vars s.par = meant s := by
  unfold Input.vars meant
  congr 1
  funext a
  rw [C74.cstep_fold s.cons hv]
  cases hf : s.cons.reverse.find? fun c => c.addr == a with
  | none =>
    dsimp only
    rw [List.find?_eq_none] at hf
    exact foldl_value_other (parse := fparse builtinTab) (par := s.par) s.cons a (fun c hc => by simpa using hf c (List.mem_reverse.2 hc)) s.vars
  | some c =>
    dsimp only
    obtain ⟨ha, l, r, hlr, hno⟩ := List.find?_eq_some_iff_append.1 hf
    have ha : c.addr = a := by simpa using ha
    have hsplit : s.cons = r.reverse ++ c :: l.reverse := by
      have := congrArg List.reverse hlr
      simpa using this
    have hm : c ∈ s.cons := by rw [hsplit]; simp
    obtain ⟨y, hy⟩ := hv c hm
    rw [hy, Option.getD_some, ← ha, hsplit]
    refine foldl_value_last _ _ c (fun c' hc' => ?_) hy s.vars
    have := hno c' (List.mem_reverse.1 hc')
    rw [ha]
    simpa using this

theorem returns_iff {s : St} (h : Wf s) : (calculate s).1 = .ok () ↔
    s.I.sets ≠ [] ∧ Evaluates s ∧ Cells s.I (s.I.vars s.cons s.vars s.par) := by
  by_cases hne : s.I.sets = []
  · have : calculate s = (.err .unassigned, s) := by unfold calculate; rw [if_pos hne]
    rw [this]
    exact ⟨fun h => (nomatch h), fun h => absurd hne h.1⟩
  by_cases he : Evaluates s
  · by_cases hc : Cells s.I (s.I.vars s.cons s.vars s.par)
    · rw [calculate_ok h hne he hc]
      exact ⟨fun _ => ⟨hne, he, hc⟩, fun _ => rfl⟩
    · rw [calculate_cells h hne he hc]
      exact ⟨fun h => (nomatch h), fun h => absurd h.2.2 hc⟩
  · obtain ⟨l, c, r, x, m, -, -, -, -, e⟩ := calculate_fail h hne he
    rw [e]
    exact ⟨fun h => (nomatch h), fun h => absurd h.2.1 he⟩

/-- **C79** `calc()` returns exactly when there is a data set, every constraint has a value, and the cells of all phases have a volume at the
values that the constraints prescribe. It has no undefined behaviour. -/
theorem C79_returns {s : St} (h : Wf s) (ha : Assign s) :
    (handle (calculate s).1 = .returns ↔ s.I.sets ≠ [] ∧ Values s ∧ Cells s.I (meant s)) ∧ handle (calculate s).1 ≠ .ub := by
  have e : handle (calculate s).1 = .returns ↔ (calculate s).1 = .ok () := by
    cases h1 : (calculate s).1 with
    | ok u => exact ⟨fun _ => rfl, fun _ => rfl⟩
    | ub => exact ⟨fun h => (nomatch h), fun h => nomatch h⟩
    | err x => cases x <;> exact ⟨fun h => (nomatch h), fun h => nomatch h⟩
  constructor
  · rw [e, returns_iff h, evaluates_iff h ha]
    constructor
    · rintro ⟨h1, h2, h3⟩
      exact ⟨h1, h2, vars_meant h2 ▸ h3⟩
    · rintro ⟨h1, h2, h3⟩
      exact ⟨h1, h2, vars_meant h2 ▸ h3⟩
  · have hub : (calculate s).1 ≠ .ub := by
      by_cases hne : s.I.sets = []
      · unfold calculate
        rw [if_pos hne]
        exact fun h => nomatch h
      by_cases he : Evaluates s
      · by_cases hc : Cells s.I (s.I.vars s.cons s.vars s.par)
        · rw [calculate_ok h hne he hc]
          exact fun h => nomatch h
        · rw [calculate_cells h hne he hc]
          exact fun h => nomatch h
      · obtain ⟨l, c, r, x, m, -, -, -, -, e⟩ := calculate_fail h hne he
        rw [e]
        exact fun h => nomatch h
    cases h1 : (calculate s).1 with
    | ok u => exact fun h => nomatch h
    | ub => exact absurd h1 hub
    | err x => cases x <;> exact fun h => nomatch h

theorem after_get {s : St} (h : Wf s) (v : ℕ → ℝ) {is : ℕ} {d : SetIn} (hd : s.I.sets[is]? = some d) :
    ∃ o, s.sets[is]? = some o ∧ ((s.I.sets.zip s.sets).mapIdx fun k x => after s.I v k x.1 x.2)[is]? = some (after s.I v is d o) := by
  have hl := (List.getElem?_eq_some_iff.1 hd).1
  have ho : is < s.sets.length := by rw [h.sets]; exact hl
  refine ⟨s.sets[is], List.getElem?_eq_getElem ho, ?_⟩
  rw [List.getElem?_mapIdx, List.getElem?_zip_eq_some (z := (d, s.sets[is])) |>.2 ⟨hd, List.getElem?_eq_getElem ho⟩]
  rfl

theorem vals_get {D : Data} (o : D.Ok) (st : SetSt) (h1 : st.nfmin = D.nfmin) (h2 : st.nfmax = D.nfmax) (t : Option (ℤ → ℝ))
    (h3 : st.pdftot = toCurve D t) : getpdf_fit st = t.map fun f => (grid D.nfmin D.nfmax).map f := by
  have g1 := ncmin_nonneg o
  have g2 := ncmin_le_nfmin o
  have g3 := nfmax_le_ncmax o
  unfold getpdf_fit
  rw [h3]
  cases t with
  | none => rfl
  | some f =>
    dsimp only [toCurve]
    rw [if_pos, h1, h2, Option.map_some]
    · congr 1
      refine List.map_congr_left fun i hi => ?_
      rw [mem_grid] at hi
      have hlt : i.toNat < (D.ncmax + 1).toNat := by omega
      rw [List.getD_eq_getElem _ _ (by simpa using hlt), List.getElem_map, List.getElem_range, Int.toNat_of_nonneg (by omega),
        if_neg (by omega)]
    · rw [List.length_map, List.length_range]
      omega

/-- **C79** What `calc()` does when it returns:

* phases, data, parameters, constraints and `getrw` are as before;
* every variable has the value that the constraints prescribe;
* `getpdf_fit` of every data set is the PDF calculated from these values over its fit range (`none`: not a number). -/
theorem C79_effect {s s' : St} (h : Wf s) (ha : Assign s) (hc : calculate s = (.ok (), s')) :
    s'.I = s.I ∧ s'.par = s.par ∧ s'.cons.map Constr.core = s.cons.map Constr.core ∧ s'.rw = s.rw ∧ s'.vars = meant s ∧ Wf s' ∧
    ∀ (is : ℕ) d, s.I.sets[is]? = some d → ∃ o o', s.sets[is]? = some o ∧ s'.sets[is]? = some o' ∧ o'.cum = o.cum ∧
      ∃ t, determine (s.I.dat (meant s) is d) (s.I.sel (meant s) d) = .ok t ∧
        getpdf_fit o' = t.map fun f => (grid d.d.D.nfmin d.d.D.nfmax).map f := by
  obtain ⟨h1, h2, h3⟩ := (returns_iff h).1 (by rw [hc])
  rw [calculate_ok h h1 h2 h3] at hc
  obtain rfl := (Prod.mk.inj hc).2
  have hv := (evaluates_iff h ha).1 h2
  have hm := vars_meant hv
  obtain ⟨m, e, -, -, w, -⟩ := fillVariables_ok (fparse_parserOK builtinTab) h.par s.cons s.vars s.dvdp h.dvdp h2
  refine ⟨rfl, rfl, marks_core _, rfl, hm, ⟨h.input, h.par, by rw [e]; exact w, ?_⟩, fun is d hd => ?_⟩
  · show (List.mapIdx _ _).length = _
    rw [List.length_mapIdx, List.length_zip, h.sets, Nat.min_self]
    rfl
  · obtain ⟨o, g1, g2⟩ := after_get h (s.I.vars s.cons s.vars s.par) hd
    refine ⟨o, _, g1, g2, rfl, pdfOf s.I (meant s) is d, determine_pdfOf h.input _ is (List.mem_of_getElem? hd), ?_⟩
    rw [hm]
    exact vals_get (Input.dat_ok h.input (List.mem_of_getElem? hd) (meant s) is) _ rfl rfl _ rfl

/-- **C79** In particular a variable that no constraint concerns and that is no coordinate of an atom keeps its value. -/
theorem C79_kept {s s' : St} (h : Wf s) (ha : Assign s) (hc : calculate s = (.ok (), s')) {a : ℕ} (h1 : ∀ c ∈ s.cons, c.addr ≠ a)
    (h2 : s.I.icc a = none) : s'.vars a = s.vars a := by
  obtain ⟨-, -, -, -, hv, -⟩ := C79_effect h ha hc
  rw [hv]
  unfold meant wrapVars
  rw [h2]
  dsimp only
  have : (s.cons.reverse.find? fun c => c.addr == a) = none := by
    rw [List.find?_eq_none]
    intro c hc
    simpa using h1 c (List.mem_reverse.1 hc)
  rw [this]

theorem meant_again {s : St} (h : Wf s) (he : Evaluates s) (m : Mat ℝ) :
    (next s m).I.vars (next s m).cons (next s m).vars (next s m).par = (next s m).vars := by
  have := vars_idem h.input s.cons s.vars s.par he
  show s.I.vars (s.cons.map _) (s.I.vars s.cons s.vars s.par) s.par = _
  unfold Input.vars at this ⊢
  rw [foldl_cstep_core _ _ (marks_core s.cons)]
  exact this

/-- **C79** A second `calc()` returns too and changes nothing at all. -/
theorem C79_again {s s' : St} (h : Wf s) (hc : calculate s = (.ok (), s')) : calculate s' = (.ok (), s') := by
  obtain ⟨h1, h2, h3⟩ := (returns_iff h).1 (by rw [hc])
  rw [calculate_ok h h1 h2 h3] at hc
  obtain rfl := (Prod.mk.inj hc).2
  obtain ⟨e1, w1⟩ := fill_again (fparse_parserOK builtinTab) h.par s.cons s.vars (s.I.vars s.cons s.vars s.par) s.dvdp h.dvdp h2 rfl
  generalize (fillVariables (fparse builtinTab) s.par s.cons s.vars s.dvdp).2.2.1 = m at e1 w1 ⊢
  have hw : Wf (next s m) := ⟨h.input, h.par, w1, by
    show (List.mapIdx _ _).length = _
    rw [List.length_mapIdx, List.length_zip, h.sets, Nat.min_self]
    rfl⟩
  have hv := meant_again h h2 m
  rw [calculate_ok hw h1 (evaluates_next h2 m) (by rw [hv]; exact h3)]
  congr 1
  have e2 : (fillVariables (fparse builtinTab) (next s m).par (next s m).cons (next s m).vars (next s m).dvdp) = _ := e1
  rw [e2]
  unfold next at hv ⊢
  dsimp only at hv ⊢
  rw [hv]
  congr 1
  · rw [List.map_map]
    exact List.map_congr_left fun c _ => cmark_idem c
  · refine List.ext_getElem (by simp [h.sets]) fun n hn1 hn2 => ?_
    simp only [List.getElem_mapIdx, List.getElem_zip]
    rfl

/-- **C79** The result does not depend on what was calculated or refined before: for two objects with the same phases, data, parameters, variables
and constraints, `calc()` returns for both or for none, and then the variables and all calculated curves are the same. -/
theorem C79_history {s t : St} (hs : Wf s) (ht : Wf t) (hI : t.I = s.I) (hp : t.par = s.par) (hv : t.vars = s.vars)
    (hc : t.cons.map Constr.core = s.cons.map Constr.core) {s' : St} (h : calculate s = (.ok (), s')) :
    ∃ t', calculate t = (.ok (), t') ∧ t'.vars = s'.vars ∧ ∀ (is : ℕ) (o o' : SetSt), s'.sets[is]? = some o → t'.sets[is]? = some o' →
      o'.pdftot = o.pdftot ∧ o'.nfmin = o.nfmin ∧ o'.nfmax = o.nfmax := by
  obtain ⟨h1, h2, h3⟩ := (returns_iff hs).1 (by rw [h])
  rw [calculate_ok hs h1 h2 h3] at h
  obtain rfl := (Prod.mk.inj h).2
  have hve : t.I.vars t.cons t.vars t.par = s.I.vars s.cons s.vars s.par := by
    rw [hI, hp, hv]
    unfold Input.vars
    rw [foldl_cstep_core _ _ hc]
  have he : Evaluates t := by
    have := allok_core hc.symm h2
    unfold Evaluates
    rw [hp]
    exact this
  refine ⟨_, calculate_ok ht (by rw [hI]; exact h1) he (by rw [hve, hI]; exact h3), hve, fun is o o' g1 g2 => ?_⟩
  have hlen : is < s.I.sets.length := by
    have := (List.getElem?_eq_some_iff.1 g1).1
    have e : (next s (fillVariables (fparse builtinTab) s.par s.cons s.vars s.dvdp).2.2.1).sets.length = s.I.sets.length := by
      show (List.mapIdx _ _).length = _
      rw [List.length_mapIdx, List.length_zip, hs.sets, Nat.min_self]
    omega
  have hd : s.I.sets[is]? = some s.I.sets[is] := List.getElem?_eq_getElem hlen
  obtain ⟨o1, -, k1⟩ := after_get hs (s.I.vars s.cons s.vars s.par) hd
  obtain ⟨o2, -, k2⟩ := after_get ht (t.I.vars t.cons t.vars t.par) (d := s.I.sets[is]) (by rw [hI]; exact hd)
  have g1 : some (after s.I _ is _ o1) = some o := k1.symm.trans g1
  have g2 : some (after t.I _ is _ o2) = some o' := k2.symm.trans g2
  obtain rfl := Option.some.inj g1
  obtain rfl := Option.some.inj g2
  rw [hve, hI]
  exact ⟨rfl, rfl, rfl⟩

/-- **C79** (part) A call that does not return leaves the curves, the quality of fit, the parameters, and all variables that are neither constrained nor
coordinates of atoms. Missing: constrained variables and coordinates, see `C79_failed`. -/
theorem C79_failed_partial {s : St} (h : Wf s) (hn : (calculate s).1 ≠ .ok ()) :
    let s' := (calculate s).2
    s'.I = s.I ∧ s'.par = s.par ∧ s'.sets = s.sets ∧ s'.rw = s.rw ∧ s'.wnorm = s.wnorm ∧ s'.cons.map Constr.core = s.cons.map Constr.core ∧ Wf s' ∧
      ∀ a, (∀ c ∈ s.cons, c.addr ≠ a) → s.I.icc a = none → s'.vars a = s.vars a := by
  by_cases hne : s.I.sets = []
  · unfold calculate
    rw [if_pos hne]
    exact ⟨rfl, rfl, rfl, rfl, rfl, rfl, h, fun _ _ _ => rfl⟩
  have hk : ∀ (l : List (Constr (List Char))) a, (∀ c ∈ l, c.addr ≠ a) → (l.foldl (cstep (fparse builtinTab) s.par) s.vars) a = s.vars a :=
    fun l a hl => cstep_other l a (fun c hc hca => absurd hca (hl c hc)) s.vars
  by_cases he : Evaluates s
  · by_cases hc : Cells s.I (s.I.vars s.cons s.vars s.par)
    · rw [calculate_ok h hne he hc] at hn
      exact absurd rfl hn
    · obtain ⟨m, e, -, -, w, -⟩ := fillVariables_ok (fparse_parserOK builtinTab) h.par s.cons s.vars s.dvdp h.dvdp he
      rw [calculate_cells h hne he hc]
      refine ⟨rfl, rfl, rfl, rfl, rfl, marks_core _, ⟨h.input, h.par, by rw [e]; exact w, h.sets⟩, fun a h1 h2 => ?_⟩
      show wrapVars _ _ a = _
      unfold wrapVars
      rw [h2]
      exact hk _ a h1
  · obtain ⟨l, c, r, x, m, e1, -, -, e2, e⟩ := calculate_fail h hne he
    rw [e]
    refine ⟨rfl, rfl, rfl, rfl, rfl, ?_, ⟨h.input, h.par, e2, h.sets⟩, fun a h1 h2 => hk _ a fun c' hc' => h1 c' (by rw [e1]; simp [hc'])⟩
    dsimp only
    rw [e1, List.map_append, List.map_append, marks_core, List.map_cons, List.map_cons, cmark_core]

theorem after_refine (I : Input) (H : I.Ok) (hne : I.sets ≠ []) (dmax toler : ℝ) (ops : List (COp (List Char) ℝ))
    (hn : C08.NoRepl (fparse builtinTab) {} ops)
    (s : Statics ℝ) (e : Eng ℝ (CWorld (List Char) ℝ (List Out)))
    (hst : CState.run (fparse builtinTab) {} ops = ⟨e.par, e.world.cons, e.world.dvdp⟩) (hcur : ∀ x ∈ e.world.curve, x.1.WF)
    (hfresh : ¬ (s.fitRunning = true ∧ e.iter ≠ 0)) (hF : C75.Fair I e.world.cons) (fuel : ℕ)
    (r : (Statics ℝ × Eng ℝ (CWorld (List Char) ℝ (List Out))) × Outcome × ℕ)
    (hr : r = refineLoop (constrTheory (I.static dmax)) toler fuel (s, e)) (hdone : r.2.1 = .done)
    (t : St) (h1 : t.I = I) (h2 : t.par = r.1.2.par) (h3 : t.vars = r.1.2.world.vars) (h4 : t.cons = r.1.2.world.cons)
    (h5 : t.dvdp = r.1.2.world.dvdp) (h6 : t.sets.length = I.sets.length) :
    Wf t ∧ SameKeys e.par r.1.2.par ∧ t.cons.map Constr.core = e.world.cons.map Constr.core ∧
    ∃ t', calculate t = (.ok (), t') ∧ t'.vars = t.vars ∧
      t'.sets.map getpdf_fit = ((I.static dmax).pts r.1.2.world.curve).map fun l => some (l.map Pt.mod) := by
  obtain ⟨tv, htv⟩ := C75.targets hF
  have hfc := C75.first_call (hr ▸ hdone)
  obtain ⟨w, hw⟩ := C75.setup_none hfresh hfc
  obtain ⟨hwf, hrd⟩ := C75.start dmax ops hn e.world w hst hcur hw
  obtain ⟨hd, hev⟩ := C75.det (p0 := e.par) (v0 := e.world.vars) H dmax hF htv
  obtain ⟨w1, hw1⟩ := first_evaluates hfresh hw hfc
  obtain ⟨hW, -, -⟩ := hev _ _ _ ⟨rfl, rfl, rfl⟩ hrd hw1
  have hq := quiet_loop hfresh hw (hr ▸ hdone)
  have hdone' : (refineLoop (constrTheory (I.static dmax)).quiet toler fuel (s, { e with world := w })).2.1 = .done := by
    rw [hq, ← hr]; exact hdone
  have hc0 : C75.chiAt I e.par e.world.cons e.world.vars tv e.par.p = some (C74.chi I (I.vars e.world.cons e.world.vars e.par)) := by
    unfold C75.chiAt
    rw [if_pos hW]
  obtain ⟨g1, -, -, w0, g4, g5⟩ := C75.loop_mid hd toler fuel s { e with world := w } ⟨rfl, rfl, rfl⟩ hrd _ (.inl ⟨hfresh, hc0⟩) hdone'
  rw [hq, ← hr] at g1 g5
  obtain ⟨k1, k2, G, k3⟩ := hev _ _ _ g1.keys g4 (quiet_eval_none.1 g5)
  have hcore : t.cons.map Constr.core = e.world.cons.map Constr.core := by rw [h4]; exact g1.inv.inv.cons
  have hwt : Wf t := ⟨h1 ▸ H, by rw [h2]; exact wf_sameKeys hwf g1.keys, by rw [h5]; exact g1.inv.inv.wf, by rw [h1]; exact h6⟩
  have hvt : t.I.vars t.cons t.vars t.par = t.vars := by
    rw [h1, h2, h3, k2]
    have := vars_idem H e.world.cons e.world.vars r.1.2.par k1.con
    unfold Input.vars at this ⊢
    rw [foldl_cstep_core _ _ hcore]
    exact this
  have het : Evaluates t := by
    have := allok_core hcore.symm (parse := fparse builtinTab) (par := r.1.2.par) k1.con
    unfold Evaluates
    rw [h2]
    exact this
  have hcl : Cells t.I (t.I.vars t.cons t.vars t.par) := by
    rw [hvt, h1, h3, k2]
    exact k1.num.lat
  refine ⟨hwt, g1.keys, hcore, _, calculate_ok hwt (by rw [h1]; exact hne) het hcl, hvt, ?_⟩
  rw [k3]
  refine List.ext_getElem? fun n => ?_
  rw [List.getElem?_map, List.getElem?_map, List.getElem?_mapIdx]
  cases hd : I.sets[n]? with
  | none =>
    have hl : (next t (fillVariables (fparse builtinTab) t.par t.cons t.vars t.dvdp).2.2.1).sets[n]? = none := by
      refine List.getElem?_eq_none ?_
      show (List.mapIdx _ _).length ≤ n
      rw [List.length_mapIdx, List.length_zip, hwt.sets, Nat.min_self, h1]
      exact List.getElem?_eq_none_iff.1 hd
    rw [hl]
    rfl
  | some d =>
    obtain ⟨o, -, g2⟩ := after_get hwt (t.I.vars t.cons t.vars t.par) (d := d) (by rw [h1]; exact hd)
    have g2 : (next t (fillVariables (fparse builtinTab) t.par t.cons t.vars t.dvdp).2.2.1).sets[n]? = _ := g2
    rw [g2, Option.map_some, Option.map_some, Option.map_some]
    congr 1
    rw [vals_get (Input.dat_ok H (List.mem_of_getElem? hd) t.vars n) _ rfl rfl (some (I.curveOf t.vars n d)) ?_]
    · rw [Option.map_some, List.map_map, h3, k2]
      rfl
    · show toCurve _ _ = toCurve _ _
      rw [hvt, h1]
      congr 1
      unfold pdfOf
      rw [h3, k2, k1.num.curve hd]

/-- **C79** `calc()` after a `refine()` that returned (assumptions as in C75) returns, keeps every variable and reproduces the calculated
values of the fit. -/
theorem C79_after_refine (I : Input) (H : I.Ok) (hne : I.sets ≠ []) (dmax toler : ℝ) (ops : List (COp (List Char) ℝ))
    (hn : C08.NoRepl (fparse builtinTab) {} ops)
    (s : Statics ℝ) (e : Eng ℝ (CWorld (List Char) ℝ (List Out)))
    (hst : CState.run (fparse builtinTab) {} ops = ⟨e.par, e.world.cons, e.world.dvdp⟩) (hcur : ∀ x ∈ e.world.curve, x.1.WF)
    (hfresh : ¬ (s.fitRunning = true ∧ e.iter ≠ 0)) (hF : C75.Fair I e.world.cons) (fuel : ℕ)
    (r : (Statics ℝ × Eng ℝ (CWorld (List Char) ℝ (List Out))) × Outcome × ℕ)
    (hr : r = refineLoop (constrTheory (I.static dmax)) toler fuel (s, e)) (hdone : r.2.1 = .done)
    (t : St) (h1 : t.I = I) (h2 : t.par = r.1.2.par) (h3 : t.vars = r.1.2.world.vars) (h4 : t.cons = r.1.2.world.cons)
    (h5 : t.dvdp = r.1.2.world.dvdp) (h6 : t.sets.length = I.sets.length) :
    ∃ t', calculate t = (.ok (), t') ∧ t'.vars = t.vars ∧
      t'.sets.map getpdf_fit = ((I.static dmax).pts r.1.2.world.curve).map fun l => some (l.map Pt.mod) :=
  (after_refine I H hne dmax toler ops hn s e hst hcur hfresh hF fuel r hr hdone t h1 h2 h3 h4 h5 h6).2.2.2

/-! ## Examples -/

open C74

/-- The object of C74 with parameters `p`, variables `v`, constraints `cs`, before any calculation. -/
noncomputable def fresh (p : ParStore ℝ) (v : ℕ → ℝ) (cs : List (Constr (List Char))) : St :=
  ⟨cubic data5, p, v, cs, ⟨0, 0, []⟩, [⟨0, 0, .empty, []⟩], 0, 0, 1⟩

theorem fresh_wf (x : ℝ) (v : ℕ → ℝ) (cs : List (Constr (List Char))) : Wf (fresh (store x) v cs) :=
  ⟨cubic_ok _ C75.data5_length, ⟨rfl, rfl, by simp [fresh, store]⟩, rfl, rfl⟩

theorem icc_addr {I : Input} (H : I.Ok) {x : RVar} (hx : C47.Exists I.natoms I.nset x) :
    I.icc (I.addr x) = match x with | .pos ip _ k => (I.phases[ip]?).map fun ph => (ph.icc k : ℝ) | _ => none := by
  unfold Input.icc
  have : ((setup I.natoms I.nset).slots.find? fun v => I.addr v == I.addr x) = some x := by
    cases hq : (setup I.natoms I.nset).slots.find? fun v => I.addr v == I.addr x with
    | none =>
      rw [List.find?_eq_none] at hq
      exact absurd (hq x (by rw [C47.complete]; exact hx)) (by simp)
    | some y =>
      have h1 := List.mem_of_find?_eq_some hq
      rw [C47.complete] at h1
      have h2 := List.find?_some hq
      rw [H.sep y x h1 hx (by simpa using h2)]
  rw [this]
  cases x <;> rfl

/-- Returns, with the parameter `x` for the scale factor: the PDF is `x` times that of unit scale. -/
theorem fresh_calc (x : ℝ) : ∃ s', calculate (fresh (store x) vars1 cons1) = (.ok (), s') ∧ s'.vars ((cubic data5).addr (.pscale 0)) = x ∧
    s'.sets.map getpdf_fit = [some ((grid (set1 data5).d.D.nfmin (set1 data5).d.D.nfmax).map fun i =>
      x * (cubic data5).unit (prescribed (cubic data5) cons1 vars1 (store 2)) 0 (set1 data5) 0 i)] := by
  have h5 := C75.data5_length
  have H := cubic_ok data5 h5
  have hM := cubic_mix data5 h5
  have hw := fresh_wf x vars1 cons1
  have hval : ∀ c ∈ cons1, ∃ y, c.value (fparse builtinTab) (store x) = some y := by
    intro c hc
    simp only [cons1, List.mem_singleton] at hc
    subst hc
    exact ⟨x, rfl⟩
  have he : Evaluates (fresh (store x) vars1 cons1) := fun c hc => let ⟨_, hy⟩ := hval c hc; cres_of_value hy
  have hnum := (hM.off H (store x)).num H (cubic_num data5 h5)
  have hv : (cubic data5).vars cons1 vars1 (store x) = prescribed (cubic data5) cons1 vars1 (store x) := C74.vars_eq H hM hval
  have hc : Cells (cubic data5) ((cubic data5).vars cons1 vars1 (store x)) := by
    rw [hv]
    exact hnum.lat
  have hcalc := calculate_ok hw (List.cons_ne_nil _ _) he hc
  refine ⟨_, hcalc, ?_, ?_⟩
  · have e : (cubic data5).vars cons1 vars1 (store x) ((cubic data5).addr (.pscale 0)) = x := by
      rw [hv]
      rfl
    exact e
  · obtain ⟨o, g1, g2⟩ := after_get hw ((cubic data5).vars cons1 vars1 (store x)) (is := 0) (d := set1 data5) rfl
    show [getpdf_fit (after _ _ 0 (set1 data5) _)] = _
    congr 1
    rw [vals_get (Input.dat_ok H (s := set1 data5) (List.mem_singleton.2 rfl) ((cubic data5).vars cons1 vars1 (store x)) 0) _ rfl rfl
      (some ((cubic data5).curveOf (prescribed (cubic data5) cons1 vars1 (store x)) 0 (set1 data5))) ?_, Option.map_some]
    · congr 1
      exact List.map_congr_left fun i hi => cubic_curve data5 h5 x i hi
    · show toCurve _ _ = toCurve _ _
      congr 1
      unfold pdfOf
      rw [show (fresh (store x) vars1 cons1).I.vars (fresh (store x) vars1 cons1).cons (fresh (store x) vars1 cons1).vars
        (fresh (store x) vars1 cons1).par = prescribed (cubic data5) cons1 vars1 (store x) from hv]
      rw [show determine ((fresh (store x) vars1 cons1).I.dat (prescribed (cubic data5) cons1 vars1 (store x)) 0 (set1 data5))
        ((fresh (store x) vars1 cons1).I.sel (prescribed (cubic data5) cons1 vars1 (store x)) (set1 data5)) = _ from hnum.curve (is := 0) rfl]

/-- **C79** Violation: the coordinate `x = 3/2` of an atom that no constraint concerns is `1/2` after `calc()`. -/
theorem C79_wraps : ∃ (s s' : St) (a : ℕ), Wf s ∧ Assign s ∧ calculate s = (.ok (), s') ∧ s.cons = [] ∧ s.vars a = 3 / 2 ∧ s'.vars a = 1 / 2 := by
  have h5 := C75.data5_length
  have H := cubic_ok data5 h5
  have h0 : (0 : ℕ) < 1 := by norm_num
  have hx : C47.Exists [1] 1 (.pos 0 0 0) := ⟨1, rfl, h0⟩
  let v : ℕ → ℝ := upd vars1 ((cubic data5).addr (.pos 0 0 0)) (3 / 2)
  have hvx : v ((cubic data5).addr (.pos 0 0 0)) = 3 / 2 := by
    show upd vars1 _ _ _ = _
    unfold upd
    rw [if_pos rfl]
  have hw := fresh_wf 2 v []
  have hother : ∀ y, C47.Exists [1] 1 y → y ≠ .pos 0 0 0 → v ((cubic data5).addr y) = val1 y := by
    intro y hy hne
    show upd vars1 _ _ _ = _
    unfold upd
    rw [if_neg fun e => hne (H.sep y _ hy hx e)]
    exact vars1_val y hy
  have hcell : Cells (cubic data5) ((cubic data5).vars [] v (store 2)) := by
    intro ip hip
    have hip : ip = 0 := by
      have : ip < 1 := hip
      omega
    subst hip
    obtain ⟨m, hm⟩ := (C68.iso_fine (1 / 200)).acc
    refine ⟨m, ?_⟩
    rw [← hm]
    congr 1
    have e1 : (fun k => (cubic data5).val ((cubic data5).vars [] v (store 2)) (.a0 0 k)) = ![3, 3, 3] := by
      funext k
      have i0 := icc_addr H (x := .a0 0 k) h0
      show wrapVars _ v _ = _
      unfold wrapVars
      rw [i0]
      dsimp only
      rw [hother (.a0 0 k) h0 (by simp)]
      fin_cases k <;> rfl
    have e2 : (fun k => (cubic data5).val ((cubic data5).vars [] v (store 2)) (.win 0 k)) = ![90, 90, 90] := by
      funext k
      have i0 := icc_addr H (x := .win 0 k) h0
      show wrapVars _ v _ = _
      unfold wrapVars
      rw [i0]
      dsimp only
      rw [hother (.win 0 k) h0 (by simp)]
      fin_cases k <;> rfl
    rw [e1, e2]
    rfl
  refine ⟨fresh (store 2) v [], _, (cubic data5).addr (.pos 0 0 0), hw, fun c hc => absurd hc List.not_mem_nil,
    calculate_ok hw (List.cons_ne_nil _ _) (fun c hc => absurd hc List.not_mem_nil) hcell, rfl, ?_, ?_⟩
  · exact hvx
  · have e : wrapVars (cubic data5).icc v ((cubic data5).addr (.pos 0 0 0)) = 1 / 2 := by
      unfold wrapVars
      rw [show (cubic data5).icc ((cubic data5).addr (.pos 0 0 0)) = some 1 from (icc_addr H hx).trans (by
        show some (((1 : ℤ) : ℝ)) = some 1
        norm_num)]
      dsimp only
      rw [hvx]
      unfold fmodK
      rw [if_pos (by norm_num), show (3 / 2 / 1 : ℝ) = 3 / 2 by norm_num, show ⌊(3 / 2 : ℝ)⌋ = 1 from by rw [Int.floor_eq_iff]; norm_num]
      norm_num
    exact e

/-- A constraint of the lattice parameter `a` by the formula `f`, after that of the scale factor. -/
noncomputable def second (f : List Char) : List (Constr (List Char)) :=
  cons1 ++ [⟨(cubic data5).addr (.a0 0 0), some f, -1, .user, true⟩]

theorem second_fail {f : List Char} {x : Exc} (h : fparse builtinTab f (store 7) = .error x) :
    (calculate (fresh (store 7) vars1 (second f))).1 = .err x ∧
    (calculate (fresh (store 7) vars1 (second f))).2.vars ((cubic data5).addr (.pscale 0)) = 7 := by
  have hw := fresh_wf 7 vars1 (second f)
  have hbad : cres (fparse builtinTab) (store 7) ⟨(cubic data5).addr (.a0 0 0), some f, -1, .user, true⟩ = .error x := by
    unfold cres
    dsimp only
    rw [h]
  have hne : ¬ Evaluates (fresh (store 7) vars1 (second f)) := by
    intro he
    obtain ⟨r, hr⟩ := he ⟨(cubic data5).addr (.a0 0 0), some f, -1, .user, true⟩ (by simp [fresh, second])
    rw [show (fresh (store 7) vars1 (second f)).par = store 7 from rfl, hbad] at hr
    cases hr
  obtain ⟨l, c, r, y, m, e1, e2, e3, -, e⟩ := calculate_fail hw (List.cons_ne_nil _ _) hne
  have e3 : cres (fparse builtinTab) (store 7) c = .error y := e3
  have hgood : cres (fparse builtinTab) (store 7) ⟨(setup [1] 1).slots.idxOf (.pscale 0), none, 1, .ident, true⟩ ≠ .error y := by
    obtain ⟨r, hr⟩ := cres_of_value (parse := fparse builtinTab) (par := store 7)
      (c := ⟨(setup [1] 1).slots.idxOf (.pscale 0), none, 1, .ident, true⟩) (y := 7) rfl
    rw [hr]
    exact fun h => nomatch h
  have hl : l = cons1 ∧ c = ⟨(cubic data5).addr (.a0 0 0), some f, -1, .user, true⟩ := by
    have e1 : [⟨(setup [1] 1).slots.idxOf (.pscale 0), none, 1, .ident, true⟩, ⟨(cubic data5).addr (.a0 0 0), some f, -1, .user, true⟩] = l ++ c :: r := e1
    match l, e1 with
    | [], e1 =>
      rw [List.nil_append] at e1
      obtain ⟨rfl, -⟩ := List.cons.inj e1
      exact absurd e3 hgood
    | [a], e1 =>
      obtain ⟨k1, k2⟩ := List.cons.inj e1
      obtain ⟨k3, -⟩ := List.cons.inj k2
      exact ⟨congrArg (fun c => [c]) k1.symm, k3.symm⟩
    | a :: b :: l, e1 =>
      have := congrArg List.length e1
      simp at this
  obtain ⟨rfl, rfl⟩ := hl
  rw [hbad] at e3
  cases e3
  rw [e]
  refine ⟨rfl, ?_⟩
  rfl

/-- **C79** Violation: a call that raises `constraintError`, because a later constraint has a malformed formula, has changed the scale factor from 2 to 7. -/
theorem C79_failed : ∃ (s : St) (a : ℕ), Wf s ∧ Assign s ∧ handle (calculate s).1 = .raises .constraint ∧ s.vars a = 2 ∧ (calculate s).2.vars a = 7 := by
  obtain ⟨h1, h2⟩ := second_fail (f := [')']) (x := .parse) rfl
  refine ⟨fresh (store 7) vars1 (second [')']), (cubic data5).addr (.pscale 0), fresh_wf _ _ _, ?_, by rw [h1]; rfl,
    vars1_val (.pscale 0) (by show 0 < 1; norm_num), h2⟩
  intro c hc
  simp only [fresh, second, cons1, List.cons_append, List.nil_append, List.mem_cons, List.not_mem_nil, or_false] at hc
  rcases hc with rfl | rfl <;> simp [Constr.assigns]

/-- **C79** Violation: a formula with a parameter that was never set, as in `constrain(lat(1), "@2")` without `setpar(2, ...)`, does not raise in
`calc()`: the process ends. -/
theorem C79_dies : ∃ s : St, Wf s ∧ Assign s ∧ s.I.sets ≠ [] ∧ handle (calculate s).1 = .dies := by
  obtain ⟨h1, -⟩ := second_fail (f := ['@', '2']) (x := .constraint) rfl
  refine ⟨fresh (store 7) vars1 (second ['@', '2']), fresh_wf _ _ _, ?_, List.cons_ne_nil _ _, by rw [h1]; rfl⟩
  intro c hc
  simp only [fresh, second, cons1, List.cons_append, List.nil_append, List.mem_cons, List.not_mem_nil, or_false] at hc
  rcases hc with rfl | rfl <;> simp [Constr.assigns]

/-- `C79_effect`, `C79_again` for the object with scale factor 7: `getpdf_fit` is not zero, and a second call changes nothing. -/
example : ∃ s', calculate (fresh (store 7) vars1 cons1) = (.ok (), s') ∧ s'.vars ((cubic data5).addr (.pscale 0)) = 7 ∧ calculate s' = (.ok (), s') ∧
    ∃ l, s'.sets.map getpdf_fit = [some l] ∧ ∃ y ∈ l, y ≠ 0 := by
  obtain ⟨s', h1, h2, h3⟩ := fresh_calc 7
  refine ⟨s', h1, h2, C79_again (fresh_wf _ _ _) h1, _, h3, _, List.mem_map.2 ⟨0, zero_mem, rfl⟩, ?_⟩
  exact mul_ne_zero (by norm_num) (cubic_unit data5 C75.data5_length)

/-- `C79_history`: an object that was calculated with the scale factor 7 before gives the same curve as a new one. -/
example (t : St) (h : calculate (fresh (store 7) vars1 cons1) = (.ok (), t)) :
    ∃ t', calculate { t with vars := vars1, par := store 2 } = (.ok (), t') ∧ t'.vars ((cubic data5).addr (.pscale 0)) = 2 := by
  obtain ⟨s', h1, h2, -⟩ := fresh_calc 2
  have ha : Assign (fresh (store 7) vars1 cons1) := C75.cubic_fair.assigns
  obtain ⟨e1, -, e3, -, -, e6, -⟩ := C79_effect (fresh_wf _ _ _) ha h
  obtain ⟨t', g1, g2, -⟩ := C79_history (s := fresh (store 2) vars1 cons1) (t := { t with vars := vars1, par := store 2 }) (fresh_wf _ _ _)
    ⟨e6.input, (fresh_wf 2 vars1 cons1).par, e6.dvdp, e6.sets⟩ e1 rfl rfl e3 h1
  exact ⟨t', g1, by rw [g2, h2]⟩

/-- `C79_after_refine`: the refined object of C74, whatever `calc()` finds stored in the data set. -/
example (o : SetSt) : ∃ dv, CState.run (fparse builtinTab) {} [.setpar 1 2, .int ((setup [1] 1).slots.idxOf (.pscale 0)) 1 .ident] =
      ⟨store 2, cons1, dv⟩ ∧
    let e := (refineLoop (constrTheory ((cubic data5).static 1000000)) (1 / 1000) 101 ({}, eng1 dv)).1.2
    ∃ t', calculate ⟨cubic data5, e.par, e.world.vars, e.world.cons, e.world.dvdp, [o], 0, 0, 0⟩ = (.ok (), t') ∧ t'.vars = e.world.vars := by
  obtain ⟨dv, h1, h2, -⟩ := cubic_refined
  refine ⟨dv, h1, ?_⟩
  intro e
  obtain ⟨t', g1, g2, -⟩ := C79_after_refine (cubic data5) (cubic_ok _ C75.data5_length) (List.cons_ne_nil _ _) 1000000 (1 / 1000)
    [.setpar 1 2, .int ((setup [1] 1).slots.idxOf (.pscale 0)) 1 .ident] (by simp [C08.NoRepl]; rfl) {} (eng1 dv) h1
    (fun x hx => absurd hx List.not_mem_nil) (by simp) C75.cubic_fair 101 _ rfl h2
    ⟨cubic data5, e.par, e.world.vars, e.world.cons, e.world.dvdp, [o], 0, 0, 0⟩ rfl rfl rfl rfl rfl rfl
  exact ⟨t', g1, g2⟩

end Pdffit.C79
