import Verif.Lemmas.FullGrad
import Verif.Props.C79
import Verif.Props.C97

/-!
# C106: phases that are not selected have no influence on the calculated curve

Observable content: after `calc()` the curve of a data set (`getpdf_fit`) depends on its own settings and on the phases that are selected for it,
not on other phases: neither on their number nor on their structure, nor on what the constraints prescribe for them (`C106_curve_partial`,
`C106_unselected_partial`). Other data sets have no influence either: nothing is assumed about them.

This is about calls that return. Whether `calc()` returns does depend on phases that are selected for no data set: when the cell of one of them has no
volume the process ends (`C106_returns_violated`).
-/

namespace Pdffit.C106
open Geom Det Deriv Layout Conf Full Calc C79 _root_.Pdffit.Parser

/-- Phase `ip` as data set `d` sees it: the structure with the values that the constraints prescribe, and the selected atoms. `none` if the
phase is not selected. -/
noncomputable def seen (s : St) (d : SetIn) (ip : ℕ) : Option (PPhase × Sel) := (s.I.sel (meant s) d)[ip]?.join

/-! ### Lists with the same entries at other places -/

theorem used_range {α : Type} (l : List (Option α)) {n : ℕ} (h : l.length ≤ n) : l.filterMap id = (List.range n).filterMap fun k => l[k]?.join := by
  induction l generalizing n with
  | nil => simp
  | cons a l ih =>
    obtain ⟨n, rfl⟩ : ∃ m, n = m + 1 := ⟨n - 1, by simp at h; omega⟩
    rw [List.range_succ_eq_map, List.filterMap_cons, List.filterMap_cons, List.filterMap_map, ih (by simpa using h)]
    rfl

theorem used_perm {α : Type} (l l' : List (Option α)) (f : ℕ → ℕ) (hf : Function.Injective f) (h1 : ∀ k, l'[f k]?.join = l[k]?.join)
    (h2 : ∀ k, (∀ q, f q ≠ k) → l'[k]?.join = none) : (l'.filterMap id).Perm (l.filterMap id) := by
  classical
  rw [used_range l le_rfl, used_range l' le_rfl]
  have key : ∀ (m : List (Option α)), (List.range m.length).filterMap (fun k => m[k]?.join) =
      ((List.range m.length).filter fun k => (m[k]?.join).isSome).filterMap fun k => m[k]?.join := by
    intro m
    rw [List.filterMap_filter]
    refine List.filterMap_congr fun k _ => ?_
    cases m[k]?.join <;> rfl
  have lt : ∀ (m : List (Option α)) (k : ℕ), (m[k]?.join).isSome = true → k < m.length := by
    intro m k hk
    by_contra hn
    rw [List.getElem?_eq_none (by omega)] at hk
    cases hk
  rw [key l, key l']
  have hp : ((List.range l'.length).filter fun k => (l'[k]?.join).isSome).Perm
      (((List.range l.length).filter fun k => (l[k]?.join).isSome).map f) := by
    refine (List.perm_ext_iff_of_nodup (List.nodup_range.filter _) ((List.nodup_range.filter _).map hf)).2 fun k => ?_
    simp only [List.mem_filter, List.mem_range, List.mem_map]
    constructor
    · rintro ⟨-, hk⟩
      by_cases hq : ∃ q, f q = k
      · obtain ⟨q, rfl⟩ := hq
        rw [h1] at hk
        exact ⟨q, ⟨lt l q hk, hk⟩, rfl⟩
      · rw [h2 k (fun q e => hq ⟨q, e⟩)] at hk
        cases hk
    · rintro ⟨q, ⟨-, hq⟩, rfl⟩
      rw [← h1] at hq
      exact ⟨lt l' _ hq, hq⟩
  refine (hp.filterMap _).trans (List.Perm.of_eq ?_)
  rw [List.filterMap_map]
  exact List.filterMap_congr fun k _ => h1 k

theorem mem_used {α : Type} {l : List (Option α)} {x : α} : some x ∈ l ↔ x ∈ l.filterMap id := by
  rw [List.mem_filterMap]
  exact ⟨fun h => ⟨_, h, rfl⟩, fun ⟨_, h, e⟩ => by rw [← (show _ = some x from e)]; exact h⟩

/-! ### The curve -/

/-- **C106** (partial: calls that return, see `C106_returns_violated`) Two objects, with a data set in each that has the same settings and sees the
same phases, whatever their numbers: `f` gives the number in `t` of each phase of `s`, and phases of `t` without a number in `s` are not selected.
Then `getpdf_fit` is the same after `calc()`. -/
theorem C106_curve_partial {s t s' t' : St} (hs : Wf s) (ht : Wf t) (as : Assign s) (at' : Assign t) (cs : calculate s = (.ok (), s'))
    (ct : calculate t = (.ok (), t')) {is it : ℕ} {d d' : SetIn} (hd : s.I.sets[is]? = some d) (hd' : t.I.sets[it]? = some d')
    (hset : t.I.dat (meant t) it d' = s.I.dat (meant s) is d) (f : ℕ → ℕ) (hf : Function.Injective f)
    (hsame : ∀ ip, seen t d' (f ip) = seen s d ip) (hother : ∀ k, (∀ ip, f ip ≠ k) → seen t d' k = none) :
    ∃ o o', s'.sets[is]? = some o ∧ t'.sets[it]? = some o' ∧ getpdf_fit o' = getpdf_fit o := by
  classical
  obtain ⟨-, -, -, -, -, -, k1⟩ := C79_effect hs as cs
  obtain ⟨-, -, -, -, -, -, k2⟩ := C79_effect ht at' ct
  obtain ⟨-, o, -, ho, -, u, hu, e⟩ := k1 is d hd
  obtain ⟨-, o', -, ho', -, u', hu', e'⟩ := k2 it d' hd'
  refine ⟨o, o', ho, ho', ?_⟩
  have hp := used_perm _ _ f hf hsame hother
  have hok := Input.dat_ok hs.input (List.mem_of_getElem? hd) (meant s) is
  have n1 : (s.I.dat (meant s) is d).nfmin = d.d.D.nfmin := rfl
  have n2 : (s.I.dat (meant s) is d).nfmax = d.d.D.nfmax := rfl
  have n1' : (t.I.dat (meant t) it d').nfmin = d'.d.D.nfmin := rfl
  have n2' : (t.I.dat (meant t) it d').nfmax = d'.d.D.nfmax := rfl
  rw [e, e', ← n1, ← n2, ← n1', ← n2', hset]
  rw [hset] at hu'
  generalize s.I.dat (meant s) is d = D at *
  obtain ⟨g, h1, h2⟩ := determine_spec hok (s.I.sel (meant s) d)
  obtain ⟨g', h1', h2'⟩ := determine_spec hok (t.I.sel (meant t) d')
  have hc : (∀ x, some x ∈ t.I.sel (meant t) d' → ¬Bad D x.1 x.2) ↔ ∀ x, some x ∈ s.I.sel (meant s) d → ¬Bad D x.1 x.2 := by
    simp only [mem_used, hp.mem_iff]
  have e1 := Res.ok.inj (hu.symm.trans h1)
  have e2 := Res.ok.inj (hu'.symm.trans h1')
  rw [e1, e2]
  by_cases hb : ∀ x, some x ∈ s.I.sel (meant s) d → ¬Bad D x.1 x.2
  · rw [if_pos hb, if_pos (hc.2 hb), Option.map_some, Option.map_some]
    refine congrArg some (List.map_congr_left fun i hi => ?_)
    obtain ⟨i1, i2⟩ := mem_grid.1 hi
    have i1 := (ncmin_le_nfmin hok).trans i1
    have i2 := i2.trans (nfmax_le_ncmax hok)
    rw [h2 i i1 i2, h2' i i1 i2]
    exact (hp.map _).sum_eq
  · rw [if_neg hb, if_neg fun h => hb (hc.1 h)]

theorem atomFrom_congr {val val' : RVar → ℝ} {ip : ℕ} (h : ∀ x, owner x = some ip → val' x = val x) : atomFrom val' ip = atomFrom val ip := by
  funext ia a
  unfold atomFrom
  simp only [h _ (show owner (.occ ip ia) = some ip from rfl), fun k => h _ (show owner (.pos ip ia k) = some ip from rfl),
    fun k => h _ (show owner (.u ip ia k) = some ip from rfl)]

theorem phaseFrom_congr {val val' : RVar → ℝ} {ip : ℕ} (h : ∀ x, owner x = some ip → val' x = val x) (ph : PPhase) :
    phaseFrom val' ip ph = phaseFrom val ip ph := by
  unfold phaseFrom
  rw [atomFrom_congr h]
  simp only [fun k => h _ (show owner (.a0 ip k) = some ip from rfl), fun k => h _ (show owner (.win ip k) = some ip from rfl),
    h _ (show owner (.delta2 ip) = some ip from rfl), h _ (show owner (.delta1 ip) = some ip from rfl),
    h _ (show owner (.pscale ip) = some ip from rfl), h _ (show owner (.spdiameter ip) = some ip from rfl),
    h _ (show owner (.sratio ip) = some ip from rfl)]

theorem seen_eq (s : St) (d : SetIn) (ip : ℕ) : seen s d ip = (s.I.phases[ip]?).bind fun ph => (d.sel.getD ip none).map fun σ =>
    (phaseFrom (s.I.val (meant s)) ip { ph with atom := ph.atom.mapIdx fun ia a => { a with sf := d.sf ip ia } }, σ) := by
  unfold seen Input.sel selFrom Input.template
  rw [List.getElem?_mapIdx, List.getElem?_mapIdx]
  cases s.I.phases[ip]? with
  | none => rfl
  | some ph => cases d.sel.getD ip none <;> rfl

/-- **C106** (partial: calls that return, see `C106_returns_violated`) The same with explicit conditions: the same data set, the same phases selected;
for these the same structure, scattering factors and values. Phases that are not selected can be anything, and there may be more or fewer. -/
theorem C106_unselected_partial {s t s' t' : St} (hs : Wf s) (ht : Wf t) (as : Assign s) (at' : Assign t) (cs : calculate s = (.ok (), s'))
    (ct : calculate t = (.ok (), t')) {is : ℕ} {d d' : SetIn} (hd : s.I.sets[is]? = some d) (hd' : t.I.sets[is]? = some d') (hset : d'.d = d.d)
    (hsel : ∀ ip, d'.sel.getD ip none = d.sel.getD ip none)
    (hval : ∀ x ∈ [RVar.dscale is, .qdamp is, .qbroad is], t.I.val (meant t) x = s.I.val (meant s) x)
    (hph : ∀ ip, d.sel.getD ip none ≠ none → t.I.phases[ip]? = s.I.phases[ip]? ∧ (∀ ia, d'.sf ip ia = d.sf ip ia) ∧
      ∀ x, owner x = some ip → t.I.val (meant t) x = s.I.val (meant s) x) :
    ∃ o o', s'.sets[is]? = some o ∧ t'.sets[is]? = some o' ∧ getpdf_fit o' = getpdf_fit o := by
  refine C106_curve_partial hs ht as at' cs ct hd hd' ?_ id Function.injective_id (fun ip => ?_) fun k hk => absurd rfl (hk k)
  · unfold Input.dat dataFrom
    rw [hset, hval _ (by simp), hval _ (by simp), hval _ (by simp)]
  · rw [id_eq, seen_eq, seen_eq, hsel]
    cases hc : d.sel.getD ip none with
    | none => cases t.I.phases[ip]? <;> cases s.I.phases[ip]? <;> rfl
    | some σ =>
      obtain ⟨h1, h2, h3⟩ := hph ip (by rw [hc]; exact Option.some_ne_none _)
      rw [h1]
      cases s.I.phases[ip]? with
      | none => rfl
      | some ph =>
        simp only [Option.bind_some, Option.map_some]
        rw [phaseFrom_congr h3]
        simp only [h2]

/-! ## Violation -/

open C97

/-- The object of C97 with variables `v`, where only the first of two phases is selected. -/
noncomputable def obj (v : ℕ → ℝ) : St :=
  ⟨duo 1 [some Pdffit.Deriv.witS, none] 0, C74.store 1, v, cons2, ⟨0, 0, []⟩, [⟨0, 0, .empty, []⟩], 0, 0, 1⟩

theorem obj_wf (v : ℕ → ℝ) : Wf (obj v) := ⟨duo_ok _ _, ⟨rfl, rfl, by simp [obj, C74.store]⟩, rfl, rfl⟩

/-- The variables with another value of one of them. -/
noncomputable def but (x : RVar) (y : ℝ) : ℕ → ℝ := fun a => if a = (setup [2, 2] 1).slots.idxOf x then y else vars2 a

theorem obj_assign (v : ℕ → ℝ) : Assign (obj v) := (duo_fair [some witS, none] 0).assigns

theorem obj_values (v : ℕ → ℝ) : Values (obj v) := duo_value

theorem val_qbroad0 : C47.Exists [2, 2] 1 (.qbroad 0) := by show 0 < 1; norm_num

theorem obj_val (x : RVar) (hx : C47.Exists [2, 2] 1 x) : (obj vars2).I.val (meant (obj vars2)) x = val2 x := by
  rw [← vars_meant (obj_values vars2)]
  exact duo_val [some witS, none] 0 x hx

theorem meant_obj (v : ℕ → ℝ) (x : RVar) : (obj v).I.val (meant (obj v)) x =
    wrapVars (duo 1 [some witS, none] 0).icc (fun a => match cons2.reverse.find? fun c => c.addr == a with
      | some c => (c.value (fparse builtinTab) (C74.store 1)).getD 0
      | none => v a) ((duo 1 [some witS, none] 0).addr x) := rfl

theorem but_other (y : RVar) (c : ℝ) (hy : C47.Exists [2, 2] 1 y) (x : RVar) (e : x ≠ y) :
    (obj (but y c)).I.val (meant (obj (but y c))) x = (obj vars2).I.val (meant (obj vars2)) x := by
  have hne : (duo 1 [some witS, none] 0).addr x ≠ (setup [2, 2] 1).slots.idxOf y := by
    rw [duo_addr]
    rw [← C47.complete] at hy
    exact fun h => e ((List.idxOf_inj hy).1 h.symm).symm
  have : but y c ((duo 1 [some witS, none] 0).addr x) = vars2 ((duo 1 [some witS, none] 0).addr x) := if_neg hne
  rw [meant_obj, meant_obj]
  unfold wrapVars
  beta_reduce
  rw [this]

theorem but_val (y : RVar) (c : ℝ) (hy : C47.Exists [2, 2] 1 y) (hq : y ≠ .qbroad 0) (hp : ∀ ip ia k, y ≠ .pos ip ia k) :
    (obj (but y c)).I.val (meant (obj (but y c))) y = c := by
  have H := duo_ok [some witS, none] 0
  have hf : (cons2.reverse.find? fun c => c.addr == (duo 1 [some witS, none] 0).addr y) = none := by
    rw [List.find?_eq_none]
    intro c' hc'
    simp only [cons2, List.reverse_cons, List.reverse_nil, List.nil_append, List.mem_singleton] at hc'
    subst hc'
    intro e
    refine hq (H.sep y (.qbroad 0) hy val_qbroad0 ?_)
    rw [duo_addr, duo_addr] at *
    exact (beq_iff_eq.1 e).symm
  have e : but y c ((duo 1 [some witS, none] 0).addr y) = c := by rw [duo_addr]; exact if_pos rfl
  rw [meant_obj]
  unfold wrapVars
  beta_reduce
  rw [hf, icc_addr H hy]
  cases y with
  | pos ip ia k => exact absurd rfl (hp ip ia k)
  | _ => exact e

theorem obj_returns : ∃ s', calculate (obj vars2) = (.ok (), s') := by
  have h : (calculate (obj vars2)).1 = .ok () := (returns_iff (obj_wf vars2)).2
    ⟨List.cons_ne_nil _ _, (evaluates_iff (obj_wf _) (obj_assign _)).2 (obj_values _), (duo_num none (.inl rfl) 0).lat⟩
  exact ⟨(calculate (obj vars2)).2, Prod.ext h rfl⟩

/-- **C106** (violation) A data set for which only the first phase is selected. `calc()` returns, but when an angle of the cell of the second phase is set to
0 the process ends. -/
theorem C106_returns_violated : ∃ v v' : ℕ → ℝ, (∀ d ∈ (obj v).I.sets, seen (obj v) d 1 = none) ∧
    (∀ x, owner x ≠ some 1 → (obj v').I.val (meant (obj v')) x = (obj v).I.val (meant (obj v)) x) ∧
    handle (calculate (obj v)).1 = .returns ∧ handle (calculate (obj v')).1 = .dies := by
  have hw : C47.Exists [2, 2] 1 (.win 1 0) := by show 1 < 2; norm_num
  have h0 := but_val (.win 1 0) 0 hw (fun h => nomatch h) (fun _ _ _ h => nomatch h)
  refine ⟨vars2, but (.win 1 0) 0, ?_, fun x ho => ?_, ?_, ?_⟩
  · intro d hd
    have hd : d ∈ (duo 1 [some witS, none] 0).sets := hd
    simp only [duo, List.mem_singleton] at hd
    subst hd
    rw [seen_eq]
    rfl
  · refine but_other _ _ hw x ?_
    rintro rfl
    exact ho rfl
  · obtain ⟨s', h⟩ := obj_returns
    rw [h]
    rfl
  · have hc : ¬ Cells (obj (but (.win 1 0) 0)).I ((obj (but (.win 1 0) 0)).I.vars cons2 (but (.win 1 0) 0) (C74.store 1)) := by
      intro h
      have e : (obj (but (.win 1 0) 0)).I.vars cons2 (but (.win 1 0) 0) (C74.store 1) = meant (obj (but (.win 1 0) 0)) := vars_meant (obj_values _)
      rw [e] at h
      obtain ⟨m, hm⟩ := h 1 (by show 1 < 2; norm_num)
      unfold lattice at hm
      rw [if_pos] at hm
      · cases hm
      · have := C45.eps_pos
        unfold voll
        dsimp only
        rw [h0]
        have h1 : bcosd 0 = 1 := by unfold bcosd; rw [mul_zero, Real.cos_zero]
        rw [h1]
        nlinarith [sq_nonneg (bcosd ((obj (but (.win 1 0) 0)).I.val (meant (obj (but (.win 1 0) 0))) (.win 1 1)) -
          bcosd ((obj (but (.win 1 0) 0)).I.val (meant (obj (but (.win 1 0) 0))) (.win 1 2)))]
    rw [calculate_cells (obj_wf _) (List.cons_ne_nil _ _) ((evaluates_iff (obj_wf _) (obj_assign _)).2 (obj_values _)) hc]
    rfl

/-! ## Example -/

/-- The hypotheses are satisfied: another edge of the cell of the second phase changes nothing. -/
example : ∃ s' t' o o' l, calculate (obj vars2) = (.ok (), s') ∧ calculate (obj (but (.a0 1 0) 5)) = (.ok (), t') ∧
    (obj (but (.a0 1 0) 5)).I.val (meant (obj (but (.a0 1 0) 5))) (.a0 1 0) = 5 ∧ (obj vars2).I.val (meant (obj vars2)) (.a0 1 0) = 33 / 10 ∧
    s'.sets[0]? = some o ∧ t'.sets[0]? = some o' ∧ getpdf_fit o = some l ∧ getpdf_fit o' = some l := by
  have hw : C47.Exists [2, 2] 1 (.a0 1 0) := by show 1 < 2; norm_num
  have same := but_other (.a0 1 0) 5 hw
  obtain ⟨s', hs'⟩ := obj_returns
  have hc : Cells (obj (but (.a0 1 0) 5)).I ((obj (but (.a0 1 0) 5)).I.vars cons2 (but (.a0 1 0) 5) (C74.store 1)) := by
    have e : (obj (but (.a0 1 0) 5)).I.vars cons2 (but (.a0 1 0) 5) (C74.store 1) = meant (obj (but (.a0 1 0) 5)) := vars_meant (obj_values _)
    rw [e]
    intro ip hip
    have hip : ip < 2 := hip
    refine Input.lattice_win ?_ ((duo_num none (.inl rfl) 0).lat ip hip)
    funext k
    dsimp only
    rw [same (.win ip k) (fun h => nomatch h), obj_val (.win ip k) hip]
    exact duo_val [some witS, none] 0 (.win ip k) hip
  have ht : (calculate (obj (but (.a0 1 0) 5))).1 = .ok () := (returns_iff (obj_wf _)).2
    ⟨List.cons_ne_nil _ _, (evaluates_iff (obj_wf _) (obj_assign _)).2 (obj_values _), hc⟩
  have ht' : calculate (obj (but (.a0 1 0) 5)) = (.ok (), (calculate (obj (but (.a0 1 0) 5))).2) := Prod.ext ht rfl
  obtain ⟨o, o', h1, h2, h3⟩ := C106_unselected_partial (obj_wf _) (obj_wf _) (obj_assign _) (obj_assign _) hs' ht' (is := 0) rfl rfl rfl
    (fun _ => rfl) (fun x hx => same x (by rintro rfl; simp at hx)) (fun ip hip => ⟨rfl, fun _ => rfl, fun x hx => same x (by
      rintro rfl
      rw [← Option.some.inj hx] at hip
      exact hip rfl)⟩)
  obtain ⟨-, -, -, -, -, -, k⟩ := C79_effect (obj_wf _) (obj_assign _) hs'
  obtain ⟨-, o2, -, g2, -, u, hu, e⟩ := k 0 _ rfl
  obtain rfl := Option.some.inj (h1.symm.trans g2)
  obtain ⟨f, hf⟩ := (duo_num none (.inl rfl) 0).det 0 _ rfl
  rw [← vars_meant (obj_values vars2)] at hu
  obtain rfl := Res.ok.inj (hu.symm.trans hf)
  exact ⟨s', _, o, o', _, hs', ht', but_val (.a0 1 0) 5 hw (fun h => nomatch h) (fun _ _ _ h => nomatch h), obj_val _ hw, h1, h2, e, h3.trans e⟩

end Pdffit.C106
