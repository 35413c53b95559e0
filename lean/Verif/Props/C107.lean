import Verif.Props.C41
import Verif.Props.C106

/-!
# C107: a common factor of the occupancies of a phase is a factor of its PDF

Observable content: when the occupancies of all atoms of a phase are multiplied by `c`, its part of the PDF is multiplied by `c`, so that the effect is that
of a scale factor of the phase multiplied by `c` (`C107_phase`, `C107_pdf`). After `calc()` the curve is the same when all occupancies of a phase are
multiplied by `c` and its scale factor is divided by `c` (`C107_calc`): from the curve of a single phase one of both cannot be told.
-/

namespace Pdffit.C107
open Geom Det Deriv Layout Conf Full Calc C79 _root_.Pdffit.Parser

/-- The phase with all occupancies multiplied by `c`. -/
def scaleOcc (c : ℝ) (ph : PPhase) : PPhase := { ph with atom := ph.atom.map fun a => { a with occ := c * a.occ } }

section
variable (c : ℝ) (ph : PPhase)

theorem len : (scaleOcc c ph).atom.length = ph.atom.length := by simp [scaleOcc]

theorem np : (scaleOcc c ph).np = c * ph.np := by
  unfold PPhase.np scaleOcc
  rw [List.map_map, ← List.sum_map_mul_left]
  rfl

theorem bavg (hc : c ≠ 0) : (scaleOcc c ph).bavg = ph.bavg := by
  unfold PPhase.bavg
  rw [np, ← mul_div_mul_left (ph.atom.map fun a => a.occ * a.sf).sum _ hc, ← List.sum_map_mul_left]
  congr 2
  unfold scaleOcc
  rw [List.map_map]
  apply List.map_congr_left
  intro a _
  simp only [Function.comp]
  ring

theorem atm (i : ℕ) : (scaleOcc c ph).atm i = { ph.atm i with occ := c * (ph.atm i).occ } := by
  unfold PPhase.atm scaleOcc
  by_cases h : i < ph.atom.length
  · simp [List.getD, h]
  · have h' : ph.atom.length ≤ i := not_lt.1 h
    have e : ph.atom[i]? = none := List.getElem?_eq_none h'
    simp only [List.getD, List.getElem?_map, e, Option.map_none, Option.getD_none]
    show (⟨0, 0, 0, 0⟩ : PAtom) = ⟨0, c * 0, 0, 0⟩
    rw [mul_zero]

theorem weight (hc : c ≠ 0) (i : ℕ) : (scaleOcc c ph).weight i = ph.weight i := by
  unfold PPhase.weight
  rw [bavg c ph hc, atm]

theorem toPhs : (scaleOcc c ph).toPhs = ph.toPhs := by
  unfold PPhase.toPhs scaleOcc
  simp only [List.map_map]
  rfl

theorem sphere_eq (D : Data) : sphere D (scaleOcc c ph) = sphere D ph := by
  unfold sphere
  rw [toPhs]
  rfl

theorem visited_eq (D : Data) (s : Sel) : visited D (scaleOcc c ph) s = visited D ph s := by
  unfold visited
  rw [sphere_eq, len]

theorem event_eq (D : Data) (x : (ℕ × ℕ) × (ℤ × ℤ × ℤ)) : eventOf D (scaleOcc c ph) x = eventOf D ph x := by
  unfold eventOf
  rw [atm, atm]
  unfold event PPhase.msd
  rw [toPhs]
  rfl

theorem ampl_eq (hc : c ≠ 0) (i j : ℕ) : ampl (scaleOcc c ph) i j = c ^ 2 * ampl ph i j := by
  unfold ampl
  rw [weight c ph hc, weight c ph hc, atm, atm]
  ring

theorem rtot_eq (hc : c ≠ 0) : rtot (scaleOcc c ph) = rtot ph := by
  unfold rtot
  rw [len]
  simp only [weight c ph hc]

theorem ract_eq (hc : c ≠ 0) (s : Sel) : ract (scaleOcc c ph) s = ract ph s := by
  unfold ract
  rw [len]
  simp only [weight c ph hc]

theorem height_eq (hc : c ≠ 0) (D : Data) (i j : ℕ) (e : Ev) (ig : ℤ) : height D (scaleOcc c ph) i j e ig = c ^ 2 * height D ph i j e ig := by
  cases e with
  | skip => exact (mul_zero _).symm
  | nan => exact (mul_zero _).symm
  | peak d g =>
    unfold height
    dsimp only
    rw [ampl_eq c ph hc, show ie D (scaleOcc c ph) d g = ie D ph d g from rfl]
    split <;> ring

theorem bad_eq (hc : c ≠ 0) (D : Data) (s : Sel) : Bad D (scaleOcc c ph) s ↔ Bad D ph s := by
  unfold Bad
  rw [visited_eq, np, show (scaleOcc c ph).ncv = ph.ncv from rfl, bavg c ph hc, rtot_eq c ph hc]
  simp only [event_eq, mul_eq_zero, hc, false_or]

theorem pairSum_eq (hc : c ≠ 0) (D : Data) (s : Sel) (i : ℤ) : pairSum D (scaleOcc c ph) s i = c ^ 2 * pairSum D ph s i := by
  unfold pairSum
  rw [visited_eq, ← List.sum_map_mul_left]
  simp only [event_eq, height_eq c ph hc]

/-- The part of a phase is multiplied by the common factor of its occupancies. -/
theorem curve_eq (hc : c ≠ 0) (D : Data) (s : Sel) (i : ℤ) : curve D (scaleOcc c ph) s i = c * curve D ph s i := by
  unfold curve
  rw [pairSum_eq c ph hc, np, show (scaleOcc c ph).rho0 = c * ph.rho0 by unfold PPhase.rho0; rw [np, mul_div_assoc]; rfl, ract_eq c ph hc, rtot_eq c ph hc,
    show envelope D (scaleOcc c ph) = envelope D ph from rfl,
    show c ^ 2 * pairSum D ph s i / (c * ph.np) = c * (pairSum D ph s i / ph.np) by rw [pow_two, mul_assoc, mul_div_mul_left _ _ hc, mul_div_assoc]]
  ring

end

/-- The phase with all occupancies multiplied by `c` and the scale factor divided by `c`. -/
noncomputable def trade (c : ℝ) (ph : PPhase) : PPhase := { scaleOcc c ph with pscale := ph.pscale / c }

theorem trade_bad {c : ℝ} (hc : c ≠ 0) (D : Data) (ph : PPhase) (s : Sel) : Bad D (trade c ph) s ↔ Bad D ph s := bad_eq c ph hc D s

theorem trade_part {c : ℝ} (hc : c ≠ 0) {D : Data} (h : D.Ok) (ph : PPhase) (s : Sel) (i : ℤ) :
    D.dscale * (trade c ph).pscale * filt D (curve D (trade c ph) s) i = D.dscale * ph.pscale * filt D (curve D ph s) i := by
  have e : curve D (trade c ph) s = fun i => c * curve D ph s i := funext fun i => curve_eq c ph hc D s i
  rw [e, filt_smul h, show (trade c ph).pscale = ph.pscale / c from rfl]
  field_simp

theorem used_all {P : PPhase × Sel → Prop} (hP : ∀ c, c ≠ 0 → ∀ y : PPhase × Sel, P (trade c y.1, y.2) ↔ P y) (l : List (Option (PPhase × Sel))) :
    ∀ c : ℕ → ℝ, (∀ k, c k ≠ 0) → ((∀ x, some x ∈ l.mapIdx (fun ip x => x.map fun y => (trade (c ip) y.1, y.2)) → P x) ↔ ∀ x, some x ∈ l → P x) := by
  induction l with
  | nil => intro c _; simp
  | cons a l ih =>
    intro c hc
    have := ih (fun k => c (k + 1)) fun k => hc _
    rw [List.mapIdx_cons]
    simp only [List.mem_cons, or_imp, forall_and]
    rw [this]
    refine and_congr_left fun _ => ?_
    cases a with
    | none => simp
    | some y =>
      simp only [Option.map_some, Option.some.injEq, forall_eq]
      exact hP _ (hc 0) y

theorem used_sum {G : PPhase × Sel → ℝ} (hG : ∀ c, c ≠ 0 → ∀ y : PPhase × Sel, G (trade c y.1, y.2) = G y) (l : List (Option (PPhase × Sel))) :
    ∀ c : ℕ → ℝ, (∀ k, c k ≠ 0) →
      (((l.mapIdx fun ip x => x.map fun y => (trade (c ip) y.1, y.2)).filterMap id).map G).sum = ((l.filterMap id).map G).sum := by
  induction l with
  | nil => intro c _; simp
  | cons a l ih =>
    intro c hc
    have := ih (fun k => c (k + 1)) fun k => hc _
    rw [List.mapIdx_cons]
    cases a with
    | none => exact this
    | some y =>
      show G (trade (c 0) y.1, y.2) + _ = G y + _
      rw [hG _ (hc 0) y]
      exact congrArg (G y + ·) this

/-- **C107** The PDF of one phase: not a number in the same cases, otherwise multiplied by `c`. -/
theorem C107_phase {D : Data} (h : D.Ok) (ph : PPhase) (s : Sel) {c : ℝ} (hc : c ≠ 0) : ∃ u u', determine D [some (ph, s)] = .ok u ∧
    determine D [some (scaleOcc c ph, s)] = .ok u' ∧
    (u = none ∧ u' = none ∨ ∃ f f', u = some f ∧ u' = some f' ∧ ∀ i, D.ncmin ≤ i → i ≤ D.ncmax → f' i = c * f i) := by
  classical
  obtain ⟨g, h1, h2⟩ := determine_spec h [some (ph, s)]
  obtain ⟨g', h1', h2'⟩ := determine_spec h [some (scaleOcc c ph, s)]
  refine ⟨_, _, h1, h1', ?_⟩
  by_cases hb : Bad D ph s
  · left
    rw [if_neg fun k => k (ph, s) (by simp) hb, if_neg fun k => k (scaleOcc c ph, s) (by simp) ((bad_eq c ph hc D s).2 hb)]
    exact ⟨rfl, rfl⟩
  · right
    refine ⟨g, g', if_pos ?_, if_pos ?_, fun i i1 i2 => ?_⟩
    · intro x hx
      simp only [List.mem_singleton, Option.some.injEq] at hx
      subst hx
      exact hb
    · intro x hx
      simp only [List.mem_singleton, Option.some.injEq] at hx
      subst hx
      exact fun k => hb ((bad_eq c ph hc D s).1 k)
    · have e : curve D (scaleOcc c ph) s = fun i => c * curve D ph s i := funext fun i => curve_eq c ph hc D s i
      rw [h2 i i1 i2, h2' i i1 i2]
      simp only [List.filterMap_cons, id_eq, List.filterMap_nil, List.map_cons, List.map_nil, List.sum_cons, List.sum_nil, add_zero]
      rw [e, filt_smul h, show (scaleOcc c ph).pscale = ph.pscale from rfl]
      ring

/-- **C107** The PDF of any number of phases does not change when in each of them the occupancies are multiplied and the scale factor is divided by a number. -/
theorem C107_pdf {D : Data} (h : D.Ok) (psel : List (Option (PPhase × Sel))) {c : ℕ → ℝ} (hc : ∀ k, c k ≠ 0) : ∃ u u', determine D psel = .ok u ∧
    determine D (psel.mapIdx fun ip x => x.map fun y => (trade (c ip) y.1, y.2)) = .ok u' ∧
    (u = none ∧ u' = none ∨ ∃ f f', u = some f ∧ u' = some f' ∧ ∀ i, D.ncmin ≤ i → i ≤ D.ncmax → f' i = f i) := by
  classical
  obtain ⟨g, h1, h2⟩ := determine_spec h psel
  obtain ⟨g', h1', h2'⟩ := determine_spec h (psel.mapIdx fun ip x => x.map fun y => (trade (c ip) y.1, y.2))
  refine ⟨_, _, h1, h1', ?_⟩
  have hb := used_all (P := fun x => ¬Bad D x.1 x.2) (fun k hk y => not_congr (trade_bad hk D y.1 y.2)) psel c hc
  by_cases hg : ∀ x, some x ∈ psel → ¬Bad D x.1 x.2
  · right
    refine ⟨g, g', if_pos hg, if_pos (hb.2 hg), fun i i1 i2 => ?_⟩
    rw [h2 i i1 i2, h2' i i1 i2]
    exact used_sum (fun k hk y => trade_part hk h y.1 y.2 i) psel c hc
  · left
    exact ⟨if_neg hg, if_neg fun k => hg (hb.1 k)⟩

/-- **C107** Two objects that differ in values only: in `t` the occupancies of phase `ip` are multiplied by `c ip` and its scale factor is divided by it.
After `calc()` they show the same curves. -/
theorem C107_calc {s t s' t' : St} (hs : Wf s) (ht : Wf t) (as : Assign s) (at' : Assign t) (hI : t.I = s.I) (cs : calculate s = (.ok (), s'))
    (ct : calculate t = (.ok (), t')) {c : ℕ → ℝ} (hc : ∀ k, c k ≠ 0) (hocc : ∀ ip ia, t.I.val (meant t) (.occ ip ia) = c ip * s.I.val (meant s) (.occ ip ia))
    (hscale : ∀ ip, t.I.val (meant t) (.pscale ip) = s.I.val (meant s) (.pscale ip) / c ip)
    (hrest : ∀ x, (∀ ip ia, x ≠ .occ ip ia) → (∀ ip, x ≠ .pscale ip) → t.I.val (meant t) x = s.I.val (meant s) x) {is : ℕ} {d : SetIn}
    (hd : s.I.sets[is]? = some d) : ∃ o o', s'.sets[is]? = some o ∧ t'.sets[is]? = some o' ∧ getpdf_fit o' = getpdf_fit o := by
  obtain ⟨-, -, -, -, -, -, k1⟩ := C79_effect hs as cs
  obtain ⟨-, -, -, -, -, -, k2⟩ := C79_effect ht at' ct
  obtain ⟨-, o, -, ho, -, u, hu, e⟩ := k1 is d hd
  obtain ⟨-, o', -, ho', -, u', hu', e'⟩ := k2 is d (hI ▸ hd)
  refine ⟨o, o', ho, ho', ?_⟩
  have hok := Input.dat_ok hs.input (List.mem_of_getElem? hd) (meant s) is
  have hdat : t.I.dat (meant t) is d = s.I.dat (meant s) is d := by
    unfold Input.dat dataFrom
    rw [hrest (.dscale is) (fun _ _ h => nomatch h) (fun _ h => nomatch h), hrest (.qdamp is) (fun _ _ h => nomatch h) (fun _ h => nomatch h),
      hrest (.qbroad is) (fun _ _ h => nomatch h) (fun _ h => nomatch h)]
  have hph : ∀ ip ph, phaseFrom (t.I.val (meant t)) ip ph = trade (c ip) (phaseFrom (s.I.val (meant s)) ip ph) := by
    intro ip ph
    unfold trade scaleOcc phaseFrom
    have ha : ph.atom.mapIdx (atomFrom (t.I.val (meant t)) ip) =
        (ph.atom.mapIdx (atomFrom (s.I.val (meant s)) ip)).map fun a => { a with occ := c ip * a.occ } := by
      refine List.ext_getElem? fun ia => ?_
      rw [List.getElem?_map, List.getElem?_mapIdx, List.getElem?_mapIdx, Option.map_map]
      congr 1
      funext a
      unfold atomFrom
      simp only [Function.comp_apply, hocc, fun k => hrest (.pos ip ia k) (fun _ _ h => nomatch h) (fun _ h => nomatch h),
        fun k => hrest (.u ip ia k) (fun _ _ h => nomatch h) (fun _ h => nomatch h)]
    rw [ha, hscale]
    simp only [fun k => hrest (.a0 ip k) (fun _ _ h => nomatch h) (fun _ h => nomatch h), fun k => hrest (.win ip k) (fun _ _ h => nomatch h) (fun _ h => nomatch h),
      hrest (.delta2 ip) (fun _ _ h => nomatch h) (fun _ h => nomatch h), hrest (.delta1 ip) (fun _ _ h => nomatch h) (fun _ h => nomatch h),
      hrest (.sratio ip) (fun _ _ h => nomatch h) (fun _ h => nomatch h), hrest (.spdiameter ip) (fun _ _ h => nomatch h) (fun _ h => nomatch h)]
  have hsel : t.I.sel (meant t) d = (s.I.sel (meant s) d).mapIdx fun ip x => x.map fun y => (trade (c ip) y.1, y.2) := by
    unfold Input.sel selFrom
    rw [List.mapIdx_mapIdx, hI]
    congr 1
    funext ip x
    cases x with
    | none => rfl
    | some y =>
      simp only [Function.comp_apply, Option.map_some]
      rw [← hI, hph, hI]
  rw [hdat, hsel] at hu'
  obtain ⟨w, w', g1, g2, g3⟩ := C107_pdf hok (s.I.sel (meant s) d) hc
  obtain rfl := Res.ok.inj (hu.symm.trans g1)
  obtain rfl := Res.ok.inj (hu'.symm.trans g2)
  rw [e, e']
  rcases g3 with ⟨rfl, rfl⟩ | ⟨f, f', rfl, rfl, hff⟩
  · rfl
  · rw [Option.map_some, Option.map_some]
    refine congrArg some (List.map_congr_left fun i hi => ?_)
    obtain ⟨i1, i2⟩ := mem_grid.1 hi
    have i1 : (s.I.dat (meant s) is d).nfmin ≤ i := i1
    have i2 : i ≤ (s.I.dat (meant s) is d).nfmax := i2
    exact hff i ((ncmin_le_nfmin hok).trans i1) (i2.trans (nfmax_le_ncmax hok))

/-! ## Example -/

open C97 C106

/-- The variables of C97 with doubled occupancies and halved scale factors. -/
noncomputable def doubled : ℕ → ℝ := fun a =>
  match (setup [2, 2] 1).slots[a]? with
  | some (.occ _ _) => 2 * vars2 a
  | some (.pscale _) => vars2 a / 2
  | _ => vars2 a

/-- A variable that is neither constrained nor a coordinate has its value. -/
theorem free_val (v : ℕ → ℝ) (x : RVar) (hq : x ≠ .qbroad 0) (hp : ∀ ip ia k, x ≠ .pos ip ia k) :
    (obj v).I.val (meant (obj v)) x = v ((setup [2, 2] 1).slots.idxOf x) := by
  have H := duo_ok [some witS, none] 0
  have hf : (cons2.reverse.find? fun c => c.addr == (duo 1 [some witS, none] 0).addr x) = none := by
    rw [List.find?_eq_none]
    intro c' hc'
    simp only [cons2, List.reverse_cons, List.reverse_nil, List.nil_append, List.mem_singleton] at hc'
    subst hc'
    intro e
    have hm := (C47.complete [2, 2] 1 (.qbroad 0)).2 val_qbroad0
    rw [duo_addr] at e
    exact hq ((List.idxOf_inj hm).1 (beq_iff_eq.1 e)).symm
  have hi : (duo 1 [some witS, none] 0).icc ((duo 1 [some witS, none] 0).addr x) = none := by
    by_cases hx : C47.Exists [2, 2] 1 x
    · rw [icc_addr H hx]
      cases x with
      | pos ip ia k => exact absurd rfl (hp ip ia k)
      | _ => rfl
    · refine icc_other fun y hy e => ?_
      have hy : C47.Exists [2, 2] 1 y := hy
      rw [← C47.complete] at hy
      rw [duo_addr, duo_addr] at e
      exact hx ((List.idxOf_inj hy).1 e ▸ (C47.complete _ _ _).1 hy)
  rw [meant_obj]
  unfold wrapVars
  beta_reduce
  rw [hf, hi]
  dsimp only
  rw [duo_addr]

theorem slot_get (x : RVar) : (setup [2, 2] 1).slots[(setup [2, 2] 1).slots.idxOf x]? = some x ∨
    (setup [2, 2] 1).slots[(setup [2, 2] 1).slots.idxOf x]? = none := by
  by_cases hx : x ∈ (setup [2, 2] 1).slots
  · left
    rw [List.getElem?_eq_getElem (List.idxOf_lt_length_of_mem hx), List.getElem_idxOf]
  · right
    rw [List.idxOf_eq_length hx, List.getElem?_eq_none le_rfl]

theorem vars2_none {a : ℕ} (h : (setup [2, 2] 1).slots[a]? = none) : vars2 a = 0 := by
  unfold vars2
  rw [h]
  rfl

/-- The hypotheses are satisfied: doubled occupancies and halved scale factors, and the curve is one of numbers. -/
example : ∃ s' t' o o' l, calculate (obj vars2) = (.ok (), s') ∧ calculate (obj doubled) = (.ok (), t') ∧
    (obj doubled).I.val (meant (obj doubled)) (.occ 0 1) = 2 ∧ (obj vars2).I.val (meant (obj vars2)) (.occ 0 1) = 1 ∧
    s'.sets[0]? = some o ∧ t'.sets[0]? = some o' ∧ getpdf_fit o = some l ∧ getpdf_fit o' = some l := by
  obtain ⟨s', hs'⟩ := obj_returns
  have hocc : ∀ ip ia, (obj doubled).I.val (meant (obj doubled)) (.occ ip ia) = 2 * (obj vars2).I.val (meant (obj vars2)) (.occ ip ia) := by
    intro ip ia
    rw [free_val doubled (.occ ip ia) (fun h => nomatch h) (fun _ _ _ h => nomatch h), free_val vars2 (.occ ip ia) (fun h => nomatch h) (fun _ _ _ h => nomatch h)]
    unfold doubled
    rcases slot_get (.occ ip ia) with h | h <;> rw [h]
    dsimp only
    rw [vars2_none h, mul_zero]
  have hsc : ∀ ip, (obj doubled).I.val (meant (obj doubled)) (.pscale ip) = (obj vars2).I.val (meant (obj vars2)) (.pscale ip) / 2 := by
    intro ip
    rw [free_val doubled (.pscale ip) (fun h => nomatch h) (fun _ _ _ h => nomatch h), free_val vars2 (.pscale ip) (fun h => nomatch h) (fun _ _ _ h => nomatch h)]
    unfold doubled
    rcases slot_get (.pscale ip) with h | h <;> rw [h]
    dsimp only
    rw [vars2_none h, zero_div]
  have hrest : ∀ x, (∀ ip ia, x ≠ .occ ip ia) → (∀ ip, x ≠ .pscale ip) →
      (obj doubled).I.val (meant (obj doubled)) x = (obj vars2).I.val (meant (obj vars2)) x := by
    intro x h1 h2
    have e : doubled ((duo 1 [some witS, none] 0).addr x) = vars2 ((duo 1 [some witS, none] 0).addr x) := by
      rw [duo_addr]
      unfold doubled
      rcases slot_get x with h | h <;> rw [h]
      cases x with
      | occ ip ia => exact absurd rfl (h1 ip ia)
      | pscale ip => exact absurd rfl (h2 ip)
      | _ => rfl
    rw [meant_obj, meant_obj]
    unfold wrapVars
    beta_reduce
    rw [e]
  have hc : Cells (obj doubled).I ((obj doubled).I.vars cons2 doubled (C74.store 1)) := by
    have e : (obj doubled).I.vars cons2 doubled (C74.store 1) = meant (obj doubled) := vars_meant (obj_values _)
    rw [e]
    intro ip hip
    have hip : ip < 2 := hip
    refine Input.lattice_win ?_ ((duo_num none (.inl rfl) 0).lat ip hip)
    funext k
    dsimp only
    rw [hrest (.win ip k) (fun _ _ h => nomatch h) (fun _ h => nomatch h), obj_val (.win ip k) hip]
    exact duo_val [some witS, none] 0 (.win ip k) hip
  have ht : (calculate (obj doubled)).1 = .ok () := (returns_iff (obj_wf _)).2
    ⟨List.cons_ne_nil _ _, (evaluates_iff (obj_wf _) (obj_assign _)).2 (obj_values _), hc⟩
  have ht' : calculate (obj doubled) = (.ok (), (calculate (obj doubled)).2) := Prod.ext ht rfl
  obtain ⟨o, o', h1, h2, h3⟩ := C107_calc (obj_wf vars2) (obj_wf doubled) (obj_assign _) (obj_assign _) rfl hs' ht' (c := fun _ => 2) (fun _ => two_ne_zero)
    hocc hsc hrest (is := 0) rfl
  obtain ⟨-, -, -, -, -, -, k⟩ := C79_effect (obj_wf _) (obj_assign _) hs'
  obtain ⟨-, o2, -, g2, -, u, hu, e⟩ := k 0 _ rfl
  obtain rfl := Option.some.inj (h1.symm.trans g2)
  obtain ⟨f, hf⟩ := (duo_num none (.inl rfl) 0).det 0 _ rfl
  rw [← vars_meant (obj_values vars2)] at hu
  obtain rfl := Res.ok.inj (hu.symm.trans hf)
  have hx : C47.Exists [2, 2] 1 (.occ 0 1) := ⟨2, rfl, by norm_num⟩
  have hone : (obj vars2).I.val (meant (obj vars2)) (.occ 0 1) = 1 := obj_val _ hx
  exact ⟨s', _, o, o', _, hs', ht', by rw [hocc, hone, mul_one], hone, h1, h2, e, h3.trans e⟩

end Pdffit.C107
