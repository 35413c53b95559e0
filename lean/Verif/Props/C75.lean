import Verif.Lemmas.FullRun
import Verif.Props.C02
import Verif.Props.C04
import Verif.Props.C74

/-!
# C75: the reported fit is that of the PDF of the refined structure

The whole of `refine()` with arbitrary constraints on arbitrary variables: whenever it returns, the structure and the
settings of the data sets are those that the constraints prescribe at the reported parameters, `getpdf_fit` is the PDF calculated from
them, and `getrw` is its weighted residual, not larger than that of the PDF at the start.

Nothing is assumed about the calculation of the PDF: `C04` and `C05` are for an arbitrary calculation, here it is the model of `determine`.
-/

namespace Pdffit.C75
open Geom Det Deriv Layout Conf DMat Full _root_.Pdffit.Parser

/-- Structures and settings at the parameters `par`: constrained variables have the value of their constraint, the others their value in `v0`;
coordinates of atoms are wrapped into the supercell. -/
noncomputable def structureAt (I : Input) (cons : List (Constr (List Char))) (v0 : ℕ → ℝ) (par : ParStore ℝ) : ℕ → ℝ :=
  wrapVars I.icc fun a =>
    match cons.find? fun c => c.addr == a with
    | some c => (c.value (fparse builtinTab) par).getD 0
    | none => v0 a

/-- Weighted sum of the squares of the data. -/
noncomputable def norm (I : Input) : ℝ := C74.over I fun _ s i => s.d.obs.getD i.toNat 0 ^ 2

/-- Weighted residual of the PDF calculated from `v`. -/
noncomputable def residual (I : Input) (v : ℕ → ℝ) : ℝ := Real.sqrt (C74.chi I v / norm I)

/-- The constraints: at most one for a variable, each assigns, and is for a refinable variable of an existing phase, atom or data set. -/
structure Fair (I : Input) (cons : List (Constr (List Char))) : Prop where
  one : (cons.map Constr.addr).Nodup
  assigns : ∀ c ∈ cons, c.assigns
  target : ∀ c ∈ cons, ∃ x, C47.Exists I.natoms I.nset x ∧ c.addr = I.addr x

section
variable {I : Input} {p0 : ParStore ℝ} {cons : List (Constr (List Char))} {v0 : ℕ → ℝ}

theorem value_of_cres {par : ParStore ℝ} (hw : par.Wf) {c : Constr (List Char)} (ha : c.assigns)
    (h : ∃ r, cres (fparse builtinTab) par c = .ok r) : ∃ y, c.value (fparse builtinTab) par = some y := by
  obtain ⟨r, h⟩ := h
  unfold cres at h
  unfold Constr.value
  cases hf : c.form with
  | some f =>
    rw [hf] at h
    dsimp only at h ⊢
    cases hp : fparse builtinTab f par with
    | error x => rw [hp] at h; cases h
    | ok r => exact ⟨_, rfl⟩
  | none =>
    rw [hf] at h
    dsimp only at h ⊢
    unfold ParStore.getpar
    cases hp : par.parfind (toUnsigned c.idef) with
    | none => rw [hp] at h; cases h
    | some j =>
      have hj : j < par.p.length := by
        have := (C08.parfind_id hw).1 hp
        rw [hw.lp]
        exact (List.getElem?_eq_some_iff.1 this).1
      dsimp only
      rw [Res.at?_of_lt hj]
      dsimp only
      cases ht : c.ctype with
      | user => simp [Constr.assigns, hf, ht] at ha
      | ident => exact ⟨_, rfl⟩
      | fcomp => exact ⟨_, rfl⟩
      | fsqr => exact ⟨_, rfl⟩

/-- The engine's variables are the prescribed ones. -/
theorem vars_eq (hF : Fair I cons) {par : ParStore ℝ} (hv : ∀ c ∈ cons, ∃ y, c.value (fparse builtinTab) par = some y) :
    I.vars cons v0 par = structureAt I cons v0 par := by
  unfold Input.vars structureAt
  congr 1
  funext a
  rw [C74.cstep_fold cons hv]
  cases hf : cons.find? fun c => c.addr == a with
  | none =>
    dsimp only
    rw [List.find?_eq_none] at hf
    exact foldl_value_other (parse := fparse builtinTab) (par := par) cons a (fun c hc => by simpa using hf c hc) v0
  | some c =>
    dsimp only
    have hm := List.mem_of_find?_eq_some hf
    have ha : c.addr = a := by simpa using List.find?_some hf
    obtain ⟨y, hy⟩ := hv c hm
    rw [hy, Option.getD_some, ← ha]
    obtain ⟨l, r, hlr⟩ := List.append_of_mem hm
    rw [hlr]
    refine foldl_value_last l r c ?_ hy v0
    intro c' hc' he
    have := hF.one
    rw [hlr, List.map_append, List.map_cons] at this
    have := (List.nodup_cons.1 (List.nodup_append.1 this).2.1).1
    exact this (List.mem_map.2 ⟨c', hc', he⟩)

theorem sum_points (I : Input) (f : Pt ℝ → ℝ) (P : ℕ → SetIn → ℤ → Pt ℝ) (g : ℕ → SetIn → ℤ → ℝ)
    (h : ∀ is s i, f (P is s i) = s.d.wic.getD i.toNat 0 * g is s i) :
    ((I.sets.mapIdx fun is s => (grid s.d.D.nfmin s.d.D.nfmax).map (P is s)).flatten.map f).sum = C74.over I g := by
  rw [List.map_flatten, List.sum_flatten, List.map_map, C74.map_mapIdx]
  unfold C74.over
  congr 1
  refine C74.mapIdx_congr fun is s _ => ?_
  simp only [Function.comp, List.map_map]
  congr 1
  exact List.map_congr_left fun i _ => h is s i

open Classical in
/-- Chi-square as a function of the values of the parameters. -/
noncomputable def chiAt (I : Input) (p0 : ParStore ℝ) (cons : List (Constr (List Char))) (v0 : ℕ → ℝ) (tv : ℕ → RVar) (p : List ℝ) : Option ℝ :=
  if I.Works p0 cons v0 tv { p0 with p := p } then some (C74.chi I (I.vars cons v0 { p0 with p := p })) else none

theorem par_eq {par : ParStore ℝ} (h : SameKeys p0 par) : par = { p0 with p := par.p } := by
  cases par; cases p0
  obtain ⟨h1, h2, -⟩ := h
  simp_all

theorem det (H : I.Ok) (dmax : ℝ) (hF : Fair I cons) {tv : ℕ → RVar}
    (htv : ∀ (c : ℕ) x, cons[c]? = some x → C47.Exists I.natoms I.nset (tv c) ∧ x.addr = I.addr (tv c)) :
    (constrTheory (I.static dmax)).quiet.Det p0 (I.Ready dmax p0 cons v0) (chiAt I p0 cons v0 tv) (norm I) ∧
    ∀ par w w', SameKeys p0 par → I.Ready dmax p0 cons v0 w → (constrTheory (I.static dmax)).eval par w = (w', none) →
      I.Works p0 cons v0 tv par ∧ w'.vars = I.vars cons v0 par ∧ ∃ G : ℕ → ℤ → ℕ → ℝ, (I.static dmax).pts w'.curve =
        I.sets.mapIdx (fun is s => (grid s.d.D.nfmin s.d.D.nfmax).map (Input.pt s (I.curveOf (I.vars cons v0 par) is s) (G is))) := by
  have key : ∀ par w w', SameKeys p0 par → I.Ready dmax p0 cons v0 w → (constrTheory (I.static dmax)).eval par w = (w', none) →
      I.Works p0 cons v0 tv par ∧ I.Ready dmax p0 cons v0 w' ∧ w'.vars = I.vars cons v0 par ∧ ∃ G : ℕ → ℤ → ℕ → ℝ, (I.static dmax).pts w'.curve =
        I.sets.mapIdx (fun is s => (grid s.d.D.nfmin s.d.D.nfmax).map (Input.pt s (I.curveOf (I.vars cons v0 par) is s) (G is))) := by
    intro par w w' hk hw he
    have hs : C53.Same p0 par := ⟨hk.2.1, hk.1, hk.2.2⟩
    have hW := Input.eval_none H dmax hF.one tv htv hw hs he
    obtain ⟨w1, G, e1, e2, e3, e4, -⟩ := Input.eval_ok H dmax hF.one hF.assigns tv htv hw hs hW.con hW.num hW.div
    rw [e1] at he
    cases he
    exact ⟨hW, e2, e3, G, e4⟩
  refine ⟨⟨fun par w _ h => h, ?_, ?_, ?_⟩, fun par w w' hk hw he => ?_⟩
  · intro par w hk hw
    unfold Theory.quiet
    dsimp only
    split
    · rename_i hn
      exact (key par w _ hk hw (Prod.ext rfl hn)).2.1
    · exact hw
  · intro par w w' x hk hw he
    unfold chiAt
    rw [← par_eq hk, if_neg]
    intro hW
    obtain ⟨w1, G, e1, -⟩ := Input.eval_ok H dmax hF.one hF.assigns tv htv hw ⟨hk.2.1, hk.1, hk.2.2⟩ hW.con hW.num hW.div
    rw [quiet_eval_none.2 e1] at he
    cases he
  · intro par w w' hk hw he
    obtain ⟨hW, -, -, G, e4⟩ := key par w w' hk hw (quiet_eval_none.1 he)
    have e4' : (constrTheory (I.static dmax)).quiet.pts w' = _ := e4
    unfold chiAt
    rw [← par_eq hk, if_pos hW, e4']
    constructor
    · congr 1
      exact (sum_points I _ _ _ fun is s i => rfl).symm
    · exact sum_points I _ _ _ fun is s i => by simp [Input.pt]; ring
  · obtain ⟨h1, -, h3, h4⟩ := key par w w' hk hw he
    exact ⟨h1, h3, h4⟩

theorem targets (hF : Fair I cons) : ∃ tv : ℕ → RVar, ∀ (c : ℕ) x, cons[c]? = some x →
    C47.Exists I.natoms I.nset (tv c) ∧ x.addr = I.addr (tv c) := by
  have : ∀ c : ℕ, ∃ v : RVar, ∀ x, cons[c]? = some x → C47.Exists I.natoms I.nset v ∧ x.addr = I.addr v := by
    intro c
    cases hc : cons[c]? with
    | none => exact ⟨.pscale 0, by simp⟩
    | some x =>
      obtain ⟨v, h1, h2⟩ := hF.target x (List.mem_of_getElem? hc)
      exact ⟨v, by rintro y ⟨⟩; exact ⟨h1, h2⟩⟩
  exact ⟨fun c => (this c).choose, fun c => (this c).choose_spec⟩

/-- The set-up at the start of `refine()`, when it does not raise. -/
theorem start (dmax : ℝ) (ops : List (COp (List Char) ℝ)) (hn : C08.NoRepl (fparse builtinTab) {} ops)
    (w w' : CWorld (List Char) ℝ (List Out)) (hst : CState.run (fparse builtinTab) {} ops = ⟨p0, w.cons, w.dvdp⟩)
    (hcur : ∀ x ∈ w.curve, x.1.WF) (h : (constrTheory (I.static dmax)).setup p0 w = (w', none)) :
    p0.Wf ∧ I.Ready dmax p0 w.cons w.vars w' := by
  have hi := C08.inv_run (fparse_parserOK builtinTab) (fparse_parserUses builtinTab) ops hn
  rw [hst] at hi
  refine ⟨hi.wf, ?_⟩
  have hcon : ∀ c ∈ w.cons, ∃ r, cres (fparse builtinTab) p0 c = .ok r := by
    obtain ⟨cs', v', m', so, h1, -, h3, h4, -⟩ := fill_inv (S := I.static dmax) (par := p0) (fparse_parserOK builtinTab) hi.wf
      ⟨rfl, rfl, rfl⟩ (⟨rfl, fun _ _ => rfl, hi.m, hcur⟩ : CInv (I.static dmax) (fun c => ∀ x ∈ c, x.1.WF) w.cons w.vars w)
    cases so with
    | none => exact (h3 rfl).1
    | some x =>
      exfalso
      simp only [constrTheory, fitSetup] at h
      rw [h1] at h
      cases h
  obtain ⟨w1, g1, g2⟩ := Input.setup_ok (I := I) dmax hi ⟨rfl, fun _ _ => rfl, hi.m, hcur⟩ hcon
  rw [g1] at h
  cases h
  exact g2

theorem loop_mid {W : Type} {th : Theory ℝ W} {J : W → Prop} {chi : List ℝ → Option ℝ} {wn : ℝ} (hd : th.Det p0 J chi wn) (toler : ℝ) (fuel : ℕ) :
    ∀ (s : Statics ℝ) (e : Eng ℝ W), SameKeys p0 e.par → J e.world →
    ∀ c0, (¬ (s.fitRunning = true ∧ e.iter ≠ 0) ∧ chi e.par.p = some c0) ∨ (Mid th p0 J chi wn s e ∧ c0 = e.chisq) →
    (refineLoop th toler fuel (s, e)).2.1 = .done →
    ChiOK th p0 J chi wn (refineLoop th toler fuel (s, e)).1.2 ∧ (refineLoop th toler fuel (s, e)).1.2.chisq ≤ c0 ∧
      (refineLoop th toler fuel (s, e)).1.2.rw2 = (refineLoop th toler fuel (s, e)).1.2.chisq / wn ∧
      ∃ w0, J w0 ∧ th.eval (refineLoop th toler fuel (s, e)).1.2.par w0 = ((refineLoop th toler fuel (s, e)).1.2.world, none) := by
  induction fuel with
  | zero => intro s e _ _ _ _ h; simp [refineLoop] at h
  | succ n ih =>
    intro s e hk hi c0 h hdn
    obtain ⟨-, h1, h2⟩ := refineStep_mid hd toler s e hk hi c0 h
    rw [refineLoop] at hdn ⊢
    dsimp only at hdn ⊢
    split at hdn
    · rename_i ho
      obtain ⟨hm, hle⟩ := h1 ho
      obtain ⟨g1, g2, g3⟩ := ih _ _ hm.ok.keys hm.ok.inv _ (.inr ⟨hm, rfl⟩) hdn
      exact ⟨g1, g2.trans hle, g3⟩
    · rename_i o hne
      dsimp only at hdn ⊢
      obtain ⟨-, h3, h4, h5, h6⟩ := h2 hdn
      exact ⟨h5, h3.le, by rw [h4, h3], h6⟩

/-- The first call of a refinement that ends normally. -/
theorem first_call {W : Type} {th : Theory ℝ W} {toler : ℝ} {fuel : ℕ} {s : Statics ℝ} {e : Eng ℝ W}
    (h : (refineLoop th toler fuel (s, e)).2.1 = .done) :
    (refineStep th toler s e).2.2 = .more ∨ (refineStep th toler s e).2.2 = .done := by
  cases fuel with
  | zero => simp [refineLoop] at h
  | succ n =>
    rw [refineLoop] at h
    dsimp only at h
    split at h
    · exact .inl (by assumption)
    · exact .inr h

theorem setup_none {W : Type} {th : Theory ℝ W} {toler : ℝ} {s : Statics ℝ} {e : Eng ℝ W} (hr : ¬ (s.fitRunning = true ∧ e.iter ≠ 0))
    (h : (refineStep th toler s e).2.2 = .more ∨ (refineStep th toler s e).2.2 = .done) : ∃ w, th.setup e.par e.world = (w, none) := by
  unfold refineStep at h
  rw [if_neg hr] at h
  dsimp only at h
  cases hs : th.setup e.par e.world with
  | mk w x =>
    rw [hs] at h
    cases x with
    | none => exact ⟨w, rfl⟩
    | some x => rcases h with h | h <;> cases h

end

/-- **C75** The phases that enter the PDF of a data set: the selected ones, each with its own atoms, the values of the variables of this phase and
these atoms, the scattering factors of this data set, and what is not refinable as it was read. -/
theorem C75_structure (I : Input) (v : ℕ → ℝ) (s : SetIn) (ip : ℕ) (ph : PPhase) (hp : I.phases[ip]? = some ph) :
    (s.sel.getD ip none = none → (I.sel v s)[ip]? = some none) ∧
    ∀ σ, s.sel.getD ip none = some σ → ∃ q, (I.sel v s)[ip]? = some (some (q, σ)) ∧ q.atom.length = ph.atom.length ∧
      (∀ ia, ia < ph.atom.length → (q.atm ia).sf = s.sf ip ia ∧ (q.atm ia).occ = v (I.addr (.occ ip ia)) ∧
        (∀ k, (q.atm ia).pos k = v (I.addr (.pos ip ia k))) ∧ ∀ k, (q.atm ia).u k = v (I.addr (.u ip ia k))) ∧
      (∀ k, q.cell.a0 k = v (I.addr (.a0 ip k)) ∧ q.cell.win k = v (I.addr (.win ip k))) ∧
      q.delta1 = v (I.addr (.delta1 ip)) ∧ q.delta2 = v (I.addr (.delta2 ip)) ∧ q.sratio = v (I.addr (.sratio ip)) ∧
      q.spdiameter = v (I.addr (.spdiameter ip)) ∧ q.pscale = v (I.addr (.pscale ip)) ∧
      q.icc = ph.icc ∧ q.rcut = ph.rcut ∧ q.stepcut = ph.stepcut := by
  have e : (I.sel v s)[ip]? = some ((s.sel.getD ip none).map fun σ =>
      (phaseFrom (I.val v) ip { ph with atom := ph.atom.mapIdx fun ia a => { a with sf := s.sf ip ia } }, σ)) := by
    rw [Input.sel_get]
    unfold Input.template
    rw [List.getElem?_mapIdx, hp, Option.map_some, Option.map_some, Option.map_map]
    rfl
  constructor
  · intro h
    rw [e, h]
    rfl
  · intro σ h
    rw [h, Option.map_some] at e
    refine ⟨_, e, ?_, fun ia hia => ?_, fun k => ⟨rfl, rfl⟩, rfl, rfl, rfl, rfl, rfl, rfl, rfl, rfl⟩
    · show ((ph.atom.mapIdx _).mapIdx _).length = _
      rw [List.length_mapIdx, List.length_mapIdx]
    · have : (phaseFrom (I.val v) ip { ph with atom := ph.atom.mapIdx fun ia a => { a with sf := s.sf ip ia } }).atm ia =
          atomFrom (I.val v) ip ia { ph.atom[ia] with sf := s.sf ip ia } := by
        show ((ph.atom.mapIdx _).mapIdx _).getD ia default = _
        rw [List.getD_eq_getElem _ _ (by rw [List.length_mapIdx, List.length_mapIdx]; exact hia), List.getElem_mapIdx, List.getElem_mapIdx]
      rw [this]
      exact ⟨rfl, rfl, fun k => rfl, fun k => rfl⟩

/-- **C75** The data set that enters: the values of its own variables, the rest as it was read. -/
theorem C75_data (I : Input) (v : ℕ → ℝ) (is : ℕ) (s : SetIn) :
    (I.dat v is s).dscale = v (I.addr (.dscale is)) ∧ (I.dat v is s).qdamp = v (I.addr (.qdamp is)) ∧
    (I.dat v is s).qbroad = v (I.addr (.qbroad is)) ∧ (I.dat v is s).qmax = s.d.D.qmax ∧ (I.dat v is s).rmin = s.d.D.rmin ∧
    (I.dat v is s).deltar = s.d.D.deltar ∧ (I.dat v is s).rfmin = s.d.D.rfmin ∧ (I.dat v is s).rfmax = s.d.D.rfmax :=
  ⟨rfl, rfl, rfl, rfl, rfl, rfl, rfl, rfl⟩

/-- **C75** The state comes from calls without replaced constraints. When `refine()` returns,

* `getvar` of every variable is the value that the constraints prescribe at the parameters given by `getpar`;
* the PDF of this structure exists, and the calculated values are those of this PDF;
* chi-square is the weighted sum of squared differences of this PDF and the data, and it is not larger than that of the PDF at the start;
* `getrw` is the residual of this PDF, and it is not larger than that at the start. -/
theorem C75_refine (I : Input) (H : I.Ok) (dmax toler : ℝ) (ops : List (COp (List Char) ℝ)) (hn : C08.NoRepl (fparse builtinTab) {} ops)
    (s : Statics ℝ) (e : Eng ℝ (CWorld (List Char) ℝ (List Out)))
    (hst : CState.run (fparse builtinTab) {} ops = ⟨e.par, e.world.cons, e.world.dvdp⟩) (hcur : ∀ x ∈ e.world.curve, x.1.WF)
    (hfresh : ¬ (s.fitRunning = true ∧ e.iter ≠ 0)) (hF : Fair I e.world.cons) (fuel : ℕ)
    (V : ParStore ℝ → ℕ → ℝ) (hV : V = structureAt I e.world.cons e.world.vars)
    (r : (Statics ℝ × Eng ℝ (CWorld (List Char) ℝ (List Out))) × Outcome × ℕ)
    (hr : r = refineLoop (constrTheory (I.static dmax)) toler fuel (s, e)) (hdone : r.2.1 = .done) :
    r.1.2.world.vars = V r.1.2.par ∧ Input.Num I (V r.1.2.par) ∧
    ((I.static dmax).pts r.1.2.world.curve).map (List.map Pt.mod) =
      I.sets.mapIdx (fun is s => (grid s.d.D.nfmin s.d.D.nfmax).map (I.curveOf (V r.1.2.par) is s)) ∧
    r.1.2.chisq = C74.chi I (V r.1.2.par) ∧ r.1.2.chisq ≤ C74.chi I (V e.par) ∧
    (0 < norm I → r.1.2.getrw = residual I (V r.1.2.par) ∧ r.1.2.getrw ≤ residual I (V e.par)) := by
  subst hV
  obtain ⟨tv, htv⟩ := targets hF
  have hfc := first_call (hr ▸ hdone)
  obtain ⟨w, hw⟩ := setup_none hfresh hfc
  obtain ⟨hwf, hrd⟩ := start dmax ops hn e.world w hst hcur hw
  obtain ⟨hd, hev⟩ := det (p0 := e.par) (v0 := e.world.vars) H dmax hF htv
  obtain ⟨w1, hw1⟩ := first_evaluates hfresh hw hfc
  obtain ⟨hW, -, -⟩ := hev _ _ _ ⟨rfl, rfl, rfl⟩ hrd hw1
  have values : ∀ par : ParStore ℝ, par.Wf → I.Works e.par e.world.cons e.world.vars tv par →
      I.vars e.world.cons e.world.vars par = structureAt I e.world.cons e.world.vars par := fun par hp h =>
    vars_eq hF fun c hc => value_of_cres hp (hF.assigns c hc) (h.con c hc)
  have hq := quiet_loop hfresh hw (hr ▸ hdone)
  have hdone' : (refineLoop (constrTheory (I.static dmax)).quiet toler fuel (s, { e with world := w })).2.1 = .done := by
    rw [hq, ← hr]; exact hdone
  have hc0 : chiAt I e.par e.world.cons e.world.vars tv e.par.p = some (C74.chi I (structureAt I e.world.cons e.world.vars e.par)) := by
    unfold chiAt
    rw [if_pos hW, values _ hwf hW]
  obtain ⟨g1, g2, g3, w0, g4, g5⟩ := loop_mid hd toler fuel s { e with world := w } ⟨rfl, rfl, rfl⟩ hrd _ (.inl ⟨hfresh, hc0⟩) hdone'
  rw [hq, ← hr] at g1 g2 g3 g5
  obtain ⟨k1, k2, G, k3⟩ := hev _ _ _ g1.keys g4 (quiet_eval_none.1 g5)
  have hwf' : r.1.2.par.Wf := wf_sameKeys hwf g1.keys
  have hchi : r.1.2.chisq = C74.chi I (structureAt I e.world.cons e.world.vars r.1.2.par) := by
    have := g1.chi
    unfold chiAt at this
    rw [← par_eq g1.keys, if_pos k1, values _ hwf' k1] at this
    exact (Option.some.inj this).symm
  rw [values _ hwf' k1] at k2 k3
  refine ⟨k2, by rw [← values _ hwf' k1]; exact k1.num, ?_, hchi, g2, fun hpos => ?_⟩
  · rw [k3, C74.map_mapIdx]
    refine C74.mapIdx_congr fun is s _ => ?_
    rw [List.map_map]
    rfl
  · unfold Eng.getrw residual
    rw [g3, hchi]
    exact ⟨rfl, Real.sqrt_le_sqrt (div_le_div_of_nonneg_right (hchi ▸ g2) hpos.le)⟩

/-- **C75** After every call of `refine_step` that returns "not finished", `getrw` is the residual of the PDF of the structure that belongs to
`getpar`, and it never grows. -/
theorem C75_steps (I : Input) (H : I.Ok) (dmax toler : ℝ) (ops : List (COp (List Char) ℝ)) (hn : C08.NoRepl (fparse builtinTab) {} ops)
    (s : Statics ℝ) (e : Eng ℝ (CWorld (List Char) ℝ (List Out)))
    (hst : CState.run (fparse builtinTab) {} ops = ⟨e.par, e.world.cons, e.world.dvdp⟩) (hcur : ∀ x ∈ e.world.curve, x.1.WF)
    (hfresh : ¬ (s.fitRunning = true ∧ e.iter ≠ 0)) (hF : Fair I e.world.cons) (hpos : 0 < norm I)
    (V : ParStore ℝ → ℕ → ℝ) (hV : V = structureAt I e.world.cons e.world.vars) (n : ℕ)
    (hmore : ∀ o ∈ outN (constrTheory (I.static dmax)) toler (n + 1) (s, e), o = .more) :
    let rw := fun n => (stepN (constrTheory (I.static dmax)) toler n (s, e)).2.getrw
    rw (n + 1) = residual I (V (stepN (constrTheory (I.static dmax)) toler (n + 1) (s, e)).2.par) ∧
      rw (n + 1) ≤ if n = 0 then residual I (V e.par) else rw n := by
  subst hV
  obtain ⟨tv, htv⟩ := targets hF
  have hfc : (refineStep (constrTheory (I.static dmax)) toler s e).2.2 = .more := hmore _ (by simp [outN])
  obtain ⟨w, hw⟩ := setup_none hfresh (.inl hfc)
  obtain ⟨hwf, hrd⟩ := start dmax ops hn e.world w hst hcur hw
  obtain ⟨hd, hev⟩ := det (p0 := e.par) (v0 := e.world.vars) H dmax hF htv
  obtain ⟨w1, hw1⟩ := first_evaluates hfresh hw (.inl hfc)
  obtain ⟨hW, -, -⟩ := hev _ _ _ ⟨rfl, rfl, rfl⟩ hrd hw1
  have values : ∀ par : ParStore ℝ, par.Wf → I.Works e.par e.world.cons e.world.vars tv par →
      I.vars e.world.cons e.world.vars par = structureAt I e.world.cons e.world.vars par := fun par hp h =>
    vars_eq hF fun c hc => value_of_cres hp (hF.assigns c hc) (h.con c hc)
  have hc0 : chiAt I e.par e.world.cons e.world.vars tv e.par.p = some (C74.chi I (structureAt I e.world.cons e.world.vars e.par)) := by
    unfold chiAt
    rw [if_pos hW, values _ hwf hW]
  obtain ⟨q1, q2⟩ := quiet_stepN n hfresh hw hmore
  have hmore' : ∀ o ∈ outN (constrTheory (I.static dmax)).quiet toler (n + 1) (s, { e with world := w }), o = .more := by rw [q2]; exact hmore
  obtain ⟨m1, -⟩ := stepN_mid hd toler n s { e with world := w } ⟨rfl, rfl, rfl⟩ hrd _ (.inl ⟨hfresh, hc0⟩) hmore'
  obtain ⟨c1, c2⟩ := C04.C04_rw_never_worse_partial _ hd hpos toler s { e with world := w } ⟨rfl, rfl, rfl⟩ hrd _ hc0 hfresh n
    (fun o ho => hmore' o (by rw [outN_succ]; exact List.mem_append_left _ ho)) (.inl (by
      rw [outN_succ, List.getLast?_append, List.getLast?_singleton, Option.some_or]
      congr 1
      exact hmore' _ (by rw [outN_succ]; simp)))
  rw [q1] at c1 c2 m1
  dsimp only
  constructor
  · unfold C04.rwAt chiAt at c1
    rw [← par_eq m1.ok.keys] at c1
    split at c1
    · rename_i hW'
      rw [values _ (wf_sameKeys hwf m1.ok.keys) hW'] at c1
      exact (Option.some.inj c1).symm
    · cases c1
  · cases n with
    | zero => exact c2
    | succ n =>
      rw [if_neg (by omega)] at c2 ⊢
      obtain ⟨p1, -⟩ := quiet_stepN n hfresh hw (fun o ho => hmore o (by rw [outN_succ]; exact List.mem_append_left _ ho))
      rw [p1] at c2
      exact c2

/-! ## Example: the fit of C74 (data calculated with the scale factor 5, started at 2) -/

open C74

theorem cubic_fair : Fair (cubic data5) cons1 where
  one := by simp [cons1]
  assigns := by
    intro c hc
    simp only [cons1, List.mem_singleton] at hc
    subst hc
    simp [Constr.assigns]
  target := by
    intro c hc
    simp only [cons1, List.mem_singleton] at hc
    subst hc
    exact ⟨.pscale 0, by show 0 < 1; norm_num, rfl⟩

theorem data5_length : data5.length = 5 := by simp [data5]

theorem cubic_structure : structureAt (cubic data5) cons1 vars1 (store 2) = prescribed (cubic data5) cons1 vars1 (store 2) := by
  have hM := cubic_mix data5 data5_length
  rw [← vars_eq cubic_fair (hM.value (C74.refl _)), C74.vars_eq (cubic_ok _ data5_length) hM (hM.value (C74.refl _))]

theorem data5_unit {i : ℤ} (hi : i ∈ grid (set1 data5).d.D.nfmin (set1 data5).d.D.nfmax) : data5.getD i.toNat 0 =
    5 * (cubic data5).unit (prescribed (cubic data5) cons1 vars1 (store 2)) 0 (set1 data5) 0 i := by
  have nf := C68.isoD_nf (lo := 1) (hi := 3)
  have hi2 := hi
  rw [mem_grid] at hi2
  change (C68.span C68.isoD 1 3).nfmin ≤ i ∧ i ≤ (C68.span C68.isoD 1 3).nfmax at hi2
  rw [nf.1, nf.2, show ((1 : ℝ) - 1) * 2 = ((0 : ℤ) : ℝ) by norm_num, nint_int,
    show ((3 : ℝ) - 1) * 2 = ((4 : ℤ) : ℝ) by norm_num, nint_int] at hi2
  rw [data5_get data5 i.toNat (by omega), Int.toNat_of_nonneg hi2.1, cubic_curve data5 data5_length 5 i hi]

theorem cubic_over (f : ℕ → SetIn → ℤ → ℝ) : over (cubic data5) f =
    ((grid (set1 data5).d.D.nfmin (set1 data5).d.D.nfmax).map fun i => (set1 data5).d.wic.getD i.toNat 0 * f 0 (set1 data5) i).sum := by
  show (([set1 data5].mapIdx _).sum : ℝ) = _
  simp

theorem cubic_chi : chi (cubic data5) (prescribed (cubic data5) cons1 vars1 (store 2)) = 9 / 25 * norm (cubic data5) := by
  unfold chi norm
  rw [cubic_over, cubic_over, ← List.sum_map_mul_left]
  congr 1
  refine List.map_congr_left fun i hi => ?_
  rw [show (set1 data5).d.obs = data5 from rfl, data5_unit hi, cubic_curve data5 data5_length 2 i hi]
  ring

theorem cubic_norm : 0 < norm (cubic data5) := by
  unfold norm
  rw [cubic_over]
  have hw := (cubic_mix data5 data5_length).weight (set1 data5) (by simp [cubic, set1])
  have h0 : 0 < data5.getD 0 0 ^ 2 := by
    have := data5_unit zero_mem
    rw [Int.toNat_zero] at this
    rw [this]
    have := cubic_unit data5 data5_length
    positivity
  refine lt_of_lt_of_le ?_ (List.single_le_sum (fun x hx => ?_) _ (List.mem_map.2 ⟨0, zero_mem, rfl⟩))
  · rw [show (set1 data5).d.wic.getD (0 : ℤ).toNat 0 = 1 from rfl, one_mul]
    exact h0
  · obtain ⟨i, hi, rfl⟩ := List.mem_map.1 hx
    exact mul_nonneg (hw i hi) (sq_nonneg _)

/-- The phase of the example: one atom, with the scattering factor of the data set. -/
example (v : ℕ → ℝ) : ∃ q, ((cubic data5).sel v (set1 data5))[0]? = some (some (q, C60.noSel)) ∧ q.atom.length = 1 ∧ (q.atm 0).sf = 1 ∧
    q.pscale = v ((cubic data5).addr (.pscale 0)) := by
  obtain ⟨q, h1, h2, h3, -, -, -, -, -, h4, -⟩ := (C75_structure (cubic data5) v (set1 data5) 0 _ rfl).2 C60.noSel rfl
  exact ⟨q, h1, h2, (h3 0 (by show 0 < 1; norm_num)).1, h4⟩

/-- `getrw` after this refinement is the residual of the PDF of the refined structure, and less than that at the start, 3/5. -/
example : ∃ dv, CState.run (fparse builtinTab) {} [.setpar 1 2, .int ((setup [1] 1).slots.idxOf (.pscale 0)) 1 .ident] =
      ⟨store 2, cons1, dv⟩ ∧
    let r := refineLoop (constrTheory ((cubic data5).static 1000000)) (1 / 1000) 101 ({}, eng1 dv)
    r.1.2.getrw = residual (cubic data5) (structureAt (cubic data5) cons1 vars1 r.1.2.par) ∧ r.1.2.getrw ≤ 3 / 5 := by
  obtain ⟨dv, h1, h2, -⟩ := cubic_refined
  refine ⟨dv, h1, ?_⟩
  obtain ⟨-, -, -, -, -, h⟩ := C75_refine (cubic data5) (cubic_ok _ data5_length) 1000000 (1 / 1000)
    [.setpar 1 2, .int ((setup [1] 1).slots.idxOf (.pscale 0)) 1 .ident] (by simp [C08.NoRepl]; rfl) {} (eng1 dv) h1
    (fun x hx => absurd hx List.not_mem_nil) (by simp) cubic_fair 101 _ rfl _ rfl h2
  obtain ⟨h3, h4⟩ := h cubic_norm
  refine ⟨h3, h4.trans (le_of_eq ?_)⟩
  show residual (cubic data5) (structureAt (cubic data5) cons1 vars1 (store 2)) = _
  unfold residual
  rw [cubic_structure, cubic_chi, mul_div_assoc, div_self cubic_norm.ne', mul_one, show (9 / 25 : ℝ) = (3 / 5) ^ 2 by norm_num,
    Real.sqrt_sq (by norm_num)]

end Pdffit.C75
