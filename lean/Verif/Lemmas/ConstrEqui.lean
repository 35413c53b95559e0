import Verif.Lemmas.RefineEqui
import Verif.Lemmas.FParse
import Verif.Model.ConstrLsq

/-! Two runs of the refinement whose constraints describe the same variables in terms of redescribed parameters. -/

namespace Pdffit
set_option linter.unusedSectionVars false

variable {F F' K C : Type} [Field K] [LinearOrder K] [IsStrictOrderedRing K]

/-- The evaluations of two constraints agree: same value and mark, derivatives with respect to corresponding parameters. -/
def CresRel (E : Redescr K) (ia : ℕ → Bool) : Except Exc (Option K × Bool × List (ℕ × K)) →
    Except Exc (Option K × Bool × List (ℕ × K)) → Prop
  | .error x, .error x' => x' = x
  | .ok r, .ok r' => r'.1 = r.1 ∧ r'.2.1 = r.2.1 ∧ ∀ l, l < E.n → ia l = true → ∀ o o' : Option K,
      o'.map (· * E.s l) = o → (rowAfter r'.2.2 (E.ρ l) o').map (· * E.s l) = rowAfter r.2.2 l o
  | _, _ => False

/-- Two constraints for the same variable that agree for all related parameter values. -/
structure ConRel (E : Redescr K) (q q' : ParStore K) (parse : FParser F K) (parse' : FParser F' K) (c : Constr F) (c' : Constr F') :
    Prop where
  addr : c'.addr = c.addr
  vref : c'.vref = c.vref
  res : ∀ par par', KeyRel E q q' par par' →
    CresRel E (fun l => q.ip.getD l false) (cres parse par c) (cres parse' par' c')

variable {E : Redescr K} {q q' : ParStore K} {parse : FParser F K} {parse' : FParser F' K}

/-- Entries of the derivative matrix of the free parameters. -/
def EntRel (E : Redescr K) (ia : ℕ → Bool) (o o' : ℕ → ℕ → Option K) : Prop :=
  ∀ i l, l < E.n → ia l = true → (o' i (E.ρ l)).map (· * E.s l) = o i l

theorem cres_setVref (parse : FParser F K) (par : ParStore K) (c : Constr F) (b : Bool) :
    cres parse par { c with vref := b } = cres parse par c := rfl

theorem ConRel.setVref {c : Constr F} {c' : Constr F'} (h : ConRel E q q' parse parse' c c') (b : Bool) :
    ConRel E q q' parse parse' { c with vref := b } { c' with vref := b } :=
  ⟨h.addr, rfl, h.res⟩

theorem fillLoop_rel (hp : ParserOK parse) (hp' : ParserOK parse') {par par' : ParStore K} (hw : par.Wf) (hw' : par'.Wf)
    (hk : KeyRel E q q' par par') {cs : List (Constr F)} {cs' : List (Constr F')}
    (h : List.Forall₂ (ConRel E q q' parse parse') cs cs') :
    ∀ (i : ℕ) (v : ℕ → K) (m m' : Mat K), m.WF → m'.WF → i + cs.length = m.rows → m'.rows = m.rows → m.cols = par.p.length →
      m'.cols = par'.p.length →
      (∀ a l, a < m.rows → l < E.n → q.ip.getD l false = true → (m'.ent a (E.ρ l)).map (· * E.s l) = m.ent a l) →
      let r := fillLoop parse par i cs v m
      let r' := fillLoop parse' par' i cs' v m'
      List.Forall₂ (ConRel E q q' parse parse') r.1 r'.1 ∧ r'.2.1 = r.2.1 ∧ r'.2.2.2 = r.2.2.2 ∧
      SameDim m r.2.2.1 ∧ SameDim m' r'.2.2.1 ∧
      (∀ a l, a < m.rows → l < E.n → q.ip.getD l false = true →
        (r'.2.2.1.ent a (E.ρ l)).map (· * E.s l) = r.2.2.1.ent a l) := by
  induction h with
  | nil =>
    intro i v m m' hm hm' hi hr hc hc' he
    exact ⟨.nil, rfl, rfl, ⟨rfl, rfl, hm⟩, ⟨rfl, rfl, hm'⟩, he⟩
  | @cons c c' cs cs' h1 h2 ih =>
    intro i v m m' hm hm' hi hr hc hc' he
    rw [List.length_cons] at hi
    have hres := h1.res par par' hk
    rw [fillLoop, fillLoop]
    cases g : cres parse par c with
    | error x =>
      cases g' : cres parse' par' c' with
      | ok r' => rw [g, g'] at hres; exact hres.elim
      | error x' =>
        rw [g, g'] at hres
        change x' = x at hres
        subst hres
        rw [fillOne_err i c v m g, fillOne_err i c' v m' g']
        exact ⟨.cons (h1.setVref false) h2, rfl, rfl, ⟨rfl, rfl, hm⟩, ⟨rfl, rfl, hm'⟩, he⟩
    | ok r =>
      cases g' : cres parse' par' c' with
      | error x' => rw [g, g'] at hres; exact hres.elim
      | ok r' =>
        rw [g, g'] at hres
        obtain ⟨e1, e2, e3⟩ := hres
        obtain ⟨m1, k1, k2, k3⟩ := fillOne_ok' hp hw i c v m hm (by omega) hc ⟨r, g⟩
        obtain ⟨m1', k1', k2', k3'⟩ := fillOne_ok' hp' hw' i c' v m' hm' (by omega) hc' ⟨r', g'⟩
        have hv : cstep parse' par' v c' = cstep parse par v c := by
          unfold cstep
          rw [g, g']
          obtain ⟨a, b, d⟩ := r
          obtain ⟨a', b', d'⟩ := r'
          dsimp only at e1
          subst e1
          cases a' with
          | none => rfl
          | some x => dsimp only; rw [h1.addr]
        have hc1 : ConRel E q q' parse parse' (cmark parse par c) (cmark parse' par' c') := by
          unfold cmark
          rw [g, g']
          dsimp only
          rw [e2]
          exact h1.setVref _
        have hent : ∀ a l, a < m1.rows → l < E.n → q.ip.getD l false = true →
            (m1'.ent a (E.ρ l)).map (· * E.s l) = m1.ent a l := by
          intro a l ha hl fl
          rw [k2.rows] at ha
          have l1 : l < m.cols := by rw [hc, hk.par.len]; exact hl
          have l2 : E.ρ l < m'.cols := by rw [hc', hk.par.len']; exact (E.hρ l).2 hl
          rw [k3 a l l1, k3' a _ l2]
          have h0 := he a l ha hl fl
          by_cases hai : a = i
          · rw [if_pos hai, if_pos hai]
            unfold cents
            rw [g, g']
            exact e3 l hl fl _ _ h0
          · rw [if_neg hai, if_neg hai]
            exact h0
        obtain ⟨j1, j2, j3, j4, j5, j6⟩ := ih (i + 1) (cstep parse par v c) m1 m1' k2.wf k2'.wf (by rw [k2.rows]; omega)
          (by rw [k2.rows, k2'.rows, hr]) (by rw [k2.cols]; exact hc) (by rw [k2'.cols]; exact hc') hent
        rw [k1, k1', hv]
        dsimp only
        refine ⟨.cons hc1 j1, j2, j3, ⟨by rw [j4.rows, k2.rows], by rw [j4.cols, k2.cols], j4.wf⟩,
          ⟨by rw [j5.rows, k2'.rows], by rw [j5.cols, k2'.cols], j5.wf⟩, ?_⟩
        intro a l ha hl fl
        exact j6 a l (by rw [k2.rows]; exact ha) hl fl

/-- `fill_variables` in both descriptions. -/
theorem fillVariables_rel (hp : ParserOK parse) (hp' : ParserOK parse') {par par' : ParStore K} (hw : par.Wf) (hw' : par'.Wf)
    (hk : KeyRel E q q' par par') {cs : List (Constr F)} {cs' : List (Constr F')}
    (h : List.Forall₂ (ConRel E q q' parse parse') cs cs') (v : ℕ → K) (m m' : Mat K) (hm : m.WF) (hm' : m'.WF)
    (he : EntRel E (fun l => q.ip.getD l false) (oldEnt m) (oldEnt m')) :
    let r := fillVariables parse par cs v m
    let r' := fillVariables parse' par' cs' v m'
    List.Forall₂ (ConRel E q q' parse parse') r.1 r'.1 ∧ r'.2.1 = r.2.1 ∧ r'.2.2.2 = r.2.2.2 ∧
      r.2.2.1.WF ∧ r'.2.2.1.WF ∧ r'.2.2.1.rows = r.2.2.1.rows ∧ r.2.2.1.cols = E.n ∧ r'.2.2.1.cols = E.n ∧
      EntRel E (fun l => q.ip.getD l false) (oldEnt r.2.2.1) (oldEnt r'.2.2.1) ∧
      (∀ a l, a < r.2.2.1.rows → l < E.n → q.ip.getD l false = true →
        (r'.2.2.1.ent a (E.ρ l)).map (· * E.s l) = r.2.2.1.ent a l) := by
  have hlen : cs'.length = cs.length := h.length_eq.symm
  obtain ⟨m1, h1, h2, h3, h4, h5⟩ := Mat.resize_spec hm cs.length par.p.length 0
  obtain ⟨m1', h1', h2', h3', h4', h5'⟩ := Mat.resize_spec hm' cs'.length par'.p.length 0
  have hent : ∀ a l, a < m1.rows → l < E.n → q.ip.getD l false = true →
      (m1'.ent a (E.ρ l)).map (· * E.s l) = m1.ent a l := by
    intro a l ha hl fl
    rw [h2] at ha
    rw [h5 a l ha (by rw [hk.par.len]; exact hl), h5' a _ (by omega) (by rw [hk.par.len']; exact (E.hρ l).2 hl)]
    exact he a l hl fl
  obtain ⟨j1, j2, j3, j4, j5, j6⟩ := fillLoop_rel hp hp' hw hw' hk h 0 v m1 m1' h4 h4' (by omega) (by omega) h3 h3' hent
  unfold fillVariables
  rw [h1, h1']
  dsimp only
  refine ⟨j1, j2, j3, j4.wf, j5.wf, by rw [j4.rows, j5.rows, h2, h2', hlen], by rw [j4.cols, h3, hk.par.len],
    by rw [j5.cols, h3', hk.par.len'], ?_, ?_⟩
  · intro a l hl fl
    unfold oldEnt
    rw [j4.rows, j5.rows, j4.cols, j5.cols, h2, h2', h3, h3', hlen, hk.par.len, hk.par.len']
    by_cases ha : a < cs.length
    · rw [if_pos ⟨ha, (E.hρ l).2 hl⟩, if_pos ⟨ha, hl⟩]
      exact j6 a l (by omega) hl fl
    · rw [if_neg (fun x => ha x.1), if_neg (fun x => ha x.1)]
      simp
  · intro a l ha hl fl
    rw [j4.rows] at ha
    exact j6 a l ha hl fl

theorem vfind_rel {cs : List (Constr F)} {cs' : List (Constr F')} (h : List.Forall₂ (ConRel E q q' parse parse') cs cs') (a : ℕ) :
    vfind cs' a = vfind cs a := by
  have h1 : cs'.map (fun c => (c.addr, c.vref)) = cs.map (fun c => (c.addr, c.vref)) := by
    induction h with
    | nil => rfl
    | cons x y ih => rw [List.map_cons, List.map_cons, ih, x.addr, x.vref]
  have key : ∀ {G : Type} (l : List (Constr G)), vfind l a =
      match (l.map (fun c => (c.addr, c.vref))).findIdx? (fun c => c.1 == a) with
      | none => none
      | some i => if ((l.map (fun c => (c.addr, c.vref)))[i]?.map Prod.snd).getD false then some i else none := by
    intro G l
    unfold vfind
    rw [List.findIdx?_map]
    simp only [Function.comp_def, List.getElem?_map, Option.map_map]
    rfl
  rw [key, key, h1]

/-- The points of the second engine are those of the first with weights `κ` times as large. -/
def Row.scale (κ : K) (x : Row K) : Row K := { x with w := κ * x.w }

/-- The same engine with all weights multiplied. -/
def Engine.scale (κ : K) (G : Engine K C) : Engine K C :=
  { G with rows := fun c => (G.rows c).map (List.map (Row.scale κ)) }

section
variable [FloorRing K]

/-- Worlds before an evaluation. -/
structure WRel0 (E : Redescr K) (q q' : ParStore K) (parse : FParser F K) (parse' : FParser F' K)
    (w : CWorld F K (C × List (List (Pt K)))) (w' : CWorld F' K (C × List (List (Pt K)))) : Prop where
  vars : w'.vars = w.vars
  cons : List.Forall₂ (ConRel E q q' parse parse') w.cons w'.cons
  wf : w.dvdp.WF
  wf' : w'.dvdp.WF
  ent : EntRel E (fun l => q.ip.getD l false) (oldEnt w.dvdp) (oldEnt w'.dvdp)
  refvar : w'.refvar = w.refvar
  curve : w'.curve.1 = w.curve.1

/-- Worlds after an evaluation. -/
def WRel1 (E : Redescr K) (q q' : ParStore K) (parse : FParser F K) (parse' : FParser F' K)
    (w : CWorld F K (C × List (List (Pt K)))) (w' : CWorld F' K (C × List (List (Pt K)))) : Prop :=
  WRel0 E q q' parse parse' w w' ∧ PtsRel E (fun l => q.ip.getD l false) w.curve.2 w'.curve.2

theorem vref_map_rel {cs : List (Constr F)} {cs' : List (Constr F')} (h : List.Forall₂ (ConRel E q q' parse parse') cs cs') :
    cs'.map Constr.vref = cs.map Constr.vref := by
  induction h with
  | nil => rfl
  | cons x y ih => rw [List.map_cons, List.map_cons, ih, x.vref]

/-- The fitted points after related evaluations. -/
theorem pts_rel (κ : K) (hκ : κ = E.κ) (ia : ℕ → Bool) (rows : List (List (Row K))) (m m' : Mat K) (hr : m'.rows = m.rows)
    (he : ∀ a l, a < m.rows → l < E.n → ia l = true → (m'.ent a (E.ρ l)).map (· * E.s l) = m.ent a l) :
    PtsRel E ia (rows.map (List.map (Row.pt m))) ((rows.map (List.map (Row.scale κ))).map (List.map (Row.pt m'))) := by
  subst hκ
  have h1 : (rows.map (List.map (Row.pt m))).flatten = rows.flatten.map (Row.pt m) := by rw [List.map_flatten]
  have h2 : ((rows.map (List.map (Row.scale E.κ))).map (List.map (Row.pt m'))).flatten =
      rows.flatten.map fun x => Row.pt m' (Row.scale E.κ x) := by
    rw [← List.map_flatten, ← List.map_flatten, List.map_map]
    rfl
  have hd : ∀ x : Row K, ∀ l, l < E.n → ia l = true →
      (Row.pt m' (Row.scale E.κ x)).d (E.ρ l) * E.s l = (Row.pt m x).d l := by
    intro x l hl fl
    simp only [Row.pt, Row.scale]
    rw [← List.sum_map_mul_right, hr]
    refine congrArg List.sum (List.map_congr_left fun a ha => ?_)
    have h3 := he a l (List.mem_range.1 ha) hl fl
    unfold Mat.ent at h3
    rw [← h3]
    cases m'.data[a * m'.cols + E.ρ l]? with
    | none => simp
    | some y => simp [mul_assoc]
  refine ⟨?_, ?_, ?_, ?_⟩
  · unfold chisqOf
    rw [h1, h2, List.map_map, List.map_map, ← List.sum_map_mul_left]
    refine congrArg List.sum (List.map_congr_left fun x _ => ?_)
    simp only [Function.comp, Row.pt, Row.scale]
    ring
  · unfold wnormOf
    rw [h1, h2, List.map_map, List.map_map, ← List.sum_map_mul_left]
    refine congrArg List.sum (List.map_congr_left fun x _ => ?_)
    simp only [Function.comp, Row.pt, Row.scale]
    ring
  · intro l k hl hk fl fk
    rw [h1, h2, List.map_map, List.map_map, ← List.sum_map_mul_left, ← List.sum_map_mul_right]
    refine congrArg List.sum (List.map_congr_left fun x _ => ?_)
    have e1 := hd x l hl fl
    have e2 := hd x k hk fk
    simp only [Function.comp]
    rw [← e1, ← e2]
    simp only [show (Row.pt m' (Row.scale E.κ x)).w = E.κ * x.w from rfl, show (Row.pt m x).w = x.w from rfl]
    ring
  · intro l hl fl
    rw [h1, h2, List.map_map, List.map_map, ← List.sum_map_mul_left, ← List.sum_map_mul_right]
    refine congrArg List.sum (List.map_congr_left fun x _ => ?_)
    have e1 := hd x l hl fl
    simp only [Function.comp]
    rw [← e1]
    simp only [show (Row.pt m' (Row.scale E.κ x)).w = E.κ * x.w from rfl, show (Row.pt m x).w = x.w from rfl,
      show (Row.pt m' (Row.scale E.κ x)).obs = x.obs from rfl, show (Row.pt m x).obs = x.obs from rfl,
      show (Row.pt m' (Row.scale E.κ x)).mod = x.mod from rfl, show (Row.pt m x).mod = x.mod from rfl]
    ring

omit [FloorRing K] in
theorem KeyRel.wf {par par' : ParStore K} (hk : KeyRel E q q' par par') (hq : q.Wf) (hq' : q'.Wf) (hn : q.id.length = E.n)
    (hn' : q'.id.length = E.n) : par.Wf ∧ par'.Wf := by
  refine ⟨⟨?_, ?_, ?_⟩, ⟨?_, ?_, ?_⟩⟩
  · rw [hk.par.len, hk.id, hn]
  · rw [hk.ip, hk.id]; exact hq.li
  · rw [hk.id]; exact hq.nd
  · rw [hk.par.len', hk.id', hn']
  · rw [hk.ip', hk.id']; exact hq'.li
  · rw [hk.id']; exact hq'.nd

theorem fitSetup_none {D : Type} (S : CStatic F K D) (par : ParStore K) (w : CWorld F K D)
    (h : (fillVariables S.parse par w.cons w.vars w.dvdp).2.2.2 = none) :
    fitSetup S par w =
      ({ w with cons := (fillVariables S.parse par w.cons w.vars w.dvdp).1, vars := (fillVariables S.parse par w.cons w.vars w.dvdp).2.1,
                dvdp := (fillVariables S.parse par w.cons w.vars w.dvdp).2.2.1,
                refvar := S.slots.map (vfind (fillVariables S.parse par w.cons w.vars w.dvdp).1) },
        if S.slots.length ≠ S.npar then some (.exc .constraint) else none) := by
  unfold fitSetup
  dsimp only
  rw [h]
  dsimp only
  split <;> rfl

theorem fitSetup_some {D : Type} (S : CStatic F K D) (par : ParStore K) (w : CWorld F K D) {x : Stop}
    (h : (fillVariables S.parse par w.cons w.vars w.dvdp).2.2.2 = some x) :
    fitSetup S par w =
      ({ w with cons := (fillVariables S.parse par w.cons w.vars w.dvdp).1, vars := (fillVariables S.parse par w.cons w.vars w.dvdp).2.1,
                dvdp := (fillVariables S.parse par w.cons w.vars w.dvdp).2.2.1 }, some x) := by
  unfold fitSetup
  dsimp only
  rw [h]

/-- The refinement machines with constraints are related. -/
theorem constr_rel (G : Engine K C) (hp : ParserOK parse) (hp' : ParserOK parse') (hq : q.Wf) (hq' : q'.Wf)
    (hn : q.id.length = E.n) (hn' : q'.id.length = E.n) (icc : ℕ → Option K) (slots : List ℕ) (npar : ℕ) (dmax : K) :
    TheoryRel E (constrTheory (G.static parse icc slots npar dmax))
      (constrTheory ((G.scale E.κ).static parse' icc slots npar dmax)) q q'
      (WRel0 E q q' parse parse') (WRel1 E q q' parse parse') where
  weaken w w' h := h.1
  setup par par' w w' h1 h2 h3 h4 h5 hw := by
    have hk : KeyRel E q q' par par' := ⟨h1, h2, h3, h4, h5⟩
    obtain ⟨w1, w2⟩ := hk.wf hq hq' hn hn'
    obtain ⟨j1, j2, j3, j4, j5, j6, j7, j8, j9, j10⟩ :=
      fillVariables_rel hp hp' w1 w2 hk hw.cons w.vars w.dvdp w'.dvdp hw.wf hw.wf' hw.ent
    have e1 : fillVariables (G.static parse icc slots npar dmax).parse par w.cons w.vars w.dvdp =
        fillVariables parse par w.cons w.vars w.dvdp := rfl
    have e2 : fillVariables ((G.scale E.κ).static parse' icc slots npar dmax).parse par' w'.cons w'.vars w'.dvdp =
        fillVariables parse' par' w'.cons w.vars w'.dvdp := by rw [hw.vars]; rfl
    simp only [constrTheory]
    cases hx : (fillVariables parse par w.cons w.vars w.dvdp).2.2.2 with
    | some x =>
      rw [fitSetup_some _ _ _ (e1 ▸ hx), fitSetup_some _ _ _ (x := x) (by rw [e2, j3]; exact hx), e1, e2]
      exact ⟨rfl, j2, j1, j4, j5, j9, hw.refvar, hw.curve⟩
    | none =>
      rw [fitSetup_none _ _ _ (e1 ▸ hx), fitSetup_none _ _ _ (by rw [e2, j3]; exact hx), e1, e2]
      exact ⟨rfl, j2, j1, j4, j5, j9, List.map_congr_left fun a _ => vfind_rel j1 a, hw.curve⟩
  eval par par' w w' h1 h2 h3 h4 h5 hw := by
    have hk : KeyRel E q q' par par' := ⟨h1, h2, h3, h4, h5⟩
    obtain ⟨w1, w2⟩ := hk.wf hq hq' hn hn'
    obtain ⟨j1, j2, j3, j4, j5, j6, j7, j8, j9, j10⟩ :=
      fillVariables_rel hp hp' w1 w2 hk hw.cons w.vars w.dvdp w'.dvdp hw.wf hw.wf' hw.ent
    simp only [constrTheory, fitTheory, Engine.static, Engine.scale]
    rw [hw.vars]
    generalize fillVariables parse par w.cons w.vars w.dvdp = r at *
    generalize fillVariables parse' par' w'.cons w.vars w'.dvdp = r' at *
    rw [j3]
    cases r.2.2.2 with
    | some x => exact ⟨rfl, ⟨j2, j1, j4, j5, j9, hw.refvar, hw.curve⟩, by simp⟩
    | none =>
      dsimp only
      rw [j2, hw.refvar, vref_map_rel j1, hw.curve]
      have h0 : WRel0 E q q' parse parse'
          { vars := wrapVars icc r.2.1, cons := r.1, dvdp := r.2.2.1, refvar := w.refvar,
            curve := ((G.run (wrapVars icc r.2.1) w.refvar (r.1.map Constr.vref) w.curve.1).1,
              (G.rows (G.run (wrapVars icc r.2.1) w.refvar (r.1.map Constr.vref) w.curve.1).1).map (List.map (Row.pt r.2.2.1))) }
          { vars := wrapVars icc r.2.1, cons := r'.1, dvdp := r'.2.2.1, refvar := w.refvar,
            curve := ((G.run (wrapVars icc r.2.1) w.refvar (r.1.map Constr.vref) w.curve.1).1,
              ((G.rows (G.run (wrapVars icc r.2.1) w.refvar (r.1.map Constr.vref) w.curve.1).1).map
                (List.map (Row.scale E.κ))).map (List.map (Row.pt r'.2.2.1))) } :=
        ⟨rfl, j1, j4, j5, j9, rfl, rfl⟩
      exact ⟨rfl, h0, fun _ => ⟨h0, pts_rel E.κ rfl _ _ _ _ j6 j10⟩⟩
  pts w w' h := h.2

end
end Pdffit
