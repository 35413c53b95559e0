import Verif.Lemmas.ConstrMoved
import Verif.Props.C10

/-!
# C66 A refinement does not depend on how the fit is described

The order in which the parameters were defined, the units and zero points of the parameters, the way in which the formulas of the
constraints are written, and a common factor of all weights do not change the result of a refinement.
-/

namespace Pdffit.C66
set_option linter.unusedSectionVars false

variable {F F' K C : Type} [Field K] [LinearOrder K] [IsStrictOrderedRing K]

/-- Value and refinement flag of parameter `n`, if it is defined. -/
def parOf (par : ParStore K) (n : ℕ) : Option (K × Bool) :=
  (par.parfind n).map fun j => (par.p.getD j 0, par.ip.getD j false)

/-- Covariance of the parameters `a` and `b`. -/
def covOf {W : Type} (e : Eng K W) (a b : ℕ) : Option K :=
  (e.par.parfind a).bind fun i => (e.par.parfind b).map fun j => e.covar i j

/-- The same parameters; parameter `n` has the value `u n * x + z n` in the second store if it is `x` in the first. -/
def ParsAs (u z : ℕ → K) (par par' : ParStore K) : Prop :=
  ∀ n, parOf par' n = (parOf par n).map fun x => (u n * x.1 + z n, x.2)

/-- The results of two refinements are the same. -/
structure SameFit (u z : ℕ → K) (κ : K)
    (r : (Statics K × Eng K (CWorld F K (C × List (List (Pt K))))) × Outcome × ℕ)
    (r' : (Statics K × Eng K (CWorld F' K (C × List (List (Pt K))))) × Outcome × ℕ) : Prop where
  /-- converged, stopped or failed with the same exception, after the same number of steps -/
  outcome : r'.2 = r.2
  pars : ParsAs u z r.1.2.par r'.1.2.par
  vars : r'.1.2.world.vars = r.1.2.world.vars
  curve : r'.1.2.world.curve.1 = r.1.2.world.curve.1
  rw2 : r.2.1 = .done → r'.1.2.rw2 = r.1.2.rw2
  chisq : r.2.1 = .done → r'.1.2.chisq = κ * r.1.2.chisq
  covar : r.2.1 = .done → ∀ a b, (covOf r'.1.2 a b).map (· * κ) = (covOf r.1.2 a b).map (u a * u b * ·)

theorem parsAs_perm {u z : ℕ → K} {par par' : ParStore K} (hw : par.Wf) (hw' : par'.Wf) (h : ParsAs u z par par') :
    par.id.Perm par'.id := by
  rw [List.perm_ext_iff_of_nodup hw.nd hw'.nd]
  intro n
  have h1 := congrArg Option.isSome (h n)
  simp only [parOf, Option.isSome_map] at h1
  have key : ∀ q : ParStore K, q.Wf → (n ∈ q.id ↔ (q.parfind n).isSome = true) := by
    intro q hq
    constructor
    · intro hm
      obtain ⟨i, hi, he⟩ := List.getElem_of_mem hm
      rw [← he, ParStore.parfind_of_getElem hq hi]
      rfl
    · intro hs
      obtain ⟨i, hi⟩ := Option.isSome_iff_exists.1 hs
      obtain ⟨h1, h2⟩ := ParStore.parfind_some hi
      exact h2 ▸ List.getElem_mem h1
  rw [key par hw, key par' hw', h1]

/-- The redescription that belongs to two stores. -/
def redescr {u z : ℕ → K} {par par' : ParStore K} (hw : par.Wf) (hw' : par'.Wf) (h : ParsAs u z par par') (hu : ∀ n, u n ≠ 0)
    (κ : K) (hκ : 0 < κ) : Redescr K where
  n := par.id.length
  ρ := movePerm (parsAs_perm hw hw' h) hw.nd hw'.nd
  hρ := moveTo_lt (parsAs_perm hw hw' h)
  s l := u (par.id.getD l 0)
  t l := z (par.id.getD l 0)
  hs l := hu _
  κ := κ
  hκ := hκ

section
variable {u z : ℕ → K} {par par' : ParStore K} (hw : par.Wf) (hw' : par'.Wf) (h : ParsAs u z par par') (hu : ∀ n, u n ≠ 0)
    (κ : K) (hκ : 0 < κ)

theorem redescr_id (l : ℕ) : par'.id[(redescr hw hw' h hu κ hκ).ρ l]? = par.id[l]? := moveTo_id (parsAs_perm hw hw' h) l

theorem redescr_par : ParRel (redescr hw hw' h hu κ hκ) par par' := by
  have hl := (parsAs_perm hw hw' h).length_eq
  have key : ∀ l, l < par.id.length → (par'.p.getD ((redescr hw hw' h hu κ hκ).ρ l) 0, par'.ip.getD ((redescr hw hw' h hu κ hκ).ρ l) false) =
      (u (par.id.getD l 0) * par.p.getD l 0 + z (par.id.getD l 0), par.ip.getD l false) := by
    intro l hl
    have h1 := h par.id[l]
    unfold parOf at h1
    rw [parfind_moved hw' (redescr_id hw hw' h hu κ hκ), ParStore.parfind_of_getElem hw hl] at h1
    simp only [Option.map_some, Option.some.injEq] at h1
    rw [h1]
    simp [hl]
  refine ⟨hw.lp, by rw [hw'.lp, ← hl]; rfl, fun l hl => ?_, fun l hl => ?_⟩
  · exact congrArg Prod.snd (key l hl)
  · exact congrArg Prod.fst (key l hl)

/-- Back from positions to numbers. -/
theorem parsAs_of_rel {p1 p1' : ParStore K} (hk : KeyRel (redescr hw hw' h hu κ hκ) par par' p1 p1') : ParsAs u z p1 p1' := by
  intro n
  obtain ⟨hw1, hw1'⟩ := hk.wf hw hw' rfl (parsAs_perm hw hw' h).length_eq.symm
  have hid : ∀ l, p1'.id[(redescr hw hw' h hu κ hκ).ρ l]? = p1.id[l]? := by
    intro l
    rw [hk.id, hk.id']
    exact redescr_id hw hw' h hu κ hκ l
  unfold parOf
  rw [parfind_moved hw1' hid]
  rcases hf : p1.parfind n with - | j
  · rfl
  · obtain ⟨hj, he⟩ := ParStore.parfind_some hf
    have hj' : j < (redescr hw hw' h hu κ hκ).n := by rw [hk.id] at hj; exact hj
    have he' : par.id.getD j 0 = n := by
      rw [← hk.id, List.getD_eq_getElem?_getD, List.getElem?_eq_getElem hj, he]; rfl
    simp only [Option.map_some, Option.some.injEq, Prod.mk.injEq]
    refine ⟨?_, hk.par.ip j hj'⟩
    rw [hk.par.val j hj']
    show u (par.id.getD j 0) * _ + z (par.id.getD j 0) = _
    rw [he']

theorem cov_of_rel {W W' : Type} {e : Eng K W} {e' : Eng K W'} (hk : KeyRel (redescr hw hw' h hu κ hκ) par par' e.par e'.par)
    (hc : CovarRel (redescr hw hw' h hu κ hκ) e.covar e'.covar) (a b : ℕ) :
    (covOf e' a b).map (· * κ) = (covOf e a b).map (u a * u b * ·) := by
  obtain ⟨hw1, hw1'⟩ := hk.wf hw hw' rfl (parsAs_perm hw hw' h).length_eq.symm
  have hid : ∀ l, e'.par.id[(redescr hw hw' h hu κ hκ).ρ l]? = e.par.id[l]? := by
    intro l
    rw [hk.id, hk.id']
    exact redescr_id hw hw' h hu κ hκ l
  unfold covOf
  rw [parfind_moved hw1' hid, parfind_moved hw1' hid]
  rcases hf : e.par.parfind a with - | i
  · rfl
  · rcases hg : e.par.parfind b with - | j
    · rfl
    · obtain ⟨hi, h1⟩ := ParStore.parfind_some hf
      obtain ⟨hj, h2⟩ := ParStore.parfind_some hg
      have ea : par.id.getD i 0 = a := by
        rw [← hk.id, List.getD_eq_getElem?_getD, List.getElem?_eq_getElem hi, h1]; rfl
      have eb : par.id.getD j 0 = b := by
        rw [← hk.id, List.getD_eq_getElem?_getD, List.getElem?_eq_getElem hj, h2]; rfl
      have := hc i j (by rw [hk.id] at hi; exact hi) (by rw [hk.id] at hj; exact hj)
      simp only [Option.map_some, Option.bind_some, Option.some.injEq]
      rw [show (redescr hw hw' h hu κ hκ).s i = u a from by rw [← ea]; rfl,
        show (redescr hw hw' h hu κ hκ).s j = u b from by rw [← eb]; rfl] at this
      exact this

end

/-- The derivatives that are still stored from earlier constraints agree (for instance, there are none). -/
def SameOld (u : ℕ → K) (par par' : ParStore K) (m m' : Mat K) : Prop :=
  ∀ i n j j', par.parfind n = some j → par'.parfind n = some j' → (oldEnt m' i j').map (· * u n) = oldEnt m i j

variable [FloorRing K]

/-- Both runs start from the same variables and calculated curve. -/
structure SameStart (u z : ℕ → K) (e : Eng K (CWorld F K (C × List (List (Pt K))))) (e' : Eng K (CWorld F' K (C × List (List (Pt K))))) :
    Prop where
  wf : e.par.Wf
  wf' : e'.par.Wf
  pars : ParsAs u z e.par e'.par
  vars : e'.world.vars = e.world.vars
  mat : e.world.dvdp.WF
  mat' : e'.world.dvdp.WF
  old : SameOld u e.par e'.par e.world.dvdp e'.world.dvdp
  refvar : e'.world.refvar = e.world.refvar
  curve : e'.world.curve.1 = e.world.curve.1

/-- Related constraints give the same refinement. -/
theorem same_fit (G : Engine K C) {parse : FParser F K} {parse' : FParser F' K} (hp : ParserOK parse) (hp' : ParserOK parse')
    (icc : ℕ → Option K) (slots : List ℕ) (npar : ℕ) (dmax : K) (toler : K) (fuel : ℕ) (hf : 0 < fuel)
    {u z : ℕ → K} (hu : ∀ n, u n ≠ 0) (κ : K) (hκ : 0 < κ) (t t' : Statics K)
    (e : Eng K (CWorld F K (C × List (List (Pt K))))) (e' : Eng K (CWorld F' K (C × List (List (Pt K)))))
    (hfresh : ¬ (t.fitRunning = true ∧ e.iter ≠ 0)) (hfresh' : ¬ (t'.fitRunning = true ∧ e'.iter ≠ 0)) (hs : SameStart u z e e')
    (hc : List.Forall₂ (ConRel (redescr hs.wf hs.wf' hs.pars hu κ hκ) e.par e'.par parse parse') e.world.cons e'.world.cons) :
    SameFit u z κ (refineLoop (constrTheory (G.static parse icc slots npar dmax)) toler fuel (t, e))
      (refineLoop (constrTheory ((G.scale κ).static parse' icc slots npar dmax)) toler fuel (t', e')) := by
  have hn : e'.par.id.length = (redescr hs.wf hs.wf' hs.pars hu κ hκ).n := (parsAs_perm hs.wf hs.wf' hs.pars).length_eq.symm
  have T := constr_rel (E := redescr hs.wf hs.wf' hs.pars hu κ hκ) (q := e.par) (q' := e'.par) G hp hp' hs.wf hs.wf' rfl hn
    icc slots npar dmax
  have hk : KeyRel (redescr hs.wf hs.wf' hs.pars hu κ hκ) e.par e'.par e.par e'.par :=
    ⟨rfl, rfl, rfl, rfl, redescr_par hs.wf hs.wf' hs.pars hu κ hκ⟩
  have hw : WRel0 (redescr hs.wf hs.wf' hs.pars hu κ hκ) e.par e'.par parse parse' e.world e'.world := by
    refine ⟨hs.vars, hc, hs.mat, hs.mat', ?_, hs.refvar, hs.curve⟩
    intro i l hl _
    have h1 := ParStore.parfind_of_getElem hs.wf hl
    have h2 := parfind_moved hs.wf' (redescr_id hs.wf hs.wf' hs.pars hu κ hκ) e.par.id[l]
    rw [h1] at h2
    have h3 := hs.old i e.par.id[l] l _ h1 h2
    rw [← h3]
    show Option.map (· * u (e.par.id.getD l 0)) _ = _
    rw [show e.par.id.getD l 0 = e.par.id[l] from by
      rw [List.getD_eq_getElem?_getD, List.getElem?_eq_getElem hl]; rfl]
  obtain ⟨h1, -, h2, h3, -, h4⟩ := loop_rel T toler fuel hf t t' e e' hfresh hfresh' hk hw
  exact ⟨h1, parsAs_of_rel hs.wf hs.wf' hs.pars hu κ hκ h2, h3.vars, h3.curve, fun h => (h4 h).2.1, fun h => (h4 h).2.2.1,
    fun h => cov_of_rel hs.wf hs.wf' hs.pars hu κ hκ h2 (h4 h).2.2.2⟩

/-- **The order in which the parameters were defined, and a common factor of all weights, do not change a refinement.** The
constraints are the same (numbers, formula texts); the parameters have the same values and flags, but may be stored in another
order. `κ` multiplies the weights of all fitted points. -/
theorem order_and_weights (G : Engine K C) (tab : Parser.BTab K) (icc : ℕ → Option K) (slots : List ℕ) (npar : ℕ) (dmax : K) (toler : K)
    (fuel : ℕ) (hf : 0 < fuel) (κ : K) (hκ : 0 < κ) (t t' : Statics K)
    (e e' : Eng K (CWorld (List Char) K (C × List (List (Pt K)))))
    (hfresh : ¬ (t.fitRunning = true ∧ e.iter ≠ 0)) (hfresh' : ¬ (t'.fitRunning = true ∧ e'.iter ≠ 0))
    (hs : SameStart (fun _ => 1) (fun _ => 0) e e') (hc : e'.world.cons = e.world.cons) :
    SameFit (fun _ => 1) (fun _ => 0) κ
      (refineLoop (constrTheory (G.static (Parser.fparse tab) icc slots npar dmax)) toler fuel (t, e))
      (refineLoop (constrTheory ((G.scale κ).static (Parser.fparse tab) icc slots npar dmax)) toler fuel (t', e')) := by
  refine same_fit G (Parser.fparse_parserOK tab) (Parser.fparse_parserOK tab) icc slots npar dmax toler fuel hf (fun _ => one_ne_zero)
    κ hκ t t' e e' hfresh hfresh' hs ?_
  rw [hc]
  refine List.forall₂_same.2 fun c _ => ⟨rfl, rfl, fun par par' hk => ?_⟩
  obtain ⟨hw1, hw1'⟩ := hk.wf hs.wf hs.wf' rfl (parsAs_perm hs.wf hs.wf' hs.pars).length_eq.symm
  refine cresRel_moved tab (fun _ => rfl) (fun _ => rfl) _ hw1 hw1' ?_ hk.par c
  intro l
  rw [hk.id, hk.id']
  exact redescr_id hs.wf hs.wf' hs.pars (fun _ => one_ne_zero) κ hκ l

/-! ### Definition of the parameters in another order -/

omit [FloorRing K] in
theorem parOf_setpar {par : ParStore K} (hw : par.Wf) (n : ℕ) (v : K) (m : ℕ) :
    parOf (par.setpar n v) m = if m = n then some (v, ((parOf par n).map Prod.snd).getD true) else parOf par m := by
  unfold ParStore.setpar
  rcases h : par.parfind n with - | i
  · dsimp only
    by_cases hm : m = n
    · subst hm
      rw [if_pos rfl]
      simp only [parOf]
      rw [ParStore.parfind_append_new h, if_pos rfl, h]
      simp only [Option.map_some, Option.map_none, Option.getD_none]
      rw [← hw.lp]
      have : par.p.length = par.ip.length := by rw [hw.lp, hw.li]
      rw [show (par.ip ++ [true]).getD par.p.length false = true from by rw [this]; simp]
      simp
    · rw [if_neg hm]
      simp only [parOf]
      rcases h2 : par.parfind m with - | j
      · rw [ParStore.parfind_append_new h2, if_neg (fun x => hm x.symm)]
        rfl
      · rw [ParStore.parfind_append_old h2]
        obtain ⟨hj, -⟩ := ParStore.parfind_some h2
        have h3 : j < par.p.length := by rw [hw.lp]; exact hj
        have h4 : j < par.ip.length := by rw [hw.li]; exact hj
        simp [List.getElem?_append_left h3, List.getElem?_append_left h4]
  · dsimp only
    obtain ⟨hi, he⟩ := ParStore.parfind_some h
    have hi' : i < par.p.length := by rw [hw.lp]; exact hi
    have hf : ∀ k, (ParStore.mk (par.p.set i v) par.ip par.id).parfind k = par.parfind k := fun _ => rfl
    unfold parOf
    rw [hf]
    by_cases hm : m = n
    · subst hm
      rw [if_pos rfl, h]
      simp [hi']
    · rw [if_neg hm]
      rcases h2 : par.parfind m with - | j
      · rfl
      · obtain ⟨hj, he2⟩ := ParStore.parfind_some h2
        have hne : i ≠ j := by
          rintro rfl
          exact hm (he2.symm.trans he)
        simp [List.getElem?_set_ne hne]

/-- A sequence of `setpar`. -/
def setpars (par : ParStore K) (l : List (ℕ × K)) : ParStore K := l.foldl (fun s x => s.setpar x.1 x.2) par

omit [FloorRing K] in
theorem setpars_wf (l : List (ℕ × K)) : ∀ {par : ParStore K}, par.Wf → (setpars par l).Wf := by
  induction l with
  | nil => exact fun h => h
  | cons x l ih => exact fun h => ih (ParStore.wf_setpar h _ _)

omit [FloorRing K] in
theorem parOf_setpars (l : List (ℕ × K)) (hn : (l.map Prod.fst).Nodup) : ∀ {par : ParStore K}, par.Wf → ∀ m,
    (m ∉ l.map Prod.fst → parOf (setpars par l) m = parOf par m) ∧
    ∀ v, (m, v) ∈ l → parOf (setpars par l) m = some (v, ((parOf par m).map Prod.snd).getD true) := by
  induction l with
  | nil => intro par _ m; exact ⟨fun _ => rfl, by simp⟩
  | cons x l ih =>
    intro par hw m
    rw [List.map_cons, List.nodup_cons] at hn
    obtain ⟨h1, h2⟩ := ih hn.2 (ParStore.wf_setpar hw x.1 x.2) m
    constructor
    · intro hm
      rw [List.map_cons, List.mem_cons, not_or] at hm
      show parOf (setpars (par.setpar x.1 x.2) l) m = _
      rw [h1 hm.2, parOf_setpar hw, if_neg hm.1]
    · intro v hv
      show parOf (setpars (par.setpar x.1 x.2) l) m = _
      rcases List.mem_cons.1 hv with rfl | hv
      · rw [h1 hn.1, parOf_setpar hw, if_pos rfl]
      · rw [h2 v hv, parOf_setpar hw, if_neg]
        rintro rfl
        exact hn.1 (List.mem_map.2 ⟨_, hv, rfl⟩)

omit [FloorRing K] in
/-- Definitions of different parameters in another order give the same parameters. -/
theorem setpar_order {par : ParStore K} (hw : par.Wf) {l l' : List (ℕ × K)} (h : l.Perm l') (hn : (l.map Prod.fst).Nodup) :
    ParsAs (fun _ => 1) (fun _ => 0) (setpars par l) (setpars par l') := by
  intro m
  have hn' : (l'.map Prod.fst).Nodup := (h.map Prod.fst).nodup_iff.1 hn
  have key : parOf (setpars par l') m = parOf (setpars par l) m := by
    obtain ⟨a1, a2⟩ := parOf_setpars l hn hw m
    obtain ⟨b1, b2⟩ := parOf_setpars l' hn' hw m
    by_cases hm : m ∈ l.map Prod.fst
    · obtain ⟨x, hx, rfl⟩ := List.mem_map.1 hm
      rw [a2 x.2 hx, b2 x.2 (h.mem_iff.1 hx)]
    · rw [a1 hm, b1 (fun hx => hm ((h.map Prod.fst).mem_iff.2 hx))]
  rw [key]
  rcases parOf (setpars par l) m with - | x <;> simp

/-! ### Other formulas, units and zero points -/

open _root_.Pdffit.Parser Formula C09 C10 Topology

/-- The tree of a constraint: of its formula text, or of the type of a constraint given by a number. -/
inductive Denotes : Constr (List Char) → Ex → Prop
  | formula {c f ex} (hf : c.form = some f) (h : IsFormula ex f) : Denotes c ex
  | ident {c} (hf : c.form = none) (ht : c.ctype = .ident) : Denotes c (.par (toUnsigned c.idef))
  | fcomp {c} (hf : c.form = none) (ht : c.ctype = .fcomp) : Denotes c (.bin .sub (.num (lit 1)) (.par (toUnsigned c.idef)))
  | fsqr {c} (hf : c.form = none) (ht : c.ctype = .fsqr) :
      Denotes c (.bin .mul (.par (toUnsigned c.idef)) (.par (toUnsigned c.idef)))

/-- The derivatives that a constraint stores for free parameters. -/
structure Stored (par : ParStore ℝ) (ex : Ex) (x : ℝ) (fr : Bool) (es : List (ℕ × ℝ)) : Prop where
  val : ex.val (parVal par) mathPartial = some x
  free : fr = true ↔ ∃ n ∈ ex.pars, ∃ j, par.parfind n = some j ∧ par.ip.getD j false = true
  there : ∀ n j, n ∈ ex.pars → par.parfind n = some j → par.ip.getD j false = true →
    ∃ d, (∀ o, rowAfter es j o = some d) ∧
      HasPDeriv (fun t => ex.val (Function.update (parVal par) n (some t)) mathPartial) d (par.p.getD j 0)
  away : ∀ n j, n ∉ ex.pars → par.parfind n = some j → ∀ o, rowAfter es j o = o

theorem rowAfter_away (es : List (ℕ × ℝ)) (j : ℕ) (h : ∀ e ∈ es, e.1 ≠ j) (o : Option ℝ) : rowAfter es j o = o := by
  induction es generalizing o with
  | nil => rfl
  | cons e es ih =>
    simp only [rowAfter, List.foldl_cons]
    rw [if_neg (h e (by simp))]
    exact ih (fun e he => h e (List.mem_cons_of_mem _ he)) o

theorem rowAfter_there (es : List (ℕ × ℝ)) (j : ℕ) (d : ℝ) (hn : (es.map Prod.fst).Nodup) (h : (j, d) ∈ es) (o : Option ℝ) :
    rowAfter es j o = some d := by
  induction es generalizing o with
  | nil => simp at h
  | cons e es ih =>
    rw [List.map_cons, List.nodup_cons] at hn
    simp only [rowAfter, List.foldl_cons]
    rcases List.mem_cons.1 h with rfl | h
    · rw [if_pos rfl]
      exact rowAfter_away es j (fun e he hx => hn.1 (List.mem_map.2 ⟨e, he, hx⟩)) _
    · exact ih hn.2 h _

theorem find_id {par : ParStore ℝ} (hw : par.Wf) {n j : ℕ} : par.parfind n = some j ↔ par.id[j]? = some n := by
  constructor
  · intro h
    obtain ⟨hj, h⟩ := ParStore.parfind_some h
    rw [List.getElem?_eq_getElem hj, h]
  · intro h
    obtain ⟨hj, h⟩ := List.getElem?_eq_some_iff.1 h
    rw [← h]
    exact ParStore.parfind_of_getElem hw hj

theorem stored_formula (par : ParStore ℝ) (hw : par.Wf) (f : List Char) (ex : Ex) (h : IsFormula ex f)
    (hin : Inside (parVal par) ex) :
    ∃ x ds, fparse builtinTab f par = .ok (x, ds) ∧
      Stored par ex x (ds.any fun e => par.ip.getD e.1 false) (ds.filter fun e => par.ip.getD e.1 false) := by
  obtain ⟨x, d, used, h1, hnd, hmem, hd⟩ := gradient par hw ex f h hin
  obtain ⟨y, hy⟩ := inside_val ex hin
  obtain ⟨d', used', h2⟩ := value_builtin par hw ex f h y hy
  rw [h1] at h2
  simp only [Option.some.injEq, Res.ok.injEq, Prod.mk.injEq] at h2
  obtain ⟨⟨rfl, -⟩, -⟩ := h2
  refine ⟨x, used.mapIdx fun i j => (j, d.getD i 0), by unfold fparse; rw [h1], ?_⟩
  have hfst : (used.mapIdx fun i j => (j, d.getD i 0)).map Prod.fst = used := by
    apply List.ext_getElem
    · simp
    · intro i h1 h2; simp
  have hin' : ∀ e : ℕ × ℝ, e ∈ (used.mapIdx fun i j => (j, d.getD i 0)) → e.1 ∈ used := by
    intro e he
    rw [← hfst]
    exact List.mem_map_of_mem he
  refine ⟨hy, ?_, ?_, ?_⟩
  · rw [List.any_eq_true]
    constructor
    · rintro ⟨e, he, hf⟩
      obtain ⟨n, hn, hi⟩ := (hmem e.1).1 (hin' e he)
      exact ⟨n, hn, e.1, (find_id hw).2 hi, hf⟩
    · rintro ⟨n, hn, j, hj, hf⟩
      have hju : j ∈ used := (hmem j).2 ⟨n, hn, (find_id hw).1 hj⟩
      rw [← hfst] at hju
      obtain ⟨e, he, rfl⟩ := List.mem_map.1 hju
      exact ⟨e, he, hf⟩
  · intro n j hn hj hf
    have hju : j ∈ used := (hmem j).2 ⟨n, hn, (find_id hw).1 hj⟩
    obtain ⟨k, hk, rfl⟩ := List.getElem_of_mem hju
    obtain ⟨hjl, -⟩ := ParStore.parfind_some hj
    have hp : par.p[used[k]]? = some (par.p.getD used[k] 0) := by
      have : used[k] < par.p.length := by rw [hw.lp]; exact hjl
      simp [List.getElem?_eq_getElem this]
    have hi : par.ip[used[k]]? = some true := by
      have : used[k] < par.ip.length := by rw [hw.li]; exact hjl
      rw [List.getD_eq_getElem?_getD, List.getElem?_eq_getElem this] at hf
      rw [List.getElem?_eq_getElem this]
      exact congrArg some hf
    obtain ⟨-, h3⟩ := (hd k hk n _ ((find_id hw).1 hj) hp).1 hi
    refine ⟨d.getD k 0, fun o => rowAfter_there _ _ _ ?_ ?_ o, h3⟩
    · refine List.Nodup.sublist (List.Sublist.map _ List.filter_sublist) ?_
      rw [hfst]; exact hnd
    · rw [List.mem_filter]
      refine ⟨?_, hf⟩
      rw [List.mem_mapIdx]
      exact ⟨k, hk, rfl⟩
  · intro n j hn hj o
    apply rowAfter_away
    rintro e he rfl
    obtain ⟨m, hm, hi⟩ := (hmem e.1).1 (hin' e (List.mem_filter.1 he).1)
    rw [(find_id hw).1 hj] at hi
    cases hi
    exact hn hm

theorem parVal_find {par : ParStore ℝ} (hw : par.Wf) {n : ℕ} {x : ℝ} (h : parVal par n = some x) :
    ∃ j, par.parfind n = some j ∧ par.p.getD j 0 = x := by
  unfold parVal ParStore.getpar at h
  rcases hf : par.parfind n with - | j
  · rw [hf] at h; simp at h
  · rw [hf] at h
    obtain ⟨hj, -⟩ := ParStore.parfind_some hf
    have : j < par.p.length := by rw [hw.lp]; exact hj
    simp only [Res.at?, List.getElem?_eq_getElem this, Option.some.injEq] at h
    exact ⟨j, rfl, by simp [this, h]⟩

theorem stored (par : ParStore ℝ) (hw : par.Wf) (c : Constr (List Char)) (ex : Ex) (h : Denotes c ex)
    (hin : Inside (parVal par) ex) :
    ∃ x fr es, cres (fparse builtinTab) par c = .ok (some x, fr, es) ∧ Stored par ex x fr es := by
  have one : ∀ (n : ℕ) (y : ℝ) (j : ℕ), parVal par n = some y → par.parfind n = some j → par.p.getD j 0 = y → ∀ (ex : Ex) (g : ℝ → ℝ) (d : ℝ),
      ex.pars ≠ [] → (∀ m ∈ ex.pars, m = n) → (∀ v : ℕ → Option ℝ, ∀ t, v n = some t → ex.val v mathPartial = some (g t)) → HasDerivAt g d y →
      Stored par ex (g y) (par.ip.getD j false) [(j, d)] := by
    intro n y j hy hj hp ex g d hne hm hv hg
    have hmem : n ∈ ex.pars := by
      obtain ⟨m, hm'⟩ := List.exists_mem_of_ne_nil _ hne
      exact hm m hm' ▸ hm'
    refine ⟨hv _ _ hy, ?_, ?_, ?_⟩
    · constructor
      · intro hf
        exact ⟨n, hmem, j, hj, hf⟩
      · rintro ⟨m, hm', k, hk, hf⟩
        rw [hm m hm', hj] at hk
        cases hk
        exact hf
    · intro m k hm' hk hf
      rw [hm m hm', hj] at hk
      cases hk
      have := hm m hm'
      subst this
      refine ⟨d, fun o => by simp [rowAfter], g, Filter.Eventually.of_forall fun t => hv _ _ (by simp), ?_⟩
      rw [hp]; exact hg
    · intro m k hm' hk o
      have : j ≠ k := by
        rintro rfl
        have h1 := (find_id hw).1 hk
        rw [(find_id hw).1 hj] at h1
        cases h1
        exact hm' hmem
      simp [rowAfter, this]
  cases h with
  | formula hf h =>
    rename_i f
    obtain ⟨x, ds, h1, h2⟩ := stored_formula par hw f ex h hin
    refine ⟨x, _, _, ?_, h2⟩
    unfold cres
    rw [hf]
    dsimp only
    rw [h1]
  | ident hf ht =>
    obtain ⟨y, hy⟩ := hin
    obtain ⟨j, hj, hp⟩ := parVal_find hw hy
    refine ⟨y, par.ip.getD j false, [(j, 1)], ?_, one _ y j hy hj hp _ id 1 (by simp [Ex.pars]) (by simp [Ex.pars]) ?_ (hasDerivAt_id y)⟩
    · unfold cres
      rw [hf]; dsimp only; rw [hj]; dsimp only; rw [ht, hp]
    · intro v t hv; exact hv
  | fcomp hf ht =>
    obtain ⟨-, ⟨y, hy⟩, -⟩ := hin
    obtain ⟨j, hj, hp⟩ := parVal_find hw hy
    refine ⟨1 - y, par.ip.getD j false, [(j, -1)], ?_, one _ y j hy hj hp _ (fun t => 1 - t) (-1) (by simp [Ex.pars]) (by simp [Ex.pars]) ?_
      (by simpa using (hasDerivAt_id y).const_sub 1)⟩
    · unfold cres
      rw [hf]; dsimp only; rw [hj]; dsimp only; rw [ht, hp]
    · intro v t hv
      simp only [Ex.val, hv, Option.bind_some, Ex.opVal]
      simp [lit, Lit.val, Lit.scale, digitsVal]
  | fsqr hf ht =>
    obtain ⟨⟨y, hy⟩, -, -⟩ := hin
    obtain ⟨j, hj, hp⟩ := parVal_find hw hy
    refine ⟨y * y, par.ip.getD j false, [(j, 2 * y)], ?_, one _ y j hy hj hp _ (fun t => t * t) (2 * y) (by simp [Ex.pars]) (by simp [Ex.pars]) ?_
      (by
        have h := (hasDerivAt_id y).mul (hasDerivAt_id y)
        simp only [id, one_mul, mul_one] at h
        rw [two_mul]
        exact h)⟩
    · unfold cres
      rw [hf]; dsimp only; rw [hj]; dsimp only; rw [ht, hp]
    · intro v t hv
      simp only [Ex.val, hv, Option.bind_some, Ex.opVal]

/-- Values `v` of the parameters with the numbers `ids`. -/
def asg (ids : List ℕ) (v : ℕ → ℝ) (n : ℕ) : Option ℝ := if n ∈ ids then some (v n) else none

theorem HasPDeriv.unique {f : ℝ → Option ℝ} {d d' x : ℝ} (h : HasPDeriv f d x) (h' : HasPDeriv f d' x) : d = d' := by
  obtain ⟨g, h1, h2⟩ := h
  obtain ⟨g', h1', h2'⟩ := h'
  refine h2.unique (h2'.congr_of_eventuallyEq ?_)
  filter_upwards [h1, h1'] with t a b
  rw [a] at b
  exact Option.some.inj b

theorem HasPDeriv.comp_affine {f f' : ℝ → Option ℝ} {d' x u z : ℝ} (hf : ∀ t, f t = f' (u * t + z)) (h : HasPDeriv f' d' (u * x + z)) :
    HasPDeriv f (d' * u) x := by
  obtain ⟨g, h1, h2⟩ := h
  have ha : HasDerivAt (fun t => u * t + z) u x := by
    simpa using ((hasDerivAt_id x).const_mul u).add_const z
  refine ⟨fun t => g (u * t + z), ?_, h2.comp x ha⟩
  filter_upwards [ha.continuousAt.eventually h1] with t ht
  rw [hf, ht]

theorem parVal_parOf {par : ParStore ℝ} (hw : par.Wf) (n : ℕ) : parVal par n = (parOf par n).map Prod.fst := by
  unfold parVal ParStore.getpar parOf
  rcases hf : par.parfind n with - | j
  · rfl
  · obtain ⟨hj, -⟩ := ParStore.parfind_some hf
    have : j < par.p.length := by rw [hw.lp]; exact hj
    simp [Res.at?, List.getElem?_eq_getElem this]

theorem mem_id {par : ParStore ℝ} (hw : par.Wf) (n : ℕ) : n ∈ par.id ↔ (parOf par n).isSome = true := by
  unfold parOf
  rw [Option.isSome_map]
  constructor
  · intro hm
    obtain ⟨i, hi, he⟩ := List.getElem_of_mem hm
    rw [← he, ParStore.parfind_of_getElem hw hi]
    rfl
  · intro hs
    obtain ⟨i, hi⟩ := Option.isSome_iff_exists.1 hs
    obtain ⟨h1, h2⟩ := ParStore.parfind_some hi
    exact h2 ▸ List.getElem_mem h1

/-- Two constraints that say the same about the variable: in the second one the parameters have other units and zero points, and
the formula may be written in another way. The formulas have values for all values of the parameters. -/
structure SameMeaning (ids : List ℕ) (u z : ℕ → ℝ) (c c' : Constr (List Char)) (ex ex' : Ex) : Prop where
  addr : c'.addr = c.addr
  vref : c'.vref = c.vref
  den : Denotes c ex
  den' : Denotes c' ex'
  pars : ∀ n, n ∈ ex'.pars ↔ n ∈ ex.pars
  inside : ∀ v, Inside (asg ids v) ex
  inside' : ∀ v, Inside (asg ids v) ex'
  val : ∀ v : ℕ → ℝ, ex'.val (asg ids fun n => u n * v n + z n) mathPartial = ex.val (asg ids v) mathPartial

theorem update_asg (ids : List ℕ) (v : ℕ → ℝ) {n : ℕ} (hn : n ∈ ids) (t : ℝ) :
    Function.update (asg ids v) n (some t) = asg ids (Function.update v n t) := by
  funext m
  by_cases hm : m = n
  · subst hm; simp [asg, hn]
  · simp [asg, hm]

theorem conRel_meaning {u z : ℕ → ℝ} {q q' : ParStore ℝ} (hw : q.Wf) (hw' : q'.Wf) (h : ParsAs u z q q') (hu : ∀ n, u n ≠ 0)
    (κ : ℝ) (hκ : 0 < κ) {c c' : Constr (List Char)} {ex ex' : Ex} (hm : SameMeaning q.id u z c c' ex ex') :
    ConRel (redescr hw hw' h hu κ hκ) q q' (fparse builtinTab) (fparse builtinTab) c c' := by
  refine ⟨hm.addr, hm.vref, fun par par' hk => ?_⟩
  obtain ⟨hw1, hw1'⟩ := hk.wf hw hw' rfl (parsAs_perm hw hw' h).length_eq.symm
  have hid : ∀ l, par'.id[(redescr hw hw' h hu κ hκ).ρ l]? = par.id[l]? := by
    intro l
    rw [hk.id, hk.id']
    exact redescr_id hw hw' h hu κ hκ l
  have hpa := parsAs_of_rel hw hw' h hu κ hκ hk
  obtain ⟨v, hv, hv'⟩ : ∃ v, parVal par = asg q.id v ∧ parVal par' = asg q.id fun n => u n * v n + z n := by
    refine ⟨fun n => ((parOf par n).map Prod.fst).getD 0, ?_, ?_⟩
    · funext n
      rw [parVal_parOf hw1]
      have h1 := mem_id hw1 n
      rw [hk.id] at h1
      unfold asg
      rcases hx : parOf par n with - | x
      · rw [if_neg (by rw [h1, hx]; simp)]; rfl
      · rw [if_pos (by rw [h1, hx]; rfl)]; simp [hx]
    · funext n
      rw [parVal_parOf hw1', hpa n]
      have h1 := mem_id hw1 n
      rw [hk.id] at h1
      unfold asg
      rcases hx : parOf par n with - | x
      · rw [if_neg (by rw [h1, hx]; simp)]; rfl
      · rw [if_pos (by rw [h1, hx]; rfl)]; simp [hx]
  obtain ⟨x, fr, es, g1, g2⟩ := stored par hw1 c ex hm.den (by rw [hv]; exact hm.inside v)
  obtain ⟨x', fr', es', g1', g2'⟩ := stored par' hw1' c' ex' hm.den' (by rw [hv']; exact hm.inside' _)
  rw [g1, g1']
  have hfind := parfind_moved hw1' hid
  refine ⟨?_, ?_, ?_⟩
  · have a1 := g2.val
    have a2 := g2'.val
    rw [hv', hm.val v, ← hv, a1] at a2
    exact a2.symm
  · dsimp only
    rw [Bool.eq_iff_iff, g2.free, g2'.free]
    refine exists_congr fun n => ?_
    rw [hm.pars, hfind]
    refine and_congr_right fun _ => ?_
    constructor
    · rintro ⟨j', h1, h2⟩
      obtain ⟨j, hj, rfl⟩ := Option.map_eq_some_iff.1 h1
      obtain ⟨hl, -⟩ := ParStore.parfind_some hj
      rw [hk.id] at hl
      exact ⟨j, hj, by rw [← h2]; exact (hk.par.ip j hl).symm⟩
    · rintro ⟨j, hj, h2⟩
      obtain ⟨hl, -⟩ := ParStore.parfind_some hj
      rw [hk.id] at hl
      exact ⟨_, by rw [hj]; rfl, by rw [← h2]; exact hk.par.ip j hl⟩
  · intro l hl fl o o' ho
    have hl1 : l < par.id.length := by rw [hk.id]; exact hl
    have f1 := ParStore.parfind_of_getElem hw1 hl1
    have f2 := hfind par.id[l]
    rw [f1] at f2
    have fl1 : par.ip.getD l false = true := by rw [hk.ip]; exact fl
    have fl2 : par'.ip.getD ((redescr hw hw' h hu κ hκ).ρ l) false = true := by rw [hk.par.ip l hl]; exact fl1
    have hn : par.id[l] ∈ q.id := by rw [← hk.id]; exact List.getElem_mem hl1
    have hsl : (redescr hw hw' h hu κ hκ).s l = u par.id[l] := by
      show u (q.id.getD l 0) = _
      rw [← hk.id, List.getD_eq_getElem?_getD, List.getElem?_eq_getElem hl1]; rfl
    have htl : (redescr hw hw' h hu κ hκ).t l = z par.id[l] := by
      show z (q.id.getD l 0) = _
      rw [← hk.id, List.getD_eq_getElem?_getD, List.getElem?_eq_getElem hl1]; rfl
    dsimp only
    by_cases hmem : par.id[l] ∈ ex.pars
    · obtain ⟨d, k1, k2⟩ := g2.there _ l hmem f1 fl1
      obtain ⟨d', k1', k2'⟩ := g2'.there _ _ ((hm.pars _).2 hmem) f2 fl2
      rw [k1, k1', hsl, Option.map_some]
      congr 1
      rw [hk.par.val l hl, hsl, htl] at k2'
      refine HasPDeriv.unique (HasPDeriv.comp_affine (fun t => ?_) k2') k2
      rw [hv, hv', update_asg _ _ hn, update_asg _ _ hn, ← hm.val]
      congr 2
      funext m
      by_cases e : m = par.id[l]
      · rw [e]; simp
      · simp [e]
    · rw [g2.away _ l hmem f1, g2'.away _ _ (fun hx => hmem ((hm.pars _).1 hx)) f2]
      exact ho

/-- **Units and zero points of the parameters, and the way in which the constraints are written, do not change a refinement**: every
constraint of the second fit says the same about its variable as that of the first one. -/
theorem units_and_formulas (G : Engine ℝ C) (icc : ℕ → Option ℝ) (slots : List ℕ) (npar : ℕ) (dmax : ℝ) (toler : ℝ)
    (fuel : ℕ) (hf : 0 < fuel) {u z : ℕ → ℝ} (hu : ∀ n, u n ≠ 0) (κ : ℝ) (hκ : 0 < κ) (t t' : Statics ℝ)
    (e e' : Eng ℝ (CWorld (List Char) ℝ (C × List (List (Pt ℝ)))))
    (hfresh : ¬ (t.fitRunning = true ∧ e.iter ≠ 0)) (hfresh' : ¬ (t'.fitRunning = true ∧ e'.iter ≠ 0))
    (hs : SameStart u z e e')
    (hc : List.Forall₂ (fun c c' => ∃ ex ex', SameMeaning e.par.id u z c c' ex ex') e.world.cons e'.world.cons) :
    SameFit u z κ
      (refineLoop (constrTheory (G.static (fparse builtinTab) icc slots npar dmax)) toler fuel (t, e))
      (refineLoop (constrTheory ((G.scale κ).static (fparse builtinTab) icc slots npar dmax)) toler fuel (t', e')) := by
  refine same_fit G (fparse_parserOK builtinTab) (fparse_parserOK builtinTab) icc slots npar dmax toler fuel hf hu
    κ hκ t t' e e' hfresh hfresh' hs (hc.imp ?_)
  rintro c c' ⟨ex, ex', hm⟩
  exact conRel_meaning hs.wf hs.wf' hs.pars hu κ hκ hm

/-! ### Examples -/

/-- Two variables `x`, `y` that are fitted to `x + y = 3`, `x = 1`, `y = 2.5`. -/
def demoG : Engine ℚ (List ℚ) where
  run v _ _ _ := ([v 0, v 1], none)
  rows c := [[⟨6, 3, c.getD 0 0 + c.getD 1 0, fun i => if i < 2 then 1 else 0⟩, ⟨6, 1, c.getD 0 0, fun i => if i = 0 then 1 else 0⟩],
    [⟨6, 5 / 2, c.getD 1 0, fun i => if i = 1 then 1 else 0⟩]]

/-- A fit with `x` given by the formula `f` and `y` by the formula `g`. -/
def demoE (par : ParStore ℚ) (f g : String) : Eng ℚ (CWorld (List Char) ℚ (List ℚ × List (List (Pt ℚ)))) where
  par := par
  world := ⟨fun _ => 0, [⟨0, some f.toList, -1, .user, true⟩, ⟨1, some g.toList, -1, .user, true⟩], .empty, [], ([], [])⟩
  iter := 0
  stagnating := 0
  alambda := -1
  chisq := 0
  ochisq := 0
  alpha := fun _ _ => 0
  covar := fun _ _ => 0
  cum := []
  rw2 := 0

/-- Five steps of the refinement. -/
def demoRun (κ : ℚ) (par : ParStore ℚ) (f g : String) :=
  refineLoop (constrTheory ((demoG.scale κ).static (fparse demoTab) (fun _ => none) [0, 1] 2 1000000)) (1 / 100) 100 ({}, demoE par f g)

/-- The parameters 7 and 3 with values 2 and 1, in both orders. -/
def demoP : ParStore ℚ := setpars {} [(7, 2), (3, 1)]
def demoP' : ParStore ℚ := setpars {} [(3, 1), (7, 2)]

theorem demo_start : SameStart (fun _ => 1) (fun _ => 0) (demoE demoP "@7" "2*@3+1") (demoE demoP' "@7" "2*@3+1") where
  wf := setpars_wf _ ParStore.wf_empty
  wf' := setpars_wf _ ParStore.wf_empty
  pars := setpar_order ParStore.wf_empty (List.Perm.swap _ _ _) (by decide)
  vars := rfl
  mat := rfl
  mat' := rfl
  old := by
    intro i n j j' _ _
    simp [oldEnt, demoE, Mat.empty]
  refvar := rfl
  curve := rfl

/-- The order theorem applies to it. -/
example (κ : ℚ) (hκ : 0 < κ) : SameFit (fun _ => 1) (fun _ => 0) κ
    (refineLoop (constrTheory (demoG.static (fparse demoTab) (fun _ => none) [0, 1] 2 1000000)) (1 / 100) 100
      ({}, demoE demoP "@7" "2*@3+1"))
    (demoRun κ demoP' "@7" "2*@3+1") :=
  order_and_weights demoG demoTab _ _ _ _ _ 100 (by decide) κ hκ {} {} _ _ (by simp) (by simp) demo_start rfl

/-- Both orders, and four times the weights: the covariance of 3 and 7 is the same, and a quarter. -/
example : (demoRun 1 demoP "@7" "2*@3+1").2 = (.done, 5) ∧ (demoRun 1 demoP "@7" "2*@3+1").1.2.par.id = [7, 3] ∧
    (demoRun 1 demoP' "@7" "2*@3+1").2 = (.done, 5) ∧ (demoRun 1 demoP' "@7" "2*@3+1").1.2.par.id = [3, 7] ∧
    covOf (demoRun 1 demoP "@7" "2*@3+1").1.2 3 7 = some (-1 / 36) ∧ covOf (demoRun 1 demoP' "@7" "2*@3+1").1.2 3 7 = some (-1 / 36) ∧
    covOf (demoRun 4 demoP' "@7" "2*@3+1").1.2 3 7 = some (-1 / 144) ∧
    (demoRun 1 demoP "@7" "2*@3+1").1.2.par.p ≠ demoP.p ∧
    parOf (demoRun 1 demoP "@7" "2*@3+1").1.2.par 3 = parOf (demoRun 1 demoP' "@7" "2*@3+1").1.2.par 3 := by
  decide +kernel

/-- The value `2*@7+3` instead of `@7` for `x`; parameter 7 is `-1/2` at the beginning instead of 2. -/
example : (demoRun 1 (setpars {} [(7, -1 / 2), (3, 1)]) "2*@7+3" "2*@3+1").2 = (.done, 5) ∧
    covOf (demoRun 1 (setpars {} [(7, -1 / 2), (3, 1)]) "2*@7+3" "2*@3+1").1.2 3 7 = some (-1 / 72) ∧
    (demoRun 1 (setpars {} [(7, -1 / 2), (3, 1)]) "2*@7+3" "2*@3+1").1.2.world.vars 0 =
      (demoRun 1 demoP "@7" "2*@3+1").1.2.world.vars 0 ∧
    (demoRun 1 (setpars {} [(7, -1 / 2), (3, 1)]) "2*@7+3" "2*@3+1").1.2.chisq = (demoRun 1 demoP "@7" "2*@3+1").1.2.chisq := by
  decide +kernel

/-- A constraint by number and one by formula that say the same in other units. -/
example (vref : Bool) : SameMeaning [7, 3] (fun n => if n = 7 then 1 / 2 else 1) (fun n => if n = 7 then -3 / 2 else 0)
    ⟨0, none, 7, .ident, vref⟩ ⟨0, some "2*@7+3".toList, -1, .user, vref⟩ (.par 7)
    (.bin .add (.bin .mul (.num (lit 2)) (.par 7)) (.num (lit 3))) where
  addr := rfl
  vref := rfl
  den := Denotes.ident (c := ⟨0, none, 7, .ident, vref⟩) rfl rfl
  den' := by
    refine .formula (f := "2*@7+3".toList) rfl ⟨_, [], (List.append_nil _).symm, ?_, by simp⟩
    have sp0 : ∀ c ∈ ([] : List Char), Blank c := by simp
    have p1 : Txt .fac (.par 7) "@7".toList := Txt.par (ds := [7]) (by simp) (by decide)
    exact Txt.add (o := .add) (Or.inl rfl) (.expr (Txt.mul (o := .mul) (Or.inl rfl) (.term (lit_txt 2)) sp0 p1)) sp0 (.term (lit_txt 3))
  pars := by simp [Ex.pars]
  inside v := ⟨v 7, by simp [asg]⟩
  inside' v := ⟨⟨trivial, ⟨v 7, by simp [asg]⟩, by simp⟩, trivial, by simp⟩
  val v := by
    simp only [Ex.val, asg, Ex.opVal]
    simp [lit, Lit.val, Lit.scale, digitsVal]
    ring

end Pdffit.C66
