import Verif.Model.ConstrSys
import Verif.Lemmas.ConstrDet
import Mathlib.Algebra.Order.Ring.Rat

/-!
# C08  Parameter derivatives of constrained variables are those of the current constraints

Violated.  `fill_variables` resizes `dvdp` without clearing it and writes only the entries of the
parameters that the current constraint uses.

* `C08_replaced_constraint_stale`: after replacing `x = @1` by `x = @2` the derivative with respect to
  parameter 1 stays 1, although the constraint does not use it.
* `C08_fixed_parameter_nonzero`: for `x = par 1` the entry is 1 even though the parameter is fixed.
* `C08_derivatives_partial`: in histories in which no constraint is replaced, after every successful evaluation the
  entry for each free parameter is the derivative of the current constraint, zero for unused parameters.
  Entries of fixed parameters are not covered; the refinement does not use them (C15, C14).
-/

namespace Pdffit.C08
variable {F K : Type}

/-- The formula evaluator reports each parameter that the formula text uses once. -/
def ParserUses (parse : FParser F K) (uses : F → List Nat) : Prop :=
  ∀ f par x ders, par.Wf → parse f par = .ok (x, ders) → (ders.map Prod.fst).Nodup ∧
    ∀ j, j ∈ ders.map Prod.fst ↔ ∃ n ∈ uses f, par.parfind n = some j

/-- Parameters used by a constraint. -/
def usesOf (uses : F → List Nat) (c : Constr F) : List Nat :=
  match c.form with
  | some f => uses f
  | none => [toUnsigned c.idef]

/-- Derivative of a constraint with respect to the parameter at position `j`. -/
def deriv [Ring K] (parse : FParser F K) (par : ParStore K) (c : Constr F) (j : Nat) : K :=
  match c.form with
  | some f => match parse f par with
    | .ok r => (r.2.lookup j).getD 0
    | .error _ => 0
  | none => if par.parfind (toUnsigned c.idef) = some j then
      match c.ctype with
      | .ident => 1
      | .fcomp => -1
      | .fsqr => 2 * par.p.getD j 0
      | .user => 0
    else 0

/-- No constraint is replaced in the history. -/
def NoRepl [Ring K] (parse : FParser F K) : CState F K → List (COp F K) → Prop
  | _, [] => True
  | s, o :: ops =>
    (∀ a f, o = .str a f → vfind s.cons a = none) ∧ (∀ a i t, o = .int a i t → vfind s.cons a = none) ∧
    NoRepl parse (s.exec parse o) ops

section
variable [Field K]

theorem rowAfter_cases (ents : List (Nat × K)) (j : Nat) : ∀ old : Option K,
    (rowAfter ents j old = old) ∨ ∃ d, (j, d) ∈ ents ∧ rowAfter ents j old = some d := by
  induction ents with
  | nil => intro old; exact Or.inl rfl
  | cons e l ih =>
    intro old
    rcases ih (if e.1 = j then some e.2 else old) with h | ⟨d, h1, h2⟩
    · by_cases he : e.1 = j
      · right
        rw [if_pos he] at h
        refine ⟨e.2, ?_, by rw [rowAfter, List.foldl_cons, if_pos he]; exact h⟩
        rw [← he]; simp
      · left
        rw [if_neg he] at h
        rw [rowAfter, List.foldl_cons, if_neg he]; exact h
    · exact Or.inr ⟨d, List.mem_cons_of_mem _ h1, by rw [rowAfter, List.foldl_cons]; exact h2⟩

theorem rowAfter_mem (ents : List (Nat × K)) (j : Nat) (d : K) (hn : (ents.map Prod.fst).Nodup)
    (hm : (j, d) ∈ ents) (old : Option K) : rowAfter ents j old = some d := by
  have hnone : ∀ (l : List (Nat × K)) (o : Option K), j ∉ l.map Prod.fst → rowAfter l j o = o := by
    intro l o hl
    rcases rowAfter_cases l j o with h | ⟨d', h1, _⟩
    · exact h
    · exact absurd (List.mem_map.2 ⟨_, h1, rfl⟩) hl
  induction ents generalizing old with
  | nil => simp at hm
  | cons e l ih =>
    rw [List.map_cons, List.nodup_cons] at hn
    rw [rowAfter, List.foldl_cons]
    rcases List.mem_cons.1 hm with rfl | hm
    · rw [if_pos rfl]
      exact hnone l _ hn.1
    · exact ih hn.2 hm _

theorem lookup_of_mem {l : List (Nat × K)} {j : Nat} {d : K} (hn : (l.map Prod.fst).Nodup)
    (hm : (j, d) ∈ l) : l.lookup j = some d := by
  induction l with
  | nil => simp at hm
  | cons e l ih =>
    rw [List.map_cons, List.nodup_cons] at hn
    rcases List.mem_cons.1 hm with rfl | hm
    · simp [List.lookup]
    · have : j ≠ e.1 := by
        rintro rfl
        exact hn.1 (List.mem_map.2 ⟨_, hm, rfl⟩)
      rw [List.lookup_cons]
      rw [show (j == e.1) = false by simpa using this]
      exact ih hn.2 hm

theorem lookup_none {l : List (Nat × K)} {j : Nat} (h : j ∉ l.map Prod.fst) : l.lookup j = none := by
  induction l with
  | nil => rfl
  | cons e l ih =>
    simp only [List.map_cons, List.mem_cons, not_or] at h
    rw [List.lookup_cons, show (j == e.1) = false by simpa using h.1]
    exact ih h.2

/-- Every nonzero entry belongs to a parameter that the row's constraint uses. -/
structure Inv (uses : F → List Nat) (s : CState F K) : Prop where
  wf : s.par.Wf
  m : s.dvdp.WF
  rows : s.dvdp.rows ≤ s.cons.length
  cols : s.dvdp.cols ≤ s.par.p.length
  ent : ∀ i j x, i < s.dvdp.rows → j < s.dvdp.cols → s.dvdp.ent i j = some x → x ≠ 0 →
    ∃ c n, s.cons[i]? = some c ∧ n ∈ usesOf uses c ∧ s.par.id[j]? = some n

theorem cents_mem {parse : FParser F K} {uses : F → List Nat} (hu : ParserUses parse uses)
    {par : ParStore K} (hw : par.Wf) {c : Constr F} {j : Nat} {d : K} (h : (j, d) ∈ cents parse par c) :
    (∃ n ∈ usesOf uses c, par.parfind n = some j) ∧ deriv parse par c j = d ∧
      ((cents parse par c).map Prod.fst).Nodup := by
  unfold cents at h ⊢
  unfold usesOf deriv
  cases hf : c.form with
  | some f =>
    cases hp : parse f par with
    | error x => simp [cres, hf, hp] at h
    | ok r =>
      obtain ⟨x, ders⟩ := r
      simp only [cres, hf, hp] at h ⊢
      obtain ⟨hn, hm⟩ := hu f par x ders hw hp
      have hmd := (List.mem_filter.1 h).1
      refine ⟨(hm j).1 (List.mem_map.2 ⟨_, hmd, rfl⟩), ?_, ?_⟩
      · rw [lookup_of_mem hn hmd]; rfl
      · exact hn.sublist (List.Sublist.map _ List.filter_sublist)
  | none =>
    cases hp : par.parfind (toUnsigned c.idef) with
    | none => simp [cres, hf, hp] at h
    | some k =>
      cases ht : c.ctype <;> simp only [cres, hf, hp, ht, List.mem_singleton, Prod.mk.injEq, List.not_mem_nil] at h ⊢
      all_goals
        obtain ⟨rfl, rfl⟩ := h
        exact ⟨⟨_, by simp, hp⟩, by simp, by simp⟩

theorem cents_used {parse : FParser F K} {uses : F → List Nat} (hu : ParserUses parse uses)
    {par : ParStore K} (hw : par.Wf) {c : Constr F} {j n : Nat} (hok : ∃ r, cres parse par c = .ok r)
    (hn : n ∈ usesOf uses c) (hj : par.parfind n = some j) (hfree : par.ip.getD j false = true)
    (hty : c.assigns) : ∃ d, (j, d) ∈ cents parse par c := by
  unfold cents
  unfold usesOf at hn
  obtain ⟨r, hok⟩ := hok
  cases hf : c.form with
  | some f =>
    rw [hf] at hn
    cases hp : parse f par with
    | error x => simp [cres, hf, hp] at hok
    | ok r =>
      obtain ⟨x, ders⟩ := r
      simp only [cres, hf, hp]
      obtain ⟨e, he, rfl⟩ := List.mem_map.1 (((hu f par x ders hw hp).2 j).2 ⟨n, hn, hj⟩)
      exact ⟨e.2, List.mem_filter.2 ⟨he, hfree⟩⟩
  | none =>
    rw [hf] at hn
    simp only [List.mem_singleton] at hn
    subst hn
    unfold Constr.assigns at hty
    cases ht : c.ctype with
    | user => simp [hf, ht] at hty
    | ident => exact ⟨1, by simp [cres, hf, hj, ht]⟩
    | fcomp => exact ⟨-1, by simp [cres, hf, hj, ht]⟩
    | fsqr => exact ⟨2 * par.p.getD j 0, by simp [cres, hf, hj, ht]⟩

theorem deriv_unused {parse : FParser F K} {uses : F → List Nat} (hu : ParserUses parse uses)
    {par : ParStore K} (hw : par.Wf) {c : Constr F} {j : Nat}
    (hn : ∀ n ∈ usesOf uses c, par.parfind n ≠ some j) : deriv parse par c j = 0 := by
  unfold deriv
  unfold usesOf at hn
  cases hf : c.form with
  | some f =>
    rw [hf] at hn
    cases hp : parse f par with
    | error x => simp only [hp]
    | ok r =>
      simp only [hp]
      rw [lookup_none]
      · rfl
      · intro hm
        obtain ⟨n, h1, h2⟩ := ((hu f par r.1 r.2 hw hp).2 j).1 hm
        exact hn n h1 h2
  | none =>
    rw [hf] at hn
    simp only [List.mem_singleton, forall_eq] at hn
    simp [hn]

theorem parfind_id {par : ParStore K} (hw : par.Wf) {n j : Nat} :
    par.parfind n = some j ↔ par.id[j]? = some n := by
  constructor
  · intro h
    obtain ⟨h1, h2⟩ := ParStore.parfind_some h
    rw [List.getElem?_eq_getElem h1, h2]
  · intro h
    obtain ⟨h1, h2⟩ := List.getElem?_eq_some_iff.1 h
    rw [← h2]; exact ParStore.parfind_of_getElem hw h1

theorem usesOf_core {uses : F → List Nat} {c c' : Constr F} (h : c.core = c'.core) :
    usesOf uses c = usesOf uses c' := by
  have e1 : c.form = c'.form := congrArg (·.2.1) h
  have e2 : c.idef = c'.idef := congrArg (·.2.2.1) h
  unfold usesOf; rw [e1, e2]

end

section
variable [Field K] [LinearOrder K] [IsStrictOrderedRing K] [FloorRing K]

theorem old_cases {uses : F → List Nat} {s : CState F K} (hi : Inv uses s) {i j : Nat} :
    ∃ x, oldEnt s.dvdp i j = some x ∧ (x ≠ 0 → ∃ c n, s.cons[i]? = some c ∧ n ∈ usesOf uses c ∧
      s.par.id[j]? = some n) := by
  unfold oldEnt
  split
  · rename_i h
    have hlt : i * s.dvdp.cols + j < s.dvdp.data.length := by rw [hi.m]; exact flat_lt h.1 h.2
    have he : s.dvdp.ent i j = some (s.dvdp.data[i * s.dvdp.cols + j]) := by
      unfold Mat.ent; exact List.getElem?_eq_getElem hlt
    exact ⟨_, he, fun hx => hi.ent i j _ h.1 h.2 he hx⟩
  · exact ⟨0, rfl, fun h => absurd rfl h⟩

theorem inv_append {uses : F → List Nat} {s : CState F K} (hi : Inv uses s) (c : Constr F) :
    Inv uses { s with cons := s.cons ++ [c] } := by
  refine ⟨hi.wf, hi.m, by simpa using Nat.le_succ_of_le hi.rows, hi.cols, ?_⟩
  intro i j x h1 h2 h3 h4
  obtain ⟨c', n, g1, g2, g3⟩ := hi.ent i j x h1 h2 h3 h4
  refine ⟨c', n, ?_, g2, g3⟩
  dsimp only
  rw [List.getElem?_append_left (lt_of_lt_of_le h1 hi.rows)]
  exact g1

theorem exec_inv {parse : FParser F K} {uses : F → List Nat} (hp : ParserOK parse)
    (hu : ParserUses parse uses) {s : CState F K} (hi : Inv uses s) (o : COp F K)
    (h1 : ∀ a f, o = .str a f → vfind s.cons a = none)
    (h2 : ∀ a i t, o = .int a i t → vfind s.cons a = none) : Inv uses (s.exec parse o) := by
  cases o with
  | setpar i v =>
    have hw := ParStore.wf_setpar hi.wf (toUnsigned i) v
    refine ⟨hw, hi.m, hi.rows, ?_, ?_⟩
    · simp only [CState.exec]
      unfold ParStore.setpar
      split
      · simpa using hi.cols
      · simpa using Nat.le_succ_of_le hi.cols
    · intro i' j x g1 g2 g3 g4
      obtain ⟨c, n, k1, k2, k3⟩ := hi.ent i' j x g1 g2 g3 g4
      refine ⟨c, n, k1, k2, ?_⟩
      simp only [CState.exec]
      unfold ParStore.setpar
      split
      · exact k3
      · dsimp only
        rw [List.getElem?_append_left]
        · exact k3
        · exact (List.getElem?_eq_some_iff.1 k3).1
  | flag i f =>
    simp only [CState.exec]
    cases h : s.par.setflag i f with
    | err _ => exact hi
    | ub => exact hi
    | ok par =>
      have hw := ParStore.wf_setflag hi.wf h
      have hpi : par.p = s.par.p ∧ par.id = s.par.id := by
        unfold ParStore.setflag at h
        split at h
        · cases h; exact ⟨rfl, rfl⟩
        · split at h
          · split at h
            · cases h; exact ⟨rfl, rfl⟩
            · cases h
          · cases h
      refine ⟨hw, hi.m, hi.rows, by dsimp only; rw [hpi.1]; exact hi.cols, ?_⟩
      dsimp only
      rw [hpi.2]
      exact hi.ent
  | values p =>
    exact ⟨⟨by simp [CState.exec, hi.wf.lp], hi.wf.li, hi.wf.nd⟩, hi.m, hi.rows,
      by simpa [CState.exec] using hi.cols, hi.ent⟩
  | str a f =>
    have h := h1 a f rfl
    simp only [CState.exec, constrainStr, constrainRaw, h]
    exact inv_append hi _
  | int a i t =>
    have h := h2 a i t rfl
    simp only [CState.exec, constrainInt, constrainRaw, h]
    exact inv_append hi _
  | eval v =>
    by_cases hall : ∀ c ∈ s.cons, ∃ r, cres parse s.par c = .ok r
    · obtain ⟨m', e1, e2, e3, e4, e5⟩ := fillVariables_ok hp hi.wf s.cons v s.dvdp hi.m hall
      simp only [CState.exec, e1]
      refine ⟨hi.wf, e4, by simp [e2], by simp [e3], ?_⟩
      intro i j x g1 g2 g3 g4
      dsimp only at g1 g2 g3 ⊢
      rw [e2] at g1
      rw [e3] at g2
      rw [e5 i j g1 g2] at g3
      refine ⟨cmark parse s.par s.cons[i], ?_⟩
      rw [usesOf_core (cmark_core parse s.par s.cons[i])]
      rcases rowAfter_cases (cents parse s.par s.cons[i]) j (oldEnt s.dvdp i j) with hr | ⟨d, hd, _⟩
      · rw [hr] at g3
        obtain ⟨y, k1, k2⟩ := old_cases hi (i := i) (j := j)
        rw [k1] at g3
        cases g3
        obtain ⟨c, n, l1, l2, l3⟩ := k2 g4
        rw [List.getElem?_eq_getElem g1] at l1
        cases l1
        exact ⟨n, by simp [List.getElem?_eq_getElem g1], l2, l3⟩
      · obtain ⟨⟨n, l1, l2⟩, -⟩ := cents_mem hu hi.wf hd
        exact ⟨n, by simp [List.getElem?_eq_getElem g1], l1, (parfind_id hi.wf).1 l2⟩
    · obtain ⟨l, c0, r, x0, m', f1, f2, f3, e1, e2, e3, e4, e5⟩ :=
        fillVariables_err hp hi.wf s.cons v s.dvdp hi.m hall
      simp only [CState.exec, e1]
      have hlen : (l.map (cmark parse s.par) ++ cmark parse s.par c0 :: r).length = s.cons.length := by
        rw [f1]; simp
      have hget : ∀ i : Nat, ∀ c, s.cons[i]? = some c →
          ∃ c', (l.map (cmark parse s.par) ++ cmark parse s.par c0 :: r)[i]? = some c' ∧ c'.core = c.core := by
        intro i c hc
        have hmap : (l.map (cmark parse s.par) ++ cmark parse s.par c0 :: r).map Constr.core =
            s.cons.map Constr.core := by
          rw [f1]
          simp only [List.map_append, List.map_cons, List.map_map, cmark_core]
          congr 1
          exact List.map_congr_left fun c _ => cmark_core _ _ c
        have hq := congrArg (fun L => L[i]?) hmap
        simp only [List.getElem?_map, hc, Option.map_some] at hq
        rw [Option.map_eq_some_iff] at hq
        exact hq
      refine ⟨hi.wf, e4, by simp only [e2, hlen, le_refl], by simp [e3], ?_⟩
      intro i j x g1 g2 g3 g4
      dsimp only at g1 g2 g3 ⊢
      rw [e2] at g1
      rw [e3] at g2
      rw [e5 i j g1 g2] at g3
      obtain ⟨c', hc', hcore⟩ := hget i s.cons[i] (List.getElem?_eq_getElem g1)
      refine ⟨c', ?_⟩
      rw [usesOf_core hcore]
      have hold : oldEnt s.dvdp i j = some x → ∃ n, (l.map (cmark parse s.par) ++ cmark parse s.par c0 :: r)[i]? = some c' ∧
          n ∈ usesOf uses s.cons[i] ∧ s.par.id[j]? = some n := by
        intro g3
        obtain ⟨y, k1, k2⟩ := old_cases hi (i := i) (j := j)
        rw [k1] at g3
        cases g3
        obtain ⟨c, n, l1, l2, l3⟩ := k2 g4
        rw [List.getElem?_eq_getElem g1] at l1
        cases l1
        exact ⟨n, hc', l2, l3⟩
      cases hl : l[i]? with
      | none => rw [hl] at g3; exact hold g3
      | some c =>
        rw [hl] at g3
        dsimp only at g3
        have hci : s.cons[i] = c := by
          have : s.cons[i]? = some c := by
            rw [f1, List.getElem?_append_left (List.getElem?_eq_some_iff.1 hl).1]; exact hl
          rw [List.getElem?_eq_getElem g1] at this
          exact Option.some.inj this
        rcases rowAfter_cases (cents parse s.par c) j (oldEnt s.dvdp i j) with hr | ⟨d, hd, _⟩
        · rw [hr] at g3; exact hold g3
        · obtain ⟨⟨n, l1, l2⟩, -⟩ := cents_mem hu hi.wf hd
          exact ⟨n, hc', by rw [hci]; exact l1, (parfind_id hi.wf).1 l2⟩

theorem run_inv {parse : FParser F K} {uses : F → List Nat} (hp : ParserOK parse)
    (hu : ParserUses parse uses) (ops : List (COp F K)) : ∀ s : CState F K, Inv uses s →
    NoRepl parse s ops → Inv uses (CState.run parse s ops) := by
  induction ops with
  | nil => intro s hi _; exact hi
  | cons o ops ih => intro s hi hn; exact ih _ (exec_inv hp hu hi o hn.1 hn.2.1) hn.2.2

/-- The derivatives after an evaluation of a state without foreign entries. -/
theorem deriv_of_inv {parse : FParser F K} {uses : F → List Nat} (hp : ParserOK parse)
    (hu : ParserUses parse uses) (v : Nat → K) (s s' : CState F K) (hi : Inv uses s)
    (hs' : CState.exec parse s (.eval v) = s')
    (hok : (fillVariables parse s.par s.cons v s.dvdp).2.2.2 = none)
    (i j : Nat) (c : Constr F) (hc : s'.cons[i]? = some c) (hty : c.assigns)
    (hj : j < s'.par.p.length) (hfree : s'.par.ip[j]? = some true) :
    s'.dvdp.get i j = .ok (deriv parse s'.par c j) ∧
    ((∀ n ∈ usesOf uses c, s'.par.parfind n ≠ some j) → s'.dvdp.get i j = .ok 0) := by
  have hall : ∀ c ∈ s.cons, ∃ r, cres parse s.par c = .ok r := by
    by_contra hne
    obtain ⟨l, c0, r, x0, m', f1, f2, f3, e1, -⟩ := fillVariables_err hp hi.wf s.cons v s.dvdp hi.m hne
    rw [e1] at hok
    simp at hok
  obtain ⟨m', e1, e2, e3, e4, e5⟩ := fillVariables_ok hp hi.wf s.cons v s.dvdp hi.m hall
  simp only [CState.exec, e1] at hs'
  subst hs'
  dsimp only at hc hj hfree ⊢
  have hlen : i < s.cons.length := by
    simpa using (List.getElem?_eq_some_iff.1 hc).1
  have hcore : c.core = s.cons[i].core := by
    rw [List.getElem?_map, List.getElem?_eq_getElem hlen] at hc
    simp only [Option.map_some, Option.some.injEq] at hc
    rw [← hc]; exact cmark_core _ _ _
  have hty' : s.cons[i].assigns := (assigns_core hcore).1 hty
  have hderiv : deriv parse s.par c j = deriv parse s.par s.cons[i] j := by
    have q1 : c.form = s.cons[i].form := congrArg (·.2.1) hcore
    have q2 : c.idef = s.cons[i].idef := congrArg (·.2.2.1) hcore
    have q3 : c.ctype = s.cons[i].ctype := congrArg (·.2.2.2) hcore
    unfold deriv; rw [q1, q2, q3]
  have hfr : s.par.ip.getD j false = true := by simp [List.getD, hfree]
  have main : m'.get i j = .ok (deriv parse s.par c j) := by
    refine at?_some ?_
    show m'.ent i j = _
    rw [e5 i j hlen hj, hderiv]
    rcases rowAfter_cases (cents parse s.par s.cons[i]) j (oldEnt s.dvdp i j) with hr | ⟨d, hd, _⟩
    · by_cases hex : ∃ n ∈ usesOf uses s.cons[i], s.par.parfind n = some j
      · obtain ⟨n, hn1, hn2⟩ := hex
        obtain ⟨d, hd⟩ := cents_used hu hi.wf (hall _ (List.getElem_mem hlen)) hn1 hn2 hfr hty'
        obtain ⟨-, k2, k3⟩ := cents_mem hu hi.wf hd
        rw [rowAfter_mem _ j d k3 hd, k2]
      · have hex' : ∀ n ∈ usesOf uses s.cons[i], s.par.parfind n ≠ some j :=
          fun n h1 h2 => hex ⟨n, h1, h2⟩
        rw [hr, deriv_unused hu hi.wf hex']
        obtain ⟨y, k1, k2⟩ := old_cases hi (i := i) (j := j)
        rw [k1]
        by_cases hy : y = 0
        · rw [hy]
        · obtain ⟨c', n, l1, l2, l3⟩ := k2 hy
          rw [List.getElem?_eq_getElem hlen] at l1
          cases l1
          exact absurd ((parfind_id hi.wf).2 l3) (hex' n l2)
    · obtain ⟨-, k2, k3⟩ := cents_mem hu hi.wf hd
      rw [rowAfter_mem _ j d k3 hd, k2]
  refine ⟨main, ?_⟩
  intro hnone
  rw [main, deriv_unused hu hi.wf hnone]

theorem inv_run {parse : FParser F K} {uses : F → List Nat} (hp : ParserOK parse) (hu : ParserUses parse uses)
    (ops : List (COp F K)) (hn : NoRepl parse {} ops) : Inv uses (CState.run parse {} ops) :=
  run_inv hp hu ops {} ⟨ParStore.wf_empty, by simp [Mat.WF, Mat.empty], by simp [Mat.empty],
    by simp [Mat.empty], by intro i j x h; simp [Mat.empty] at h⟩ hn

/-- **C08** (no replacement, free parameters) After any history without replaced constraints followed by a
successful evaluation, the stored derivative of the constraint number `i` with respect to the free parameter at position
`j` is the derivative of that constraint; in particular it is zero if the constraint does not use the
parameter. -/
theorem C08_derivatives_partial (parse : FParser F K) (uses : F → List Nat) (hp : ParserOK parse)
    (hu : ParserUses parse uses) (ops : List (COp F K)) (hn : NoRepl parse {} ops) (v : Nat → K)
    (s s' : CState F K) (hs : CState.run parse {} ops = s)
    (hs' : CState.exec parse s (.eval v) = s')
    (hok : (fillVariables parse s.par s.cons v s.dvdp).2.2.2 = none)
    (i j : Nat) (c : Constr F) (hc : s'.cons[i]? = some c) (hty : c.assigns)
    (hj : j < s'.par.p.length) (hfree : s'.par.ip[j]? = some true) :
    s'.dvdp.get i j = .ok (deriv parse s'.par c j) ∧
    ((∀ n ∈ usesOf uses c, s'.par.parfind n ≠ some j) → s'.dvdp.get i j = .ok 0) := by
  exact deriv_of_inv hp hu v s s' (hs ▸ inv_run hp hu ops hn) hs' hok i j c hc hty hj hfree

end

/-! ### Counterexamples and a non-trivial case (formula `(n, q)` stands for `q * @n`) -/

def parse0 : FParser (Nat × ℚ) ℚ := fun f par =>
  match par.parfind f.1 with
  | some j => .ok (f.2 * par.p.getD j 0, [(j, f.2)])
  | none => .error .constraint

/-- Replacing `x = @1` by `x = @2`: the derivative with respect to parameter 1 (position 0) stays 1. -/
theorem C08_replaced_constraint_stale :
    let s := CState.run parse0 {} [.setpar 1 (1/2), .setpar 2 3, .str 7 (some (1, 1)), .eval (fun _ => 0),
      .str 7 (some (2, 1)), .eval (fun _ => 0)]
    s.cons.map Constr.form = [some (2, 1)] ∧ s.par.ip = [true, true] ∧ s.dvdp.get 0 0 = .ok 1 := by
  decide +kernel

/-- Parameter constraint with a fixed parameter: the derivative is stored as 1. -/
theorem C08_fixed_parameter_nonzero :
    let s := CState.run parse0 {} [.setpar 1 (1/2), .flag 1 false, .int 7 1 .ident, .eval (fun _ => 0)]
    s.par.ip = [false] ∧ s.dvdp.get 0 0 = .ok 1 := by
  decide +kernel

theorem parse0_ok {f : Nat × ℚ} {par : ParStore ℚ} {x ders} (h : parse0 f par = .ok (x, ders)) :
    ∃ j, par.parfind f.1 = some j ∧ ders = [(j, f.2)] := by
  unfold parse0 at h
  cases hp : par.parfind f.1 with
  | none => simp [hp] at h
  | some j => simp [hp] at h; exact ⟨j, rfl, h.2.symm⟩

example : ParserOK parse0 := by
  intro f par x ders hw h e he
  obtain ⟨j, h1, rfl⟩ := parse0_ok h
  simp only [List.mem_singleton] at he
  subst he
  rw [hw.lp]
  exact (ParStore.parfind_some h1).1

example : ParserUses parse0 (fun f => [f.1]) := by
  intro f par x ders _ h
  obtain ⟨j, h1, rfl⟩ := parse0_ok h
  refine ⟨by simp, fun i => ?_⟩
  simp [h1, eq_comm]

/-- Two variables, two parameters, one of them added and freed later. -/
example : let s := CState.run parse0 {} [.setpar 1 (1/2), .str 7 (some (1, 4)), .eval (fun _ => 0),
      .setpar 2 3, .int 8 2 .fsqr, .eval (fun _ => 0)]
    [s.dvdp.get 0 0, s.dvdp.get 0 1, s.dvdp.get 1 0, s.dvdp.get 1 1] = [.ok 4, .ok 0, .ok 0, .ok 6] := by
  decide +kernel

end Pdffit.C08
