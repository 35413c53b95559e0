import Verif.Model.ConstrSys
import Verif.Lemmas.ConstrDet
import Mathlib.Algebra.Order.Ring.Rat

/-!
# C07  A new constraint on a variable replaces the old one

Violated.  `vfind` pretends that a variable is unconstrained when its constraint is marked as not refinable, which
`fill_variables` does (a) when it uses no free parameter and (b) when it raises.

* `C07_fixed_parameter_duplicates`: constrain, fix the parameter, calculate, constrain again: two constraints.
* `C07_wrong_formula_stays`: a formula with an error cannot be corrected by constraining the variable
  again once it has been evaluated: every later evaluation still raises.
* `C07_replaces_partial`: the statement for histories in which every evaluation finds all constraints
  valid and dependent on some free parameter.
-/

namespace Pdffit.C07
variable {F K : Type}

/-- The constraint that the user asked for last on variable `b`, as (formula, parameter, type). -/
def latest (b : Nat) : List (COp F K) → Option (Option F × Int × FCon) → Option (Option F × Int × FCon)
  | [], r => r
  | .str a f :: ops, r => latest b ops (if a = b then some (f, -1, .user) else r)
  | .int a i t :: ops, r => latest b ops (if a = b then some (none, i, if t = .user then .ident else t) else r)
  | _ :: ops, r => latest b ops r

/-- The constraints the engine holds for variable `b`. -/
def held (cs : List (Constr F)) (b : Nat) : List (Option F × Int × FCon) :=
  (cs.filter fun c => c.addr = b).map fun c => (c.form, c.idef, c.ctype)

/-- Every evaluation in the history finds all constraints valid and dependent on a free parameter. -/
def Clean [Ring K] (parse : FParser F K) : CState F K → List (COp F K) → Prop
  | _, [] => True
  | s, o :: ops =>
    (∀ v, o = .eval v → ∀ c ∈ s.cons, ∃ val ents, cres parse s.par c = .ok (val, true, ents)) ∧
    Clean parse (s.exec parse o) ops

/-- Invariant: all marked refinable, one entry per variable. -/
structure Inv [Ring K] (s : CState F K) : Prop where
  wf : s.par.Wf
  ref : ∀ c ∈ s.cons, c.vref = true
  nd : (s.cons.map Constr.addr).Nodup
  m : s.dvdp.WF

theorem constrainRaw_spec (cs : List (Constr F)) (a : Nat) (f : Option F) (i : Int) (t : FCon)
    (href : ∀ c ∈ cs, c.vref = true) (hnd : (cs.map Constr.addr).Nodup) :
    (∀ c ∈ constrainRaw cs a f i t, c.vref = true) ∧
    ((constrainRaw cs a f i t).map Constr.addr).Nodup ∧
    held (constrainRaw cs a f i t) a = [(f, i, t)] ∧
    ∀ b, b ≠ a → held (constrainRaw cs a f i t) b = held cs b := by
  unfold constrainRaw vfind
  cases hf : cs.findIdx? (fun c => c.addr == a) with
  | none =>
    rw [List.findIdx?_eq_none_iff] at hf
    have hno : ∀ c ∈ cs, c.addr ≠ a := fun c hc => by simpa using hf c hc
    dsimp only
    refine ⟨?_, ?_, ?_, ?_⟩
    · intro c hc
      rcases List.mem_append.1 hc with h | h
      · exact href c h
      · simp at h; subst h; rfl
    · rw [List.map_append, List.nodup_append]
      refine ⟨hnd, by simp, ?_⟩
      intro x hx y hy
      obtain ⟨c, hc, rfl⟩ := List.mem_map.1 hx
      simp at hy
      subst hy
      exact hno c hc
    · unfold held
      rw [List.filter_append, List.filter_eq_nil_iff.2 (fun c hc => by simpa using hno c hc)]
      simp
    · intro b hb
      unfold held
      rw [List.filter_append]
      simp [Ne.symm hb]
  | some k =>
    rw [List.findIdx?_eq_some_iff_getElem] at hf
    obtain ⟨hk, h1, -⟩ := hf
    have hka : cs[k].addr = a := by simpa using h1
    have hkr : cs[k].vref = true := href _ (List.getElem_mem hk)
    simp only [List.getElem?_eq_getElem hk, Option.map_some, hkr, Option.getD_some, if_true]
    have hsplit : cs = cs.take k ++ cs[k] :: cs.drop (k + 1) := by
      rw [List.cons_getElem_drop_succ, List.take_append_drop]
    have hset : cs.set k ⟨a, f, i, t, true⟩ = cs.take k ++ ⟨a, f, i, t, true⟩ :: cs.drop (k + 1) := by
      rw [List.set_eq_take_append_cons_drop, if_pos hk]
    rw [hset]
    generalize hcc : cs[k] = c0 at *
    generalize cs.take k = l at *
    generalize cs.drop (k + 1) = r at *
    subst hsplit
    have hno : ∀ c, c ∈ l ∨ c ∈ r → c.addr ≠ a := by
      intro c hc he
      rw [List.map_append, List.map_cons, List.nodup_append, List.nodup_cons] at hnd
      rcases hc with h | h
      · refine hnd.2.2 _ (List.mem_map_of_mem h) c0.addr (by simp) (by rw [he, hka])
      · exact hnd.2.1.1 (by rw [hka, ← he]; exact List.mem_map_of_mem h)
    refine ⟨?_, ?_, ?_, ?_⟩
    · intro c hc
      rcases List.mem_append.1 hc with h | h
      · exact href c (List.mem_append_left _ h)
      · rcases List.mem_cons.1 h with rfl | h
        · rfl
        · exact href c (by simp [h])
    · rw [List.map_append, List.map_cons] at hnd ⊢
      rw [hka] at hnd
      exact hnd
    · unfold held
      rw [List.filter_append, List.filter_cons_of_pos (by simp),
        List.filter_eq_nil_iff.2 (fun c hc => by simpa using hno c (Or.inl hc)),
        List.filter_eq_nil_iff.2 (fun c hc => by simpa using hno c (Or.inr hc))]
      rfl
    · intro b hb
      unfold held
      rw [List.filter_append, List.filter_append, List.filter_cons_of_neg (by simp [Ne.symm hb]),
        List.filter_cons_of_neg (by simp [hka, Ne.symm hb])]

theorem held_core {cs cs' : List (Constr F)} (h : cs.map Constr.core = cs'.map Constr.core) (b : Nat) :
    held cs b = held cs' b := by
  induction cs generalizing cs' with
  | nil => cases cs' with
    | nil => rfl
    | cons _ _ => simp at h
  | cons c cs ih =>
    cases cs' with
    | nil => simp at h
    | cons c' cs' =>
      simp only [List.map_cons, List.cons.injEq] at h
      obtain ⟨h1, h2⟩ := h
      have hi := ih h2
      simp only [Constr.core, Prod.mk.injEq] at h1
      obtain ⟨e1, e2, e3, e4⟩ := h1
      unfold held at hi ⊢
      rw [List.filter_cons, List.filter_cons, e1]
      split
      · simp only [List.map_cons, hi, e2, e3, e4]
      · exact hi

/-- One call keeps the invariant and does to the held constraints what was asked for. -/
theorem exec_spec [Field K] [LinearOrder K] [IsStrictOrderedRing K] [FloorRing K]
    (parse : FParser F K) (hp : ParserOK parse) (s : CState F K)
    (hi : Inv s) (o : COp F K)
    (hc : ∀ v, o = .eval v → ∀ c ∈ s.cons, ∃ val ents, cres parse s.par c = .ok (val, true, ents)) :
    Inv (s.exec parse o) ∧ ∀ b r, held s.cons b = r.toList →
      held (s.exec parse o).cons b = (latest b [o] r).toList := by
  cases o with
  | setpar i v => exact ⟨⟨ParStore.wf_setpar hi.wf _ _, hi.ref, hi.nd, hi.m⟩, fun b r h => h⟩
  | flag i f =>
    refine ⟨?_, ?_⟩
    · simp only [CState.exec]
      cases h : s.par.setflag i f with
      | ok par => exact ⟨ParStore.wf_setflag hi.wf h, hi.ref, hi.nd, hi.m⟩
      | err _ => exact hi
      | ub => exact hi
    · intro b r h
      simp only [CState.exec]
      cases s.par.setflag i f <;> exact h
  | values p =>
    exact ⟨⟨⟨by simp [CState.exec, hi.wf.lp], hi.wf.li, hi.wf.nd⟩, hi.ref, hi.nd, hi.m⟩, fun b r h => h⟩
  | str a f =>
    obtain ⟨h1, h2, h3, h4⟩ := constrainRaw_spec s.cons a f (-1) .user hi.ref hi.nd
    refine ⟨⟨hi.wf, h1, h2, hi.m⟩, ?_⟩
    intro b r h
    by_cases hb : a = b
    · subst hb; simp only [latest, if_true]; exact h3
    · simp only [latest, if_neg hb]; exact (h4 b (Ne.symm hb)).trans h
  | int a i t =>
    obtain ⟨h1, h2, h3, h4⟩ := constrainRaw_spec s.cons a none i (if t = .user then .ident else t) hi.ref hi.nd
    refine ⟨⟨hi.wf, h1, h2, hi.m⟩, ?_⟩
    intro b r h
    by_cases hb : a = b
    · subst hb; simp only [latest, if_true]; exact h3
    · simp only [latest, if_neg hb]; exact (h4 b (Ne.symm hb)).trans h
  | eval v =>
    have hc := hc v rfl
    obtain ⟨m', h1, -, -, h4, -⟩ := fillVariables_ok hp hi.wf s.cons v s.dvdp hi.m
      (fun c hm => by obtain ⟨val, ents, h⟩ := hc c hm; exact ⟨_, h⟩)
    have hcore : (s.cons.map (cmark parse s.par)).map Constr.core = s.cons.map Constr.core := by
      rw [List.map_map]
      exact List.map_congr_left fun c _ => cmark_core _ _ c
    have haddr : (s.cons.map (cmark parse s.par)).map Constr.addr = s.cons.map Constr.addr := by
      have := congrArg (List.map (·.1)) hcore
      simpa [List.map_map, Function.comp_def, Constr.core] using this
    simp only [CState.exec, h1]
    refine ⟨⟨hi.wf, ?_, by rw [haddr]; exact hi.nd, h4⟩, ?_⟩
    · intro c hm
      obtain ⟨c0, hm0, rfl⟩ := List.mem_map.1 hm
      obtain ⟨val, ents, h⟩ := hc c0 hm0
      simp [cmark, h]
    · intro b r h
      rw [held_core hcore]
      exact h

theorem latest_cons (b : Nat) (o : COp F K) (ops) (r) :
    latest b (o :: ops) r = latest b ops (latest b [o] r) := by
  cases o <;> rfl

/-- **C07** (clean histories) In every history of `setpar`, `fixpar`, `freepar`, `constrain`, `calc` and
refinement calls in which each evaluation finds all constraints valid and dependent on a free parameter, every variable has
exactly the constraint that was asked for last, or none if there was none. -/
theorem C07_replaces_partial [Field K] [LinearOrder K] [IsStrictOrderedRing K] [FloorRing K]
    (parse : FParser F K) (hp : ParserOK parse) (ops : List (COp F K))
    (hc : Clean parse {} ops) (b : Nat) :
    held (CState.run parse {} ops).cons b = (latest b ops none).toList := by
  have key : ∀ (ops : List (COp F K)) (s : CState F K) (r), Inv s → Clean parse s ops →
      held s.cons b = r.toList → held (CState.run parse s ops).cons b = (latest b ops r).toList := by
    intro ops
    induction ops with
    | nil => intro s r _ _ h; exact h
    | cons o ops ih =>
      intro s r hi hc h
      obtain ⟨h1, h2⟩ := exec_spec parse hp s hi o hc.1
      rw [latest_cons]
      exact ih (s.exec parse o) _ h1 hc.2 (h2 b r h)
  exact key ops {} none ⟨ParStore.wf_empty, by simp, by simp, by simp [Mat.WF, Mat.empty]⟩ hc rfl

/-! ### Counterexamples and a non-trivial case (formulas `q` stand for `q * @1`, 0 for a text that does not parse) -/

def parse0 : FParser ℚ ℚ := fun q par =>
  if q = 0 then .error .parse else
  match par.parfind 1 with
  | some j => .ok (q * par.p.getD j 0, [(j, q)])
  | none => .error .constraint

/-- Constrain, fix the parameter, calculate, constrain again: the variable has two constraints. -/
theorem C07_fixed_parameter_duplicates :
    held (CState.run parse0 {} [.setpar 1 (1/2), .str 7 (some 1), .flag 1 false, .eval (fun _ => 0),
      .str 7 (some 3)]).cons 7 = [(some 1, -1, .user), (some 3, -1, .user)] := by
  decide +kernel

/-- A wrong formula that has been evaluated cannot be corrected: after constraining the variable with a
correct formula the wrong one is still there and the next evaluation raises again. -/
theorem C07_wrong_formula_stays :
    let s := CState.run parse0 {} [.setpar 1 (1/2), .str 7 (some 0), .eval (fun _ => 0), .str 7 (some 3)]
    held s.cons 7 = [(some 0, -1, .user), (some 3, -1, .user)] ∧
    (fillVariables parse0 s.par s.cons (fun _ => 0) s.dvdp).2.2.2 = some (.exc .parse) := by
  decide +kernel

/-- A clean history with two variables, a replacement and evaluations. -/
example : held (CState.run parse0 {} [.setpar 1 (1/2), .str 7 (some 1), .int 8 1 .fsqr, .eval (fun _ => 0),
      .str 7 (some 3), .eval (fun _ => 0)]).cons 7 = [(some 3, -1, .user)] := by
  decide +kernel

example : Clean parse0 {} [.setpar 1 (1/2), .str 7 (some 1), .eval (fun _ => 0), .str 7 (some 3)] := by
  refine ⟨by simp, by simp, ?_, by simp, trivial⟩
  intro v _ c hc
  have : c = ⟨7, some 1, -1, .user, true⟩ := by
    simpa [CState.exec, constrainStr, constrainRaw, vfind] using hc
  subst this
  exact ⟨some (1/2), [(0, 1)], by decide +kernel⟩

end Pdffit.C07
