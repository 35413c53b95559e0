import Verif.Lemmas.Api
import Mathlib.Data.Rat.Defs
import Mathlib.Algebra.Order.Ring.Rat

/-! # C27: reset() forgets everything -/

namespace Pdffit.C27
open Api
variable {K Φ : Type} [LinearOrder K]

/-- After `reset` there are no phases, data sets, parameters or constraints (the fit object is fresh). -/
theorem empty (fit0 : Φ) (s : St K Φ) : (step fit0 s .reset).1 = .ok .unit ∧
    (step fit0 s .reset).2.toCore = (init fit0 : St K Φ).toCore := ⟨rfl, rfl⟩

/-- Accesses to phase (data set) variables happen only while a phase (data set) is loaded. -/
def Guard (s : St K Φ) : Op K Φ → Prop
  | .getvar (.data _) | .setvar (.data _) _ => s.sets ≠ []
  | .getvar _ | .setvar _ _ => s.phases ≠ []
  | _ => True

/-- … throughout a history. -/
def Guarded (fit0 : Φ) (s : St K Φ) : List (Op K Φ) → Prop
  | [] => True
  | o :: l => Guard s o ∧ ((step fit0 s o).1 ≠ .ub → Guarded fit0 (step fit0 s o).2 l)

/-- Two good states with the same data: their pointers differ only in the generation. -/
theorem ref_eq {s t : St K Φ} (hs : Inv s) (ht : Inv t) (h : s.toCore = t.toCore) :
    (s.phases ≠ [] → ∃ k n, s.pref = some (s.gen, k, n) ∧ t.pref = some (t.gen, k, n)) ∧
    (s.sets ≠ [] → ∃ k, s.dref = some (s.gen, k) ∧ t.dref = some (t.gen, k)) := by
  constructor
  · intro hne
    cases hc : s.curphase with
    | none => exact absurd (hs.ph.1 hc) hne
    | some k =>
      obtain ⟨p, h1, h2⟩ := hs.cp k hc
      have hc' : t.curphase = some k := by rw [← h]; exact hc
      obtain ⟨q, h3, h4⟩ := ht.cp k hc'
      have : p = q := by
        rw [← h] at h3
        rw [h1] at h3
        injection h3
      subst this
      exact ⟨k, p.natoms, h2, h4⟩
  · intro hne
    cases hc : s.curset with
    | none => exact absurd (hs.ds.1 hc) hne
    | some k =>
      have hc' : t.curset = some k := by rw [← h]; exact hc
      exact ⟨k, (hs.cs k hc).2, (ht.cs k hc').2⟩

/-- A location up to its generation. -/
def reloc (g : ℕ) : Loc → Loc
  | .phase _ ip v => .phase g ip v
  | .data _ is v => .data g is v

theorem getRef_eq {s t : St K Φ} (hs : Inv s) (ht : Inv t) (h : s.toCore = t.toCore) (v : Name)
    (hv : Guard s (.getvar v)) :
    (∃ e, getRef s v = .err e ∧ getRef t v = .err e) ∨
    (∃ l, getRef s v = .ok (some (reloc s.gen l)) ∧ getRef t v = .ok (some (reloc t.gen l))) := by
  obtain ⟨r1, r2⟩ := ref_eq hs ht h
  cases v with
  | data v =>
    obtain ⟨k, h1, h2⟩ := r2 hv
    exact .inr ⟨.data 0 k v, by simp [getRef, h1, reloc], by simp [getRef, h2, reloc]⟩
  | scal v =>
    obtain ⟨k, n, h1, h2⟩ := r1 hv
    exact .inr ⟨.phase 0 k (.scal v), by simp [getRef, h1, reloc], by simp [getRef, h2, reloc]⟩
  | lat i =>
    obtain ⟨k, n, h1, h2⟩ := r1 hv
    simp only [getRef, h1, h2]
    split_ifs
    all_goals first
      | exact .inl ⟨_, rfl, rfl⟩
      | exact .inr ⟨.phase 0 k (.lat (i - 1).toNat), rfl, rfl⟩
  | atom a i =>
    obtain ⟨k, n, h1, h2⟩ := r1 hv
    simp only [getRef, h1, h2]
    split_ifs
    all_goals first
      | exact .inl ⟨_, rfl, rfl⟩
      | exact .inr ⟨.phase 0 k (.atom a (i - 1).toNat), rfl, rfl⟩

/-- Same outcome, same data. -/
def Same (x y : Res (Out K) × St K Φ) : Prop := x.1 = y.1 ∧ x.2.toCore = y.2.toCore

theorem lift_same {s t : St K Φ} (h : s.toCore = t.toCore) {x y : Res (St K Φ)}
    (hxy : (∃ a b, x = .ok a ∧ y = .ok b ∧ a.toCore = b.toCore) ∨ (∃ e, x = .err e ∧ y = .err e) ∨ (x = .ub ∧ y = .ub)) :
    Same (lift s x) (lift t y) := by
  rcases hxy with ⟨a, b, rfl, rfl, hab⟩ | ⟨e, rfl, rfl⟩ | ⟨rfl, rfl⟩
  · exact ⟨rfl, hab⟩
  · exact ⟨rfl, h⟩
  · exact ⟨rfl, h⟩

theorem checkSel_core {s t : St K Φ} (h : s.toCore = t.toCore) (ip : ℤ) (ij : Char) (a : ℤ) :
    checkSel s ip ij a = checkSel t ip ij a := by
  unfold checkSel
  rw [h]

theorem onSet_core {s t : St K Φ} (h : s.toCore = t.toCore) (i : ℕ) (f : Ds K → Ds K) :
    (s.onSet i f).toCore = (t.onSet i f).toCore := by
  simp only [St.onSet]
  rw [h]

/-- Steps from states with the same data have the same outcome and lead to the same data. -/
theorem step_same (fit0 : Φ) {s t : St K Φ} (hs : Inv s) (ht : Inv t) (h : s.toCore = t.toCore) (o : Op K Φ)
    (hg : Guard s o) : Same (step fit0 s o) (step fit0 t o) := by
  cases o with
  | readStruct r =>
    refine lift_same h ?_
    cases r with
    | ok p =>
      refine .inl ⟨_, _, rfl, rfl, ?_⟩
      rw [addPhase_eq, addPhase_eq]
      simp only [h]
    | err e => exact .inr (.inl ⟨e, rfl, rfl⟩)
    | ub => exact .inr (.inr ⟨rfl, rfl⟩)
  | readData r =>
    refine lift_same h ?_
    cases r with
    | ok p =>
      refine .inl ⟨_, _, rfl, rfl, ?_⟩
      rw [addData_eq, addData_eq]
      simp only [h]
    | err e => exact .inr (.inl ⟨e, rfl, rfl⟩)
    | ub => exact .inr (.inr ⟨rfl, rfl⟩)
  | setphase ip =>
    refine lift_same h ?_
    unfold optSt setphase
    rw [h]
    split_ifs
    · exact .inr (.inl ⟨_, rfl, rfl⟩)
    · cases t.phases[(ip - 1).toNat]? with
      | none => exact .inr (.inl ⟨_, rfl, rfl⟩)
      | some p => exact .inl ⟨_, _, rfl, rfl, by simp only [h]⟩
  | setdata ip =>
    refine lift_same h ?_
    unfold optSt setdata
    rw [h]
    split_ifs
    · exact .inr (.inl ⟨_, rfl, rfl⟩)
    · exact .inl ⟨_, _, rfl, rfl, by simp only [h]⟩
  | psel ip =>
    have e := onSet_core h
    unfold step
    rw [h]
    cases hc : t.curset with
    | none => exact ⟨rfl, h⟩
    | some i =>
      dsimp only
      split_ifs
      · exact ⟨rfl, e _ _⟩
      · exact ⟨rfl, h⟩
      · exact ⟨rfl, e _ _⟩
  | pdesel ip =>
    have e := onSet_core h
    unfold step
    rw [h]
    cases hc : t.curset with
    | none => exact ⟨rfl, h⟩
    | some i =>
      dsimp only
      split_ifs
      · exact ⟨rfl, e _ _⟩
      · exact ⟨rfl, h⟩
      · cases hd : t.sets[i]? with
        | none => exact ⟨rfl, h⟩
        | some d =>
          dsimp only
          split_ifs
          · exact ⟨rfl, e _ _⟩
          · exact ⟨rfl, h⟩
  | selType ip ij sym flag =>
    refine lift_same h ?_
    rw [checkSel_core h]
    cases checkSel t ip ij 1 with
    | ok r =>
      simp only [Res.bind_ok]
      cases r.2.2.look sym with
      | none => exact .inr (.inl ⟨_, rfl, rfl⟩)
      | some x => exact .inl ⟨_, _, rfl, rfl, onSet_core h _ _⟩
    | err e => exact .inr (.inl ⟨e, rfl, rfl⟩)
    | ub => exact .inr (.inr ⟨rfl, rfl⟩)
  | selIndex ip ij aidx flag =>
    refine lift_same h ?_
    rw [checkSel_core h]
    cases checkSel t ip ij aidx with
    | ok r => exact .inl ⟨_, _, rfl, rfl, onSet_core h _ _⟩
    | err e => exact .inr (.inl ⟨e, rfl, rfl⟩)
    | ub => exact .inr (.inr ⟨rfl, rfl⟩)
  | selAll ip ij =>
    refine lift_same h ?_
    rw [checkSel_core h]
    cases checkSel t ip ij 1 with
    | ok r => exact .inl ⟨_, _, rfl, rfl, onSet_core h _ _⟩
    | err e => exact .inr (.inl ⟨e, rfl, rfl⟩)
    | ub => exact .inr (.inr ⟨rfl, rfl⟩)
  | selNone ip ij =>
    refine lift_same h ?_
    rw [checkSel_core h]
    cases checkSel t ip ij 1 with
    | ok r => exact .inl ⟨_, _, rfl, rfl, onSet_core h _ _⟩
    | err e => exact .inr (.inl ⟨e, rfl, rfl⟩)
    | ub => exact .inr (.inr ⟨rfl, rfl⟩)
  | range is lo hi =>
    have e := onSet_core h
    simp only [step, Api.range]
    rw [h]
    split_ifs
    · exact ⟨rfl, h⟩
    · exact ⟨rfl, rfl⟩
    · exact ⟨rfl, rfl⟩
    · cases t.sets[(is - 1).toNat]? with
      | none => exact ⟨rfl, h⟩
      | some d =>
        dsimp only
        cases d.range lo hi with
        | none => exact ⟨rfl, h⟩
        | some d' => exact ⟨rfl, e _ _⟩
    · exact ⟨rfl, h⟩
  | reset => exact ⟨rfl, rfl⟩
  | getvar v =>
    refine ⟨?_, h⟩
    simp only [step, getvar]
    rcases getRef_eq hs ht h v hg with ⟨e, h1, h2⟩ | ⟨l, h1, h2⟩
    · rw [h1, h2]; rfl
    · rw [h1, h2]
      simp only [Res.bind_ok]
      congr 1
      cases l <;> simp only [reloc, load, if_true, h]
  | setvar v x =>
    refine lift_same h ?_
    simp only [setvar]
    have hg' : Guard s (.getvar v) := by cases v <;> exact hg
    rcases getRef_eq hs ht h v hg' with ⟨e, h1, h2⟩ | ⟨l, h1, h2⟩
    · rw [h1, h2]
      exact .inr (.inl ⟨e, rfl, rfl⟩)
    · rw [h1, h2]
      simp only [Res.bind_ok]
      cases l with
      | phase g ip w =>
        simp only [reloc, store, true_and]
        rw [h]
        split_ifs
        · exact .inl ⟨_, _, rfl, rfl, rfl⟩
        · exact .inr (.inr ⟨rfl, rfl⟩)
      | data g ip w =>
        simp only [reloc, store, true_and]
        rw [h]
        split_ifs
        · exact .inl ⟨_, _, rfl, rfl, rfl⟩
        · exact .inr (.inr ⟨rfl, rfl⟩)
  | numAtoms =>
    unfold step
    rw [h]
    cases t.curphase <;> exact ⟨rfl, h⟩
  | numPhases => exact ⟨by simp only [step, h], h⟩
  | numDatasets => exact ⟨by simp only [step, h], h⟩
  | compute g =>
    simp only [step, St.withVals]
    rw [h]
    exact ⟨rfl, rfl⟩

theorem run_same (fit0 : Φ) (l : List (Op K Φ)) {s t : St K Φ} (hs : Inv s) (ht : Inv t) (h : s.toCore = t.toCore)
    (hg : Guarded fit0 s l) :
    (run fit0 s l).1 = (run fit0 t l).1 ∧ (run fit0 s l).2.toCore = (run fit0 t l).2.toCore := by
  induction l generalizing s t with
  | nil => exact ⟨rfl, h⟩
  | cons o l ih =>
    obtain ⟨h1, h2⟩ := step_same fit0 hs ht h o hg.1
    unfold run
    rw [← h1]
    cases hr : (step fit0 s o).1 with
    | ub => exact ⟨rfl, h⟩
    | ok x =>
      obtain ⟨h3, h4⟩ := ih (inv_step fit0 hs o) (inv_step fit0 ht o) h2 (hg.2 (by simp [hr]))
      exact ⟨by simp only [h3], h4⟩
    | err x =>
      obtain ⟨h3, h4⟩ := ih (inv_step fit0 hs o) (inv_step fit0 ht o) h2 (hg.2 (by simp [hr]))
      exact ⟨by simp only [h3], h4⟩

/-- (partial) Whatever was done before, after `reset` every history of calls has the same outcomes as on a newly created
engine, provided that variables are accessed only while a phase (data set) is loaded.  Missing: accesses before that
must raise unassignedError; they are undefined behaviour (`stale`). -/
theorem like_new_partial (fit0 : Φ) (before l : List (Op K Φ)) (hg : Guarded fit0 (init fit0) l) :
    (run fit0 (reset fit0 (run fit0 (init fit0) before).2) l).1 = (run fit0 (init fit0) l).1 := by
  have h1 := inv_reset fit0 (inv_run fit0 (inv_init (K := K) fit0) before)
  exact (run_same fit0 l (inv_init fit0) h1 rfl hg).1.symm

/-- Accesses without any phase (data set) ever loaded raise unassignedError on a newly created engine. -/
theorem new_engine (fit0 : Φ) (v : Name) (hv : ∀ i, (v = .lat i ∨ ∃ a, v = .atom a i) → fitsInt i = true) :
    (step fit0 (init fit0 : St K Φ) (.getvar v)).1 = .err .unassigned := by
  cases v with
  | lat i => simp [step, getvar, getRef, init, hv i (.inl rfl)]
  | atom a i => simp [step, getvar, getRef, init, hv i (.inr ⟨a, rfl⟩)]
  | scal v => simp [step, getvar, getRef, init]
  | data v => simp [step, getvar, getRef, init]

def ph1 : Ph ℚ := ⟨[0, 1], fun _ => none, fun _ => 7⟩

/-- **Violation**: after `reset` the variables of the deleted phase are still reachable through dangling pointers. -/
theorem stale : (run () (init ()) [.readStruct (.ok ph1), .reset, .getvar (.scal .pscale)] : _ × St ℚ Unit).1 =
    [.ok .unit, .ok .unit, .ub] := by decide +kernel

/-- Non-trivial instance of `like_new_partial`. -/
example : (run () (reset () (run () (init ()) [.readStruct (.ok ph1), .readStruct (.ok ph1)]).2)
    [.numPhases, .numAtoms, .readStruct (.ok ph1), .getvar (.atom .x 2), .setphase 2] : _ × St ℚ Unit).1 =
    [.ok (.count 0), .err .unassigned, .ok .unit, .ok (.num 7), .err .unassigned] := by decide +kernel

end Pdffit.C27
