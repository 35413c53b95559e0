import Verif.Lemmas.Api
import Mathlib.Data.Rat.Defs
import Mathlib.Algebra.Order.Ring.Rat

/-! # C26: phase selection bookkeeping stays consistent; C28: failed loads leave no trace -/

namespace Pdffit.C26
open Api
variable {K Φ : Type} [LinearOrder K]

/-- In every reachable state each data set has one slot per phase, and slot `k` is empty or phase `k`. -/
theorem slots (fit0 : Φ) (l : List (Op K Φ)) (d : Ds K) (hd : d ∈ (run fit0 (init fit0) l).2.sets) :
    d.psel.length = (run fit0 (init fit0) l).2.phases.length ∧
      ∀ (k : ℕ) (o : Option ℕ), d.psel[k]? = some o → o = none ∨ o = some k :=
  ⟨((inv_run fit0 (inv_init fit0) l).sel d hd).len, ((inv_run fit0 (inv_init fit0) l).sel d hd).slot⟩

/-- A phase is selected in a data set. -/
def Selected (s : St K Φ) (i k : ℕ) : Prop := ∃ d, s.sets[i]? = some d ∧ d.psel[k]? = some (some k)

/-- Loading a structure selects the new phase in every data set and changes no other selection. -/
theorem new_phase (fit0 : Φ) {s : St K Φ} (h : Inv s) (p : Ph K) :
    (step fit0 s (.readStruct (.ok p))).1 = .ok .unit ∧
    (step fit0 s (.readStruct (.ok p))).2.phases = s.phases ++ [p] ∧
    (∀ i, i < s.sets.length → Selected (step fit0 s (.readStruct (.ok p))).2 i s.phases.length) ∧
    ∀ i k, k ≠ s.phases.length → (Selected (step fit0 s (.readStruct (.ok p))).2 i k ↔ Selected s i k) := by
  have e : (step fit0 s (.readStruct (.ok p))).2 = addPhase s p := rfl
  refine ⟨rfl, by rw [e, addPhase_eq], ?_, ?_⟩
  · intro i hi
    rw [e, addPhase_eq]
    refine ⟨s.sets[i].selphase s.phases.length, by simp [hi], ?_⟩
    rw [(Ds.selphase_ok (h.sel _ (List.getElem_mem hi)) le_rfl).2, if_pos rfl]
  · intro i k hk
    rw [e, addPhase_eq]
    constructor
    · rintro ⟨d, h1, h2⟩
      simp only [List.getElem?_map, Option.map_eq_some_iff] at h1
      obtain ⟨d0, h3, rfl⟩ := h1
      rw [(Ds.selphase_ok (h.sel _ (List.mem_of_getElem? h3)) le_rfl).2, if_neg hk] at h2
      exact ⟨d0, h3, h2⟩
    · rintro ⟨d, h1, h2⟩
      refine ⟨d.selphase s.phases.length, by simp [h1], ?_⟩
      rw [(Ds.selphase_ok (h.sel _ (List.mem_of_getElem? h1)) le_rfl).2, if_neg hk]
      exact h2

/-- A new data set has every phase selected; the other data sets are as before. -/
theorem new_data (fit0 : Φ) (s : St K Φ) (r : Raw K) :
    (step fit0 s (.readData (.ok r))).1 = .ok .unit ∧
    (∀ k, k < s.phases.length → Selected (step fit0 s (.readData (.ok r))).2 s.sets.length k) ∧
    (step fit0 s (.readData (.ok r))).2.phases = s.phases ∧
    ∃ d, (step fit0 s (.readData (.ok r))).2.sets = s.sets ++ [d] := by
  have e : (step fit0 s (.readData (.ok r))).2 = addData s r := rfl
  refine ⟨rfl, ?_, by rw [e, addData_eq], newSet s.phases.length r, by rw [e, addData_eq]⟩
  intro k hk
  rw [e, addData_eq]
  exact ⟨newSet s.phases.length r, by simp, by simp [newSet, List.getElem?_range hk]⟩

/-- The slots of data set `i`, number `k`. -/
def slot (s : St K Φ) (i k : ℕ) : Option (Option ℕ) := (s.sets[i]?).bind fun d => d.psel[k]?

/-- Everything but the selection of phases. -/
def frame (s : St K Φ) :=
  (s.phases, s.sets.map (fun d => (d.ignI, d.ignJ, d.val, d.rmin, d.rmax, d.rfmin, d.rfmax)),
    s.curphase, s.curset, s.fit, s.gen, s.pref, s.dref)

theorem frame_onSet (s : St K Φ) (i : ℕ) (f : Ds K → List (Option ℕ)) :
    frame (s.onSet i fun d => { d with psel := f d }) = frame s := by
  have e : (s.sets.modify i fun d => { d with psel := f d }).map
      (fun d => (d.ignI, d.ignJ, d.val, d.rmin, d.rmax, d.rfmin, d.rfmax)) =
      s.sets.map (fun d => (d.ignI, d.ignJ, d.val, d.rmin, d.rmax, d.rfmin, d.rfmax)) := by
    apply List.ext_getElem?
    intro k
    simp only [List.getElem?_map, List.getElem?_modify]
    cases s.sets[k]? <;> simp
    split_ifs <;> simp
  simp only [frame, St.onSet, e]

theorem slot_onSet (s : St K Φ) (i : ℕ) (f : Ds K → List (Option ℕ)) (j k : ℕ) :
    slot (s.onSet i fun d => { d with psel := f d }) j k =
      if j = i then (s.sets[i]?).bind fun d => (f d)[k]? else slot s j k := by
  simp only [slot, St.onSet, List.getElem?_modify]
  by_cases e : j = i
  · subst e
    cases s.sets[j]? <;> simp
  · have : ¬ i = j := fun h => e h.symm
    cases s.sets[j]? <;> simp [e, this]

/-- `psel(ip)` of an existing phase succeeds, selects that phase of the current data set and changes nothing else. -/
theorem psel_one (fit0 : Φ) {s : St K Φ} (h : Inv s) {i : ℕ} (hc : s.curset = some i) (ip : ℤ) (h1 : 1 ≤ ip)
    (h2 : ip ≤ s.phases.length) :
    (step fit0 s (.psel ip)).1 = .ok .unit ∧ frame (step fit0 s (.psel ip)).2 = frame s ∧
    ∀ j k, slot (step fit0 s (.psel ip)).2 j k =
      if j = i ∧ k = (ip - 1).toNat then some (some (ip - 1).toNat) else slot s j k := by
  have hA : ip ≠ ALL := by simp only [ALL]; omega
  have hn : ¬ (ip < 1 ∨ (s.phases.length : ℤ) < ip) := by omega
  have hi := (h.cs i hc).1
  simp only [step, hc, if_neg hA, if_neg hn]
  refine ⟨trivial, frame_onSet s i _, ?_⟩
  intro j k
  rw [show (s.onSet i fun d => d.selphase (ip - 1).toNat) = s.onSet i fun d =>
    { d with psel := (d.selphase (ip - 1).toNat).psel } from rfl, slot_onSet]
  by_cases e : j = i
  · subst e
    have := (Ds.selphase_ok (h.sel _ (List.getElem_mem hi)) (ip := (ip - 1).toNat) (by omega)).2 k
    simp only [List.getElem?_eq_getElem hi, Option.bind_some, this, if_true, true_and, slot]
  · simp [e]

/-- `pdesel(ip)` of an existing phase succeeds, deselects that phase of the current data set and changes nothing else. -/
theorem pdesel_one (fit0 : Φ) {s : St K Φ} (h : Inv s) {i : ℕ} (hc : s.curset = some i) (ip : ℤ) (h1 : 1 ≤ ip)
    (h2 : ip ≤ s.phases.length) :
    (step fit0 s (.pdesel ip)).1 = .ok .unit ∧ frame (step fit0 s (.pdesel ip)).2 = frame s ∧
    ∀ j k, slot (step fit0 s (.pdesel ip)).2 j k =
      if j = i ∧ k = (ip - 1).toNat then some none else slot s j k := by
  have hA : ip ≠ ALL := by simp only [ALL]; omega
  have hn : ¬ (ip < 1 ∨ (s.phases.length : ℤ) < ip) := by omega
  have hi := (h.cs i hc).1
  have hl : (ip - 1).toNat < s.sets[i].psel.length := by
    rw [(h.sel _ (List.getElem_mem hi)).len]
    omega
  simp only [step, hc, if_neg hA, if_neg hn, List.getElem?_eq_getElem hi, if_pos hl]
  refine ⟨trivial, frame_onSet s i _, ?_⟩
  intro j k
  rw [slot_onSet]
  by_cases e : j = i
  · subst e
    simp only [List.getElem?_eq_getElem hi, Option.bind_some, if_true, true_and, slot, List.getElem?_set, if_pos hl]
    by_cases e2 : k = (ip - 1).toNat
    · rw [if_pos e2, if_pos e2.symm]
    · rw [if_neg e2, if_neg fun h => e2 h.symm]
  · simp [e]

/-- `psel(ALL)` and `pdesel(ALL)` do it for every phase of the current data set. -/
theorem sel_all (fit0 : Φ) {s : St K Φ} (h : Inv s) {i : ℕ} (hc : s.curset = some i) :
    (step fit0 s (.psel ALL)).1 = .ok .unit ∧ frame (step fit0 s (.psel ALL)).2 = frame s ∧
    (∀ j k, k < s.phases.length → slot (step fit0 s (.psel ALL)).2 j k = if j = i then some (some k) else slot s j k) ∧
    (step fit0 s (.pdesel ALL)).1 = .ok .unit ∧ frame (step fit0 s (.pdesel ALL)).2 = frame s ∧
    ∀ j k, k < s.phases.length → slot (step fit0 s (.pdesel ALL)).2 j k = if j = i then some none else slot s j k := by
  have hi := (h.cs i hc).1
  have hl := (h.sel _ (List.getElem_mem hi)).len
  simp only [step, hc, if_true]
  refine ⟨trivial, frame_onSet s i _, ?_, trivial, frame_onSet s i _, ?_⟩
  · intro j k hk
    rw [slot_onSet]
    by_cases e : j = i
    · subst e
      simp [hi, List.getElem?_range hk]
    · simp [e]
  · intro j k hk
    rw [slot_onSet]
    by_cases e : j = i
    · subst e
      simp [hi, hl, hk]
    · simp [e]

/-- Bad phase numbers, or no data set: unassignedError and nothing changes. -/
theorem sel_bad (fit0 : Φ) (s : St K Φ) (ip : ℤ) (hA : ip ≠ ALL)
    (hb : s.curset = none ∨ ip < 1 ∨ (s.phases.length : ℤ) < ip) :
    step fit0 s (.psel ip) = (.err .unassigned, s) ∧ step fit0 s (.pdesel ip) = (.err .unassigned, s) := by
  cases hc : s.curset with
  | none => simp only [step, hc, and_self]
  | some i =>
    have hb : ip < 1 ∨ (s.phases.length : ℤ) < ip := by
      rcases hb with h | h
      · rw [hc] at h; simp at h
      · exact h
    simp only [step, hc, if_neg hA, if_pos hb, and_self]

/-- Successful outcome. -/
def isOk : Res (Out K) → Bool
  | .ok _ => true
  | _ => false

/-- The current phase according to the history: the most recently loaded or chosen one. -/
def curPhaseSpec (n : ℕ) (c : Option ℕ) (o : Op K Φ) (ok : Bool) : Option ℕ :=
  if ok then
    match o with
    | .readStruct _ => some n
    | .setphase ip => some (ip - 1).toNat
    | .reset => none
    | _ => c
  else c

/-- The current data set according to the history. -/
def curSetSpec (n : ℕ) (c : Option ℕ) (o : Op K Φ) (ok : Bool) : Option ℕ :=
  if ok then
    match o with
    | .readData _ => some n
    | .setdata is => some (is - 1).toNat
    | .reset => none
    | _ => c
  else c

theorem lift_cur {s : St K Φ} {r : Res (St K Φ)} (h : ∀ s', r = .ok s' → s'.curphase = s.curphase ∧ s'.curset = s.curset) :
    (lift s r).2.curphase = s.curphase ∧ (lift s r).2.curset = s.curset := by
  unfold lift
  cases r with
  | ok s' => exact h s' rfl
  | err e => exact ⟨rfl, rfl⟩
  | ub => exact ⟨rfl, rfl⟩

/-- Current phase and data set are the most recently loaded or explicitly chosen ones: each call changes them as the
history says, and no other call changes them. -/
theorem current (fit0 : Φ) (s : St K Φ) (o : Op K Φ) :
    (step fit0 s o).2.curphase = curPhaseSpec s.phases.length s.curphase o (isOk (step fit0 s o).1) ∧
    (step fit0 s o).2.curset = curSetSpec s.sets.length s.curset o (isOk (step fit0 s o).1) := by
  cases o with
  | readStruct r =>
    cases r with
    | ok p =>
      have e : step fit0 s (.readStruct (.ok p)) = (.ok .unit, addPhase s p) := rfl
      rw [e, addPhase_eq]
      exact ⟨rfl, rfl⟩
    | err e => exact ⟨rfl, rfl⟩
    | ub => exact ⟨rfl, rfl⟩
  | readData r =>
    cases r with
    | ok p =>
      have e : step fit0 s (.readData (.ok p)) = (.ok .unit, addData s p) := rfl
      rw [e, addData_eq]
      exact ⟨rfl, rfl⟩
    | err e => exact ⟨rfl, rfl⟩
    | ub => exact ⟨rfl, rfl⟩
  | setphase ip =>
    simp only [step]
    cases hp : setphase s ip with
    | none => exact ⟨rfl, rfl⟩
    | some t =>
      obtain ⟨_, _, _, _, rfl⟩ := setphase_some hp
      exact ⟨rfl, rfl⟩
  | setdata ip =>
    simp only [step]
    cases hp : setdata s ip with
    | none => exact ⟨rfl, rfl⟩
    | some t =>
      obtain ⟨_, _, rfl⟩ := setdata_some hp
      exact ⟨rfl, rfl⟩
  | reset => exact ⟨rfl, rfl⟩
  | psel ip =>
    simp only [curPhaseSpec, curSetSpec, ite_self]
    unfold step
    cases hc : s.curset with
    | none => exact ⟨rfl, hc⟩
    | some i =>
      dsimp only
      split_ifs <;> exact ⟨rfl, hc⟩
  | pdesel ip =>
    simp only [curPhaseSpec, curSetSpec, ite_self]
    unfold step
    cases hc : s.curset with
    | none => exact ⟨rfl, hc⟩
    | some i =>
      dsimp only
      split_ifs
      · exact ⟨rfl, hc⟩
      · exact ⟨rfl, hc⟩
      · cases hd : s.sets[i]? with
        | none => exact ⟨rfl, hc⟩
        | some d =>
          dsimp only
          split_ifs <;> exact ⟨rfl, hc⟩
  | selType ip ij sym flag =>
    simp only [curPhaseSpec, curSetSpec, ite_self]
    refine lift_cur fun s' hs => ?_
    rw [Res.bind_eq_ok] at hs
    obtain ⟨r, _, hs⟩ := hs
    cases hl : r.2.2.look sym with
    | none => rw [hl] at hs; simp at hs
    | some t =>
      rw [hl] at hs
      injection hs with hs
      subst hs
      exact ⟨rfl, rfl⟩
  | selIndex ip ij aidx flag =>
    simp only [curPhaseSpec, curSetSpec, ite_self]
    refine lift_cur fun s' hs => ?_
    rw [Res.bind_eq_ok] at hs
    obtain ⟨r, _, hs⟩ := hs
    injection hs with hs
    subst hs
    exact ⟨rfl, rfl⟩
  | selAll ip ij =>
    simp only [curPhaseSpec, curSetSpec, ite_self]
    refine lift_cur fun s' hs => ?_
    rw [Res.bind_eq_ok] at hs
    obtain ⟨r, _, hs⟩ := hs
    injection hs with hs
    subst hs
    exact ⟨rfl, rfl⟩
  | selNone ip ij =>
    simp only [curPhaseSpec, curSetSpec, ite_self]
    refine lift_cur fun s' hs => ?_
    rw [Res.bind_eq_ok] at hs
    obtain ⟨r, _, hs⟩ := hs
    injection hs with hs
    subst hs
    exact ⟨rfl, rfl⟩
  | range is lo hi =>
    simp only [curPhaseSpec, curSetSpec, ite_self]
    simp only [step, Api.range]
    split_ifs
    · exact ⟨rfl, rfl⟩
    · exact ⟨rfl, rfl⟩
    · exact ⟨rfl, rfl⟩
    · cases hd : s.sets[(is - 1).toNat]? with
      | none => exact ⟨rfl, rfl⟩
      | some d =>
        dsimp only
        cases d.range lo hi <;> exact ⟨rfl, rfl⟩
    · exact ⟨rfl, rfl⟩
  | getvar v =>
    simp only [curPhaseSpec, curSetSpec, ite_self]
    exact ⟨rfl, rfl⟩
  | setvar v x =>
    simp only [curPhaseSpec, curSetSpec, ite_self]
    refine lift_cur fun s' hs => ?_
    unfold setvar at hs
    rw [Res.bind_eq_ok] at hs
    obtain ⟨r, _, hs⟩ := hs
    cases r with
    | none => simp at hs
    | some l =>
      cases l <;> simp only [store] at hs <;> split_ifs at hs <;> injection hs with hs <;> subst hs <;> exact ⟨rfl, rfl⟩
  | numAtoms =>
    simp only [curPhaseSpec, curSetSpec, ite_self]
    unfold step
    cases hc : s.curphase <;> exact ⟨hc, rfl⟩
  | numPhases =>
    simp only [curPhaseSpec, curSetSpec, ite_self]
    exact ⟨rfl, rfl⟩
  | numDatasets =>
    simp only [curPhaseSpec, curSetSpec, ite_self]
    exact ⟨rfl, rfl⟩
  | compute g =>
    simp only [curPhaseSpec, curSetSpec, ite_self]
    exact ⟨rfl, rfl⟩

/-- They exist: a current phase (data set) is one of the loaded ones, and there is one as soon as one is loaded. -/
theorem current_exists (fit0 : Φ) (l : List (Op K Φ)) :
    ((run fit0 (init fit0) l).2.curphase = none ↔ (run fit0 (init fit0) l).2.phases = []) ∧
    (∀ k, (run fit0 (init fit0) l).2.curphase = some k → k < (run fit0 (init fit0) l).2.phases.length) ∧
    ((run fit0 (init fit0) l).2.curset = none ↔ (run fit0 (init fit0) l).2.sets = []) ∧
    (∀ k, (run fit0 (init fit0) l).2.curset = some k → k < (run fit0 (init fit0) l).2.sets.length) := by
  have h := inv_run fit0 (inv_init (K := K) fit0) l
  refine ⟨h.ph, ?_, h.ds, fun k hk => (h.cs k hk).1⟩
  intro k hk
  obtain ⟨p, h1, _⟩ := h.cp k hk
  exact (List.getElem?_eq_some_iff.1 h1).1

def ph1 : Ph ℚ := ⟨[0, 1], fun _ => none, fun _ => 7⟩
def raw1 : Raw ℚ := ⟨fun _ => 1, 0, 10⟩

example : (run () (init ()) [.readStruct (.ok ph1), .readData (.ok raw1), .pdesel 1, .readStruct (.ok ph1),
    .readData (.ok raw1), .setdata 1] : _ × St ℚ Unit).2.sets.map Ds.psel = [[none, some 1], [some 0, some 1]] := by
  decide +kernel

end Pdffit.C26

namespace Pdffit.C28
open Api
variable {K Φ : Type} [LinearOrder K]

/-- A load that fails in the engine changes nothing: neither phases, data sets, selections, variables nor the current ones. Loads that
raise because of an error of a Python object do change the engine, see `lists_trace` and `write_trace` in Props/C77.lean. -/
theorem no_trace_partial (fit0 : Φ) (s : St K Φ) (e : Exc) :
    step fit0 s (.readStruct (.err e)) = (.err e, s) ∧ step fit0 s (.readData (.err e)) = (.err e, s) := ⟨rfl, rfl⟩

/-- A load succeeds when its input is good, so the above are the only failing loads. -/
theorem only_bad_input (fit0 : Φ) (s : St K Φ) (p : Ph K) (r : Raw K) :
    (step fit0 s (.readStruct (.ok p))).1 = .ok .unit ∧ (step fit0 s (.readData (.ok r))).1 = .ok .unit := ⟨rfl, rfl⟩

example : (run () (init ()) [.readStruct (.ok C26.ph1), .readStruct (.err .structure), .readData (.err .data), .numPhases,
    .numAtoms, .numDatasets] : _ × St ℚ Unit).1 = [.ok .unit, .err .structure, .err .data, .ok (.count 1),
    .ok (.count 2), .ok (.count 0)] := by decide +kernel

end Pdffit.C28
