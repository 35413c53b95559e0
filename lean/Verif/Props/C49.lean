import Verif.Lemmas.Api
import Mathlib.Data.Rat.Defs
import Mathlib.Algebra.Order.Ring.Rat

/-! # C49: getvar/setvar address the variable of the current phase or data set -/

namespace Pdffit.C49
open Api
variable {K Φ : Type}

/-- A variable of the engine: of a phase or of a data set. -/
inductive Cell where
  | phase (ip : ℕ) (v : PSlot)
  | data (is : ℕ) (v : DScal)
  deriving DecidableEq

/-- The variable a user name stands for: that of the current phase or data set, if the index is good. -/
def target (s : St K Φ) : Name → Option Cell
  | .lat i => if 1 ≤ i ∧ i ≤ 6 then s.curphase.map fun k => .phase k (.lat (i - 1).toNat) else none
  | .atom a i =>
    match s.curphase with
    | none => none
    | some k =>
      match s.phases[k]? with
      | none => none
      | some p => if 1 ≤ i ∧ i ≤ p.natoms ∧ fitsInt i then some (.phase k (.atom a (i - 1).toNat)) else none
  | .scal v => s.curphase.map fun k => .phase k (.scal v)
  | .data v => s.curset.map fun k => .data k v

/-- Its value. -/
def value (s : St K Φ) : Cell → Option K
  | .phase ip v => s.phases[ip]?.map fun p => p.val v
  | .data is v => s.sets[is]?.map fun d => d.val v

/-- Everything else in the engine. -/
def frame (s : St K Φ) :=
  (s.phases.map (fun p => (p.ty, p.look)), s.sets.map (fun d => (d.psel, d.ignI, d.ignJ, d.rmin, d.rmax, d.rfmin, d.rfmax)),
    s.curphase, s.curset, s.fit, s.gen, s.pref, s.dref)

def Cell.loc (g : ℕ) : Cell → Loc
  | .phase ip v => .phase g ip v
  | .data is v => .data g is v

theorem getRef_target {s : St K Φ} (h : Inv s) {v : Name} {t : Cell} (ht : target s v = some t) :
    getRef s v = .ok (some (t.loc s.gen)) ∧ ∃ x, value s t = some x := by
  have lat6 : ∀ i : ℤ, 1 ≤ i → i ≤ 6 → fitsInt i = true := by
    intro i h1 h2
    simp only [fitsInt, decide_eq_true_eq]
    omega
  cases v with
  | lat i =>
    simp only [target] at ht
    split_ifs at ht with hi
    cases hc : s.curphase with
    | none => rw [hc] at ht; simp at ht
    | some k =>
      rw [hc] at ht
      simp only [Option.map_some, Option.some.injEq] at ht
      subst ht
      obtain ⟨p, h1, h2⟩ := h.cp k hc
      refine ⟨?_, _, by simp only [value, h1, Option.map_some]; rfl⟩
      simp only [getRef, h2, lat6 i hi.1 hi.2, if_pos hi, Cell.loc]
      simp
  | atom a i =>
    simp only [target] at ht
    cases hc : s.curphase with
    | none => rw [hc] at ht; simp at ht
    | some k =>
      obtain ⟨p, h1, h2⟩ := h.cp k hc
      rw [hc] at ht
      simp only [h1] at ht
      split_ifs at ht with hi
      injection ht with ht
      subst ht
      refine ⟨?_, _, by simp only [value, h1, Option.map_some]; rfl⟩
      simp only [getRef, h2, Cell.loc]
      rw [if_neg (by simp [hi.2.2]), if_neg (by omega), if_pos ⟨hi.1, hi.2.1⟩]
  | scal v =>
    simp only [target] at ht
    cases hc : s.curphase with
    | none => rw [hc] at ht; simp at ht
    | some k =>
      rw [hc] at ht
      simp only [Option.map_some, Option.some.injEq] at ht
      subst ht
      obtain ⟨p, h1, h2⟩ := h.cp k hc
      exact ⟨by simp only [getRef, h2, Cell.loc], _, by simp only [value, h1, Option.map_some]; rfl⟩
  | data v =>
    simp only [target] at ht
    cases hc : s.curset with
    | none => rw [hc] at ht; simp at ht
    | some k =>
      rw [hc] at ht
      simp only [Option.map_some, Option.some.injEq] at ht
      subst ht
      obtain ⟨h1, h2⟩ := h.cs k hc
      exact ⟨by simp only [getRef, h2, Cell.loc], s.sets[k].val v, by simp [value, h1]⟩

/-- `getvar` returns the value of the variable of the current phase or data set. -/
theorem get {s : St K Φ} (h : Inv s) {v : Name} {t : Cell} (ht : target s v = some t) :
    ∃ x, value s t = some x ∧ getvar s v = .ok x := by
  obtain ⟨h1, x, h2⟩ := getRef_target h ht
  refine ⟨x, h2, ?_⟩
  unfold getvar
  rw [h1]
  simp only [Res.bind_ok]
  cases t with
  | phase ip w =>
    simp only [Cell.loc, load, if_pos]
    cases hp : s.phases[ip]? with
    | none => simp [value, hp] at h2
    | some p => simpa [value, hp] using h2
  | data is w =>
    simp only [Cell.loc, load, if_pos]
    cases hp : s.sets[is]? with
    | none => simp [value, hp] at h2
    | some p => simpa [value, hp] using h2

/-- `setvar` succeeds, changes that variable to the given value and nothing else in the engine. -/
theorem set {s : St K Φ} (h : Inv s) {v : Name} {t : Cell} (ht : target s v = some t) (x : K) :
    ∃ s', setvar s v x = .ok s' ∧ value s' t = some x ∧ (∀ u, u ≠ t → value s' u = value s u) ∧ frame s' = frame s := by
  obtain ⟨h1, y, h2⟩ := getRef_target h ht
  unfold setvar
  rw [h1]
  simp only [Res.bind_ok]
  cases t with
  | phase ip w =>
    have hlt : ip < s.phases.length := by
      by_contra hc
      simp [value, List.getElem?_eq_none (not_lt.1 hc)] at h2
    simp only [Cell.loc, store, hlt, and_self, if_true]
    refine ⟨_, rfl, by simp [value, hlt], ?_, ?_⟩
    · intro u hu
      cases u with
      | data is w' => rfl
      | phase ip' w' =>
        simp only [value, List.getElem?_modify]
        by_cases e : ip = ip'
        · subst e
          have : w' ≠ w := fun e => hu (by rw [e])
          simp [hlt, this]
        · simp [e]
    · have e : (s.phases.modify ip fun p => { p with val := fun w' => if w' = w then x else p.val w' }).map
          (fun p => (p.ty, p.look)) = s.phases.map fun p => (p.ty, p.look) := by
        apply List.ext_getElem?
        intro k
        simp only [List.getElem?_map, List.getElem?_modify]
        cases s.phases[k]? <;> simp
        split_ifs <;> simp
      simp only [frame, e]
  | data is w =>
    have hlt : is < s.sets.length := by
      by_contra hc
      simp [value, List.getElem?_eq_none (not_lt.1 hc)] at h2
    simp only [Cell.loc, store, hlt, and_self, if_true]
    refine ⟨_, rfl, by simp [value, hlt], ?_, ?_⟩
    · intro u hu
      cases u with
      | phase is w' => rfl
      | data is' w' =>
        simp only [value, List.getElem?_modify]
        by_cases e : is = is'
        · subst e
          have : w' ≠ w := fun e => hu (by rw [e])
          simp [hlt, this]
        · simp [e]
    · have e : (s.sets.modify is fun p => { p with val := fun w' => if w' = w then x else p.val w' }).map
          (fun d => (d.psel, d.ignI, d.ignJ, d.rmin, d.rmax, d.rfmin, d.rfmax)) =
          s.sets.map (fun d => (d.psel, d.ignI, d.ignJ, d.rmin, d.rmax, d.rfmin, d.rfmax)) := by
        apply List.ext_getElem?
        intro k
        simp only [List.getElem?_map, List.getElem?_modify]
        cases s.sets[k]? <;> simp
        split_ifs <;> simp
      simp only [frame, e]

/-- `setvar(v, x)` followed by `getvar(v)` gives `x`, in every state reached by any history. -/
theorem set_get [LinearOrder K] (fit0 : Φ) (l : List (Op K Φ)) {v : Name} {t : Cell}
    (ht : target (run fit0 (init fit0) l).2 v = some t) (x : K) :
    ∃ s', setvar (run fit0 (init fit0) l).2 v x = .ok s' ∧ getvar s' v = .ok x := by
  have hi := inv_run fit0 (inv_init (K := K) fit0) l
  obtain ⟨s', h1, h2, _, h4⟩ := set hi ht x
  refine ⟨s', h1, ?_⟩
  have hi' : Inv s' := by
    have hs := inv_step fit0 hi (.setvar v x)
    simpa [step, lift, h1] using hs
  have hc : s'.curphase = (run fit0 (init fit0) l).2.curphase := congrArg (fun f => f.2.2.1) h4
  have hd : s'.curset = (run fit0 (init fit0) l).2.curset := congrArg (fun f => f.2.2.2.1) h4
  have hp : ∀ k : ℕ, (s'.phases[k]?).map Ph.natoms = ((run fit0 (init fit0) l).2.phases[k]?).map Ph.natoms := by
    intro k
    have := congrArg (fun f => (f.1[k]?).map fun q => q.1.length) h4
    simp only [frame, List.getElem?_map, Option.map_map, Function.comp_def] at this
    exact this
  have ht' : target s' v = some t := by
    rw [← ht]
    cases v with
    | lat i => simp only [target, hc]
    | scal w => simp only [target, hc]
    | data w => simp only [target, hd]
    | atom a i =>
      simp only [target, hc]
      cases hk : (run fit0 (init fit0) l).2.curphase with
      | none => rfl
      | some k =>
        have := hp k
        dsimp only
        cases h5 : s'.phases[k]? <;> cases h6 : (run fit0 (init fit0) l).2.phases[k]? <;> rw [h5, h6] at this <;>
          simp at this
        simp only [this]
  obtain ⟨y, h7, h8⟩ := get hi' ht'
  rw [h2] at h7
  injection h7 with h7
  rw [h8, h7]

/-- An atom index outside `1..natoms` raises ValueError (for `getvar` and `setvar`).
Partial: a phase without atoms raises unassignedError instead, see `empty_phase`. -/
theorem bad_index_partial {s : St K Φ} (h : Inv s) {k : ℕ} {p : Ph K} (hc : s.curphase = some k) (hp : s.phases[k]? = some p)
    (hn : p.natoms ≠ 0) (a : AVar) (i : ℤ) (hf : fitsInt i = true) (hi : ¬ (1 ≤ i ∧ i ≤ p.natoms)) (x : K) :
    getvar s (.atom a i) = .err .value ∧ setvar s (.atom a i) x = .err .value := by
  obtain ⟨q, h1, h2⟩ := h.cp k hc
  rw [hp] at h1
  injection h1 with h1
  subst h1
  have e : getRef s (.atom a i) = .err .value := by
    simp only [getRef, h2]
    rw [if_neg (by simp [hf]), if_neg hn, if_neg hi]
  simp [getvar, setvar, e]

/-- A lattice index outside 1..6 raises ValueError. -/
theorem bad_lat {s : St K Φ} (h : Inv s) {k : ℕ} (hc : s.curphase = some k) (i : ℤ) (hf : fitsInt i = true)
    (hi : ¬ (1 ≤ i ∧ i ≤ 6)) (x : K) :
    getvar s (.lat i) = .err .value ∧ setvar s (.lat i) x = .err .value := by
  obtain ⟨q, h1, h2⟩ := h.cp k hc
  have e : getRef s (.lat i) = .err .value := by
    simp only [getRef, h2]
    rw [if_neg (by simp [hf]), if_neg hi]
  simp [getvar, setvar, e]

/-- Before any structure is loaded phase variables are unassigned. -/
theorem unassigned (fit0 : Φ) (v : PScal) (x : K) :
    getvar (init fit0 : St K Φ) (.scal v) = .err .unassigned ∧ setvar (init fit0 : St K Φ) (.scal v) x = .err .unassigned := by
  simp [getvar, setvar, getRef, init]

/-- A phase without atoms. -/
def ph0 : Ph ℚ := ⟨[], fun _ => none, fun _ => 0⟩

/-- **Violation**: with a phase of no atoms (accepted when `ncell` announces none) an atom index raises
unassignedError, not ValueError. -/
theorem empty_phase : (run () (init ()) [.readStruct (.ok ph0), .getvar (.atom .x 1)] : _ × St ℚ Unit).1 =
    [.ok .unit, .err .unassigned] := by decide +kernel

/-- Two phases: each has its own variables. -/
def ph2 : Ph ℚ := ⟨[0, 1], fun _ => none, fun _ => 7⟩

example : (run () (init ()) [.readStruct (.ok ph2), .readStruct (.ok ph2), .setvar (.atom .x 2) 5, .getvar (.atom .x 2),
    .getvar (.atom .x 1), .getvar (.atom .x 3), .setphase 1, .getvar (.atom .x 2)] : _ × St ℚ Unit).1 =
    [.ok .unit, .ok .unit, .ok .unit, .ok (.num 5), .ok (.num 7), .err .value, .ok .unit, .ok (.num 7)] := by
  decide +kernel

end Pdffit.C49
