import Verif.Model.Wrapper
import Verif.Lemmas.Api
import Mathlib.Data.Rat.Defs
import Mathlib.Algebra.Order.Ring.Rat

/-! # C84: `stru_files` and `data_files` name the loaded structures and data sets, in their order

What has been loaded is read off the calls and what the caller saw of them (`structs`, `datas`), without the state of the
object: since the last `reset()`, every loading call that did not raise one of the exceptions of the engine has loaded
its structure or data set. -/

namespace Pdffit.C84
open Api Wrap
variable {K Φ : Type}

/-- The name the caller gave for a structure: the file, the tag, or the default tag. -/
def struName : Load K → Option (String × Res (Ph K))
  | .readStruct file r => some (file, r)
  | .readStructString _ name r => some (name, r)
  | .addStructure _ r => some ("", r)
  | _ => none

/-- The name the caller gave for a data set; `alloc` is given none. -/
def dataName : Load K → Option (Option String × Res (Raw K))
  | .readData file r => some (some file, r)
  | .readDataString _ name r => some (some name, r)
  | .readDataLists name r => some (some name, r)
  | .alloc r => some (none, r)
  | _ => none

/-- The call returned, or raised `SystemError` after the engine had done its work. -/
def worked : Ans K → Bool
  | .returns _ => true
  | .systemError => true
  | _ => false

/-- The structures that have been loaded (name and contents) after one more call. -/
def addStru (acc : List (String × Ph K)) : Call K Φ × Ans K → List (String × Ph K)
  | (.reset, _) => []
  | (.load x _, a) =>
    match struName x with
    | some (n, .ok p) => if worked a then acc ++ [(n, p)] else acc
    | _ => acc
  | (.other _ _, _) => acc

/-- The data sets that have been loaded (name, if one was given, and contents) after one more call. -/
def addDat (acc : List (Option String × Raw K)) : Call K Φ × Ans K → List (Option String × Raw K)
  | (.reset, _) => []
  | (.load x _, a) =>
    match dataName x with
    | some (n, .ok p) => if worked a then acc ++ [(n, p)] else acc
    | _ => acc
  | (.other _ _, _) => acc

/-- The structures loaded by a sequence of calls. -/
def structs (l : List (Call K Φ × Ans K)) : List (String × Ph K) := l.foldl addStru []

/-- The data sets loaded by a sequence of calls. -/
def datas (l : List (Call K Φ × Ans K)) : List (Option String × Raw K) := l.foldl addDat []

/-- Is it one of the calls that do not put the name into `data_files`? -/
def unnamed : Call K Φ → Bool
  | .load (.alloc _) _ => true
  | .load (.readDataString _ _ _) _ => true
  | _ => false

/-- What identifies the phases and data sets of the engine: the atom types, the range of the data. -/
def tys (s : St K Φ) : List (List ℕ) := s.phases.map Ph.ty
def ends (s : St K Φ) : List (K × K) := s.sets.map fun d => (d.rmin, d.rmax)

theorem map_modify_eq {α β : Type} (f : α → β) (g : α → α) (h : ∀ a, f (g a) = f a) (l : List α) (i : ℕ) :
    (l.modify i g).map f = l.map f := by
  induction l generalizing i with
  | nil => simp
  | cons a l ih => cases i <;> simp [h, ih]

theorem ends_onSet (s : St K Φ) (i : ℕ) (f : Ds K → Ds K) (h : ∀ d, (f d).rmin = d.rmin ∧ (f d).rmax = d.rmax) :
    tys (s.onSet i f) = tys s ∧ ends (s.onSet i f) = ends s := by
  refine ⟨rfl, ?_⟩
  simp only [ends, St.onSet]
  exact map_modify_eq _ _ (fun d => by simp [(h d).1, (h d).2]) _ _

theorem onIgn_ends (d : Ds K) (ij : Char) (k : ℕ) (f : Finset ℕ → Finset ℕ) :
    (d.onIgn ij k f).rmin = d.rmin ∧ (d.onIgn ij k f).rmax = d.rmax := by
  unfold Ds.onIgn; split <;> exact ⟨rfl, rfl⟩

theorem lift_ends {s : St K Φ} {r : Res (St K Φ)} (h : ∀ s', r = .ok s' → tys s' = tys s ∧ ends s' = ends s) :
    tys (lift s r).2 = tys s ∧ ends (lift s r).2 = ends s := by
  unfold lift
  cases r with
  | ok s' => exact h s' rfl
  | err e => exact ⟨rfl, rfl⟩
  | ub => exact ⟨rfl, rfl⟩

theorem store_ends {s s' : St K Φ} {x : K} {l : Loc} (h : store s x l = .ok s') : tys s' = tys s ∧ ends s' = ends s := by
  cases l with
  | phase g ip v =>
    simp only [store] at h
    split at h
    · cases h
      refine ⟨?_, rfl⟩
      simp only [tys]
      refine map_modify_eq _ _ ?_ _ _
      intro _; rfl
    · cases h
  | data g is v =>
    simp only [store] at h
    split at h
    · cases h
      refine ⟨rfl, ?_⟩
      simp only [ends]
      refine map_modify_eq _ _ ?_ _ _
      intro _; rfl
    · cases h

section
variable [LinearOrder K]

theorem Ds_range_ends {d d' : Ds K} {a b : K} (h : d.range a b = some d') : d'.rmin = d.rmin ∧ d'.rmax = d.rmax := by
  unfold Ds.range at h
  split at h
  · cases h; exact ⟨rfl, rfl⟩
  · cases h

theorem rangeAll_ends (a b : K) (l : List (Ds K)) :
    (rangeAll a b l).2.map (fun d => (d.rmin, d.rmax)) = l.map fun d => (d.rmin, d.rmax) := by
  induction l with
  | nil => rfl
  | cons d l ih =>
    unfold rangeAll
    split
    · rfl
    · next d' h => simp [ih, (Ds_range_ends h).1, (Ds_range_ends h).2]

/-- No call but loading and clearing changes which structures and data there are. -/
theorem step_ends (fit0 : Φ) (s : St K Φ) (o : Op K Φ) (h : isLoad o = false) :
    tys (Api.step fit0 s o).2 = tys s ∧ ends (Api.step fit0 s o).2 = ends s := by
  cases o with
  | readStruct r => simp [isLoad] at h
  | readData r => simp [isLoad] at h
  | reset => simp [isLoad] at h
  | setphase ip =>
    refine lift_ends fun s' hs => ?_
    unfold Api.setphase at hs
    split at hs
    · simp [optSt] at hs
    · split at hs
      · simp [optSt] at hs
      · simp only [optSt, Res.ok.injEq] at hs; subst hs; exact ⟨rfl, rfl⟩
  | setdata is =>
    refine lift_ends fun s' hs => ?_
    unfold Api.setdata at hs
    split at hs
    · simp [optSt] at hs
    · simp only [optSt, Res.ok.injEq] at hs; subst hs; exact ⟨rfl, rfl⟩
  | psel ip =>
    simp only [Api.step]
    split
    · exact ⟨rfl, rfl⟩
    · split
      · exact ends_onSet _ _ _ fun d => ⟨rfl, rfl⟩
      · split
        · exact ⟨rfl, rfl⟩
        · exact ends_onSet _ _ _ fun d => ⟨rfl, rfl⟩
  | pdesel ip =>
    simp only [Api.step]
    split
    · exact ⟨rfl, rfl⟩
    · split
      · exact ends_onSet _ _ _ fun d => ⟨rfl, rfl⟩
      · split
        · exact ⟨rfl, rfl⟩
        · split
          · exact ⟨rfl, rfl⟩
          · split
            · exact ends_onSet _ _ _ fun d => ⟨rfl, rfl⟩
            · exact ⟨rfl, rfl⟩
  | selType ip ij sym flag =>
    refine lift_ends fun s' hs => ?_
    obtain ⟨r, _, h2⟩ := Res.bind_eq_ok.1 hs
    split at h2
    · cases h2
    · cases h2; exact ends_onSet _ _ _ fun d => onIgn_ends d _ _ _
  | selIndex ip ij a flag =>
    refine lift_ends fun s' hs => ?_
    obtain ⟨r, _, h2⟩ := Res.bind_eq_ok.1 hs
    cases h2; exact ends_onSet _ _ _ fun d => onIgn_ends d _ _ _
  | selAll ip ij =>
    refine lift_ends fun s' hs => ?_
    obtain ⟨r, _, h2⟩ := Res.bind_eq_ok.1 hs
    cases h2; exact ends_onSet _ _ _ fun d => onIgn_ends d _ _ _
  | selNone ip ij =>
    refine lift_ends fun s' hs => ?_
    obtain ⟨r, _, h2⟩ := Res.bind_eq_ok.1 hs
    cases h2; exact ends_onSet _ _ _ fun d => onIgn_ends d _ _ _
  | range is a b =>
    simp only [Api.step, Api.range]
    split
    · exact ⟨rfl, rfl⟩
    · split
      · exact ⟨rfl, rangeAll_ends a b s.sets⟩
      · split
        · split
          · exact ⟨rfl, rfl⟩
          · next d hd =>
            split
            · exact ⟨rfl, rfl⟩
            · next d' hd' =>
              refine ⟨rfl, ?_⟩
              simp only [ends, St.onSet]
              generalize (is - 1).toNat = n at hd
              apply List.ext_getElem?
              intro j
              by_cases hj : n = j
              · subst hj; simp [hd, (Ds_range_ends hd').1, (Ds_range_ends hd').2]
              · simp [hj]
        · exact ⟨rfl, rfl⟩
  | getvar v => exact ⟨rfl, rfl⟩
  | setvar v x =>
    refine lift_ends fun s' hs => ?_
    obtain ⟨r, _, h2⟩ := Res.bind_eq_ok.1 hs
    split at h2
    · cases h2
    · exact store_ends h2
  | numAtoms =>
    simp only [Api.step]
    split <;> exact ⟨rfl, rfl⟩
  | numPhases => exact ⟨rfl, rfl⟩
  | numDatasets => exact ⟨rfl, rfl⟩
  | compute g =>
    simp only [Api.step, St.withVals, tys, ends]
    constructor
    · apply List.ext_getElem?; intro j; simp [List.getElem?_mapIdx, Function.comp_def]
    · apply List.ext_getElem?; intro j; simp [List.getElem?_mapIdx, Function.comp_def]

theorem step_struct (fit0 : Φ) (s : St K Φ) (p : Ph K) :
    Api.step fit0 s (.readStruct (.ok p)) = (.ok .unit, addPhase s p) := rfl

theorem step_struct_err (fit0 : Φ) (s : St K Φ) (e : Exc) : Api.step fit0 s (.readStruct (.err e)) = (.err e, s) := rfl

theorem step_struct_ub (fit0 : Φ) (s : St K Φ) : Api.step fit0 s (.readStruct .ub) = (.ub, s) := rfl

theorem step_data (fit0 : Φ) (s : St K Φ) (p : Raw K) :
    Api.step fit0 s (.readData (.ok p)) = (.ok .unit, addData s p) := rfl

theorem step_data_err (fit0 : Φ) (s : St K Φ) (e : Exc) : Api.step fit0 s (.readData (.err e)) = (.err e, s) := rfl

theorem step_data_ub (fit0 : Φ) (s : St K Φ) : Api.step fit0 s (.readData .ub) = (.ub, s) := rfl

omit [LinearOrder K] in
theorem tys_addPhase (s : St K Φ) (p : Ph K) : tys (addPhase s p) = tys s ++ [p.ty] := by
  simp [addPhase_eq, tys]

omit [LinearOrder K] in
theorem ends_addPhase (s : St K Φ) (p : Ph K) : ends (addPhase s p) = ends s := by
  simp [addPhase_eq, ends, Ds.selphase, Function.comp_def]

omit [LinearOrder K] in
theorem tys_addData (s : St K Φ) (p : Raw K) : tys (addData s p) = tys s := by
  simp [addData_eq, tys]

omit [LinearOrder K] in
theorem ends_addData (s : St K Φ) (p : Raw K) : ends (addData s p) = ends s ++ [(p.rmin, p.rmax)] := by
  simp [addData_eq, ends, newSet]

/-- What the object holds when `a` and `b` have been loaded. -/
structure Holds (o : Obj K Φ) (a : List (String × Ph K)) (b : List (Option String × Raw K)) : Prop where
  ty : tys o.eng = a.map fun x => x.2.ty
  en : ends o.eng = b.map fun x => (x.2.rmin, x.2.rmax)
  lab : o.labels.length = b.length
  sub : o.stru_files.Sublist (a.map Prod.fst)
  len : o.data_files.length ≤ b.length

theorem holds_step (fit0 : Φ) {o : Obj K Φ} {a : List (String × Ph K)} {b : List (Option String × Raw K)} (h : Holds o a b)
    (c : Call K Φ) :
    Holds (Wrap.step fit0 o c).2 (addStru a (c, (Wrap.step fit0 o c).1)) (addDat b (c, (Wrap.step fit0 o c).1)) := by
  cases c with
  | reset => exact ⟨rfl, rfl, rfl, List.Sublist.slnil, Nat.zero_le _⟩
  | other op ho =>
    have := step_ends fit0 o.eng op ho
    simp only [Wrap.step, otherStep, addStru, addDat]
    split
    all_goals
      next x e he =>
        rw [he] at this
        exact ⟨this.1.trans h.ty, this.2.trans h.en, h.lab, h.sub, h.len⟩
  | load l late =>
    obtain ⟨h1, h2, h3, h4, h5⟩ := h
    have h4' : ∀ x : String, o.stru_files.Sublist (a.map Prod.fst ++ [x]) := fun x => h4.trans (List.sublist_append_left _ _)
    cases l <;> rename_i r <;> cases r <;>
      simp only [Wrap.step, loadStep, Load.op, Load.label, Load.struEntry, Load.dataEntry, addStru, addDat, struName,
        dataName, step_struct, step_struct_err, step_struct_ub, step_data, step_data_err, step_data_ub] <;>
      first
      | exact ⟨h1, h2, h3, h4, h5⟩
      | (cases late <;> constructor <;>
          simp [worked, tys_addPhase, ends_addPhase, tys_addData, ends_addData, h1, h2, h3, h4, h4', h5] <;> omega)

theorem names_step (fit0 : Φ) {o : Obj K Φ} {a : List (String × Ph K)} (h : o.stru_files = a.map Prod.fst) (c : Call K Φ)
    (hc : (Wrap.step fit0 o c).1 ≠ .systemError) :
    (Wrap.step fit0 o c).2.stru_files = (addStru a (c, (Wrap.step fit0 o c).1)).map Prod.fst := by
  cases c with
  | reset => rfl
  | other op ho =>
    simp only [Wrap.step, otherStep, addStru]
    split <;> exact h
  | load l late =>
    revert hc
    cases l <;> rename_i r <;> cases r <;>
      simp only [Wrap.step, loadStep, Load.op, Load.label, Load.struEntry, Load.dataEntry, addStru, struName,
        step_struct, step_struct_err, step_struct_ub, step_data, step_data_err, step_data_ub] <;>
      cases late <;> simp [worked, h]

theorem datas_step (fit0 : Φ) {o : Obj K Φ} {b : List (Option String × Raw K)} (h : o.data_files.map some = b.map Prod.fst)
    (c : Call K Φ) (hu : unnamed c = false) (hc : (Wrap.step fit0 o c).1 ≠ .systemError) :
    (Wrap.step fit0 o c).2.data_files.map some = (addDat b (c, (Wrap.step fit0 o c).1)).map Prod.fst := by
  cases c with
  | reset => rfl
  | other op ho =>
    simp only [Wrap.step, otherStep, addDat]
    split <;> exact h
  | load l late =>
    revert hc hu
    cases l <;> rename_i r <;> cases r <;>
      simp only [Wrap.step, loadStep, Load.op, Load.label, Load.struEntry, Load.dataEntry, addDat, dataName, unnamed,
        step_struct, step_struct_err, step_struct_ub, step_data, step_data_err, step_data_ub] <;>
      cases late <;> simp [worked, h]

theorem holds_run (fit0 : Φ) (l : List (Call K Φ)) : ∀ {o : Obj K Φ} {a b}, Holds o a b →
    Holds (Wrap.run fit0 o l).2 ((Wrap.run fit0 o l).1.foldl addStru a) ((Wrap.run fit0 o l).1.foldl addDat b) := by
  induction l with
  | nil => intro o a b h; exact h
  | cons c l ih => intro o a b h; exact ih (holds_step fit0 h c)

theorem names_run (fit0 : Φ) (l : List (Call K Φ)) : ∀ {o : Obj K Φ} {a}, o.stru_files = a.map Prod.fst →
    (∀ x ∈ (Wrap.run fit0 o l).1, x.2 ≠ .systemError) →
    (Wrap.run fit0 o l).2.stru_files = ((Wrap.run fit0 o l).1.foldl addStru a).map Prod.fst := by
  induction l with
  | nil => intro o a h _; exact h
  | cons c l ih =>
    intro o a h hl
    exact ih (names_step fit0 h c (hl _ (List.mem_cons_self ..))) fun x hx => hl x (List.mem_cons_of_mem _ hx)

theorem datas_run (fit0 : Φ) (l : List (Call K Φ)) : ∀ {o : Obj K Φ} {b}, o.data_files.map some = b.map Prod.fst →
    (∀ x ∈ (Wrap.run fit0 o l).1, x.2 ≠ .systemError ∧ unnamed x.1 = false) →
    (Wrap.run fit0 o l).2.data_files.map some = ((Wrap.run fit0 o l).1.foldl addDat b).map Prod.fst := by
  induction l with
  | nil => intro o b h _; exact h
  | cons c l ih =>
    intro o b h hl
    have := hl _ (List.mem_cons_self ..)
    exact ih (datas_step fit0 h c this.2 this.1) fun x hx => hl x (List.mem_cons_of_mem _ hx)

omit [LinearOrder K] in
theorem holds_new (fit0 : Φ) : Holds (new fit0 : Obj K Φ) [] [] :=
  ⟨rfl, rfl, rfl, List.Sublist.slnil, Nat.zero_le _⟩

/-- After any sequence of calls the engine holds the structures and data sets that were loaded since the last `reset()`, in
their order; `num_phases()` and `num_datasets()` are their numbers. The lists never name more than there is, and the
names in `stru_files` are in the right order. -/
theorem C84_loaded (fit0 : Φ) (l : List (Call K Φ)) :
    let r := Wrap.run fit0 (new fit0) l
    tys r.2.eng = (structs r.1).map (fun x => x.2.ty) ∧
    ends r.2.eng = (datas r.1).map (fun x => (x.2.rmin, x.2.rmax)) ∧
    (Wrap.step fit0 r.2 (.other .numPhases rfl)).1 = .returns (.count (structs r.1).length) ∧
    (Wrap.step fit0 r.2 (.other .numDatasets rfl)).1 = .returns (.count (datas r.1).length) ∧
    r.2.stru_files.Sublist ((structs r.1).map Prod.fst) ∧ r.2.data_files.length ≤ (datas r.1).length := by
  intro r
  have h := holds_run fit0 l (holds_new fit0)
  refine ⟨h.ty, h.en, ?_, ?_, h.sub, h.len⟩
  · have := congrArg List.length h.ty
    simp only [tys, List.length_map] at this
    exact congrArg (fun n => Ans.returns (Out.count n)) this
  · have := congrArg List.length h.en
    simp only [ends, List.length_map] at this
    exact congrArg (fun n => Ans.returns (Out.count n)) this

/-- If no call raised `SystemError`, `stru_files` is the list of the names given for the loaded structures: its length is
`num_phases()`, and its item `k` names phase `k + 1`. -/
theorem C84_structures (fit0 : Φ) (l : List (Call K Φ))
    (h : ∀ x ∈ (Wrap.run fit0 (new fit0) l).1, x.2 ≠ .systemError) :
    let r := Wrap.run fit0 (new fit0) l
    r.2.stru_files = (structs r.1).map Prod.fst ∧
    (Wrap.step fit0 r.2 (.other .numPhases rfl)).1 = .returns (.count r.2.stru_files.length) ∧
    ∀ (k : ℕ) (p : Ph K), r.2.eng.phases[k]? = some p →
      ∃ x, (structs r.1)[k]? = some x ∧ r.2.stru_files[k]? = some x.1 ∧ x.2.ty = p.ty := by
  intro r
  have hn : r.2.stru_files = (structs r.1).map Prod.fst := names_run fit0 l rfl h
  have hl := C84_loaded fit0 l
  refine ⟨hn, ?_, ?_⟩
  · rw [hn, List.length_map]; exact hl.2.2.1
  · intro k p hp
    have h1 : tys r.2.eng = (structs r.1).map (fun x => x.2.ty) := hl.1
    have h2 := congrArg (fun l => l[k]?) h1
    simp only [tys, List.getElem?_map, hp, Option.map_some] at h2
    cases hx : (structs r.1)[k]? with
    | none => rw [hx] at h2; cases h2
    | some x =>
      rw [hx] at h2
      refine ⟨x, rfl, ?_, ?_⟩
      · rw [hn, List.getElem?_map, hx]; rfl
      · simpa using h2.symm

/-- The same for `data_files`, if no call raised `SystemError` and neither `alloc` nor `read_data_string` was called; for
those it does not hold (`C84_alloc`, `C84_string`). -/
theorem C84_data_partial (fit0 : Φ) (l : List (Call K Φ))
    (h : ∀ x ∈ (Wrap.run fit0 (new fit0) l).1, x.2 ≠ .systemError ∧ unnamed x.1 = false) :
    let r := Wrap.run fit0 (new fit0) l
    r.2.data_files.map some = (datas r.1).map Prod.fst ∧
    (Wrap.step fit0 r.2 (.other .numDatasets rfl)).1 = .returns (.count r.2.data_files.length) ∧
    ∀ (k : ℕ) (d : Ds K), r.2.eng.sets[k]? = some d →
      ∃ x, (datas r.1)[k]? = some x ∧ (r.2.data_files[k]?).map some = some x.1 ∧ (x.2.rmin, x.2.rmax) = (d.rmin, d.rmax) := by
  intro r
  have hn : r.2.data_files.map some = (datas r.1).map Prod.fst := datas_run fit0 l rfl h
  have hl := C84_loaded fit0 l
  have hlen : r.2.data_files.length = (datas r.1).length := by simpa using congrArg List.length hn
  refine ⟨hn, ?_, ?_⟩
  · rw [hlen]; exact hl.2.2.2.1
  · intro k p hp
    have h1 : ends r.2.eng = (datas r.1).map (fun x => (x.2.rmin, x.2.rmax)) := hl.2.1
    have h2 := congrArg (fun l => l[k]?) h1
    simp only [ends, List.getElem?_map, hp, Option.map_some] at h2
    cases hx : (datas r.1)[k]? with
    | none => rw [hx] at h2; cases h2
    | some x =>
      rw [hx] at h2
      refine ⟨x, rfl, ?_, ?_⟩
      · rw [← List.getElem?_map, hn, List.getElem?_map, hx]; rfl
      · simpa using h2.symm

/-- A call that raises one of the exceptions of the engine loads nothing and leaves both lists as they are. -/
theorem C84_raises (fit0 : Φ) (o : Obj K Φ) (c : Call K Φ) (e : Exc) (h : (Wrap.step fit0 o c).1 = .raises e) :
    let o' := (Wrap.step fit0 o c).2
    o'.stru_files = o.stru_files ∧ o'.data_files = o.data_files ∧ o'.labels = o.labels ∧
    tys o'.eng = tys o.eng ∧ ends o'.eng = ends o.eng := by
  cases c with
  | reset => cases h
  | other op ho =>
    have := step_ends fit0 o.eng op ho
    simp only [Wrap.step, otherStep] at h ⊢
    split at h
    · cases h
    · next x s he => rw [he] at this; exact ⟨rfl, rfl, rfl, this⟩
    · cases h
  | load l late =>
    revert h
    cases l <;> rename_i r <;> cases r <;>
      simp only [Wrap.step, loadStep, Load.op, step_struct, step_struct_err, step_struct_ub, step_data, step_data_err,
        step_data_ub] <;> cases late <;> simp

/-- `alloc` adds a data set but no name: every later data set has the wrong position in `data_files`. -/
theorem C84_alloc (fit0 : Φ) (o : Obj K Φ) (ra rd : Raw K) (file : String) :
    let o1 := (Wrap.step fit0 o (.load (.alloc (.ok ra)) false)).2
    let o2 := (Wrap.step fit0 o1 (.load (.readData file (.ok rd)) false)).2
    (Wrap.step fit0 o (.load (.alloc (.ok ra)) false)).1 = .returns .unit ∧
    o1.eng.sets.length = o.eng.sets.length + 1 ∧ o1.data_files = o.data_files ∧
    o2.eng.sets.length = o.eng.sets.length + 2 ∧ o2.data_files = o.data_files ++ [file] := by
  simp [Wrap.step, loadStep, Load.op, step_data, Load.dataEntry, addData_eq]

/-- `read_data_string` puts the text of the data into `data_files` in place of the name, and the name of the data set in the
engine (which the results show) is always "string". -/
theorem C84_string (fit0 : Φ) (o : Obj K Φ) (text name : String) (rd : Raw K) :
    let o' := (Wrap.step fit0 o (.load (.readDataString text name (.ok rd)) false)).2
    (Wrap.step fit0 o (.load (.readDataString text name (.ok rd)) false)).1 = .returns .unit ∧
    o'.data_files = o.data_files ++ [text] ∧ o'.labels = o.labels ++ ["string"] ∧
    (o'.data_files = o.data_files ++ [name] ↔ text = name) := by
  simp [Wrap.step, loadStep, Load.op, step_data, Load.dataEntry, Load.label]

/-- A structure that is loaded by a call that raises `SystemError` has no name: the names of the later ones are shifted. -/
theorem C84_late (fit0 : Φ) (o : Obj K Φ) (p q : Ph K) (f g : String) :
    let o1 := (Wrap.step fit0 o (.load (.readStruct f (.ok p)) true)).2
    let o2 := (Wrap.step fit0 o1 (.load (.readStruct g (.ok q)) false)).2
    (Wrap.step fit0 o (.load (.readStruct f (.ok p)) true)).1 = .systemError ∧
    tys o2.eng = tys o.eng ++ [p.ty, q.ty] ∧ o2.stru_files = o.stru_files ++ [g] := by
  simp [Wrap.step, loadStep, Load.op, step_struct, Load.struEntry, tys_addPhase]

end

/-! ### Examples -/

/-- One and two atoms, a data range. -/
def ph1 : Ph ℚ := ⟨[0], fun _ => none, fun _ => 0⟩
def ph2 : Ph ℚ := ⟨[0, 1], fun _ => none, fun _ => 0⟩
def raw (a b : ℚ) : Raw ℚ := ⟨fun _ => 0, a, b⟩

/-- Names in the order of loading; a failed call, a selection and a reset in between. -/
def calls : List (Call ℚ Unit) :=
  [.load (.readStruct "old.stru" (.ok ph1)) false, .reset, .load (.readStruct "Ni.stru" (.ok ph1)) false,
   .load (.readStruct "bad.stru" (.err .structure)) false, .load (.readData "Ni.gr" (.ok (raw 0 10))) false,
   .other (.pdesel 1) rfl, .load (.readStructString "…" "PbTe" (.ok ph2)) false, .load (.addStructure "…" (.ok ph1)) false,
   .load (.readDataLists "list" (.ok (raw 1 2))) false]

example :
    (Wrap.run () (new ()) calls).2.stru_files = ["Ni.stru", "PbTe", ""] ∧
    (Wrap.run () (new ()) calls).2.data_files = ["Ni.gr", "list"] ∧
    (Wrap.run () (new ()) calls).2.eng.phases.map Ph.ty = [[0], [0, 1], [0]] ∧
    (∀ x ∈ (Wrap.run () (new ()) calls).1, x.2 ≠ .systemError ∧ unnamed x.1 = false) := by
  refine ⟨rfl, rfl, rfl, by decide +kernel⟩

/-- `alloc`, then a file: `data_files[0]` is not the first data set. -/
example :
    let o := (Wrap.run () (new ()) [.load (.alloc (.ok (raw 0 1))) false, .load (.readData "a.gr" (.ok (raw 2 3))) false] :
      _ × Obj ℚ Unit).2
    o.data_files = ["a.gr"] ∧ ends o.eng = [(0, 1), (2, 3)] := ⟨rfl, rfl⟩

/-- A tag that is not used. -/
example : (Wrap.run () (new ()) [.load (.readDataString "0 1\n1 2\n" "Ni" (.ok (raw 0 1))) false] : _ × Obj ℚ Unit).2.data_files ≠ ["Ni"] := by
  decide +kernel

end Pdffit.C84
