import Verif.Model.Api
import Mathlib.Data.List.Basic

/-! # Invariant of the engine -/

namespace Pdffit.Api
variable {K Φ : Type}

/-- One slot per phase, empty or that phase; nothing ignored for phases that do not exist. -/
structure Ds.Ok (n : ℕ) (d : Ds K) : Prop where
  len : d.psel.length = n
  slot : ∀ (k : ℕ) (o : Option ℕ), d.psel[k]? = some o → o = none ∨ o = some k
  clean : ∀ k, n ≤ k → d.ignI k = ∅ ∧ d.ignJ k = ∅

structure Inv (s : St K Φ) : Prop where
  sel : ∀ d ∈ s.sets, d.Ok s.phases.length
  ph : s.curphase = none ↔ s.phases = []
  ds : s.curset = none ↔ s.sets = []
  cp : ∀ k, s.curphase = some k → ∃ p, s.phases[k]? = some p ∧ s.pref = some (s.gen, k, p.natoms)
  cs : ∀ k, s.curset = some k → k < s.sets.length ∧ s.dref = some (s.gen, k)
  op : s.phases = [] → ∀ r, s.pref = some r → r.1 < s.gen
  od : s.sets = [] → ∀ r, s.dref = some r → r.1 < s.gen

theorem inv_init (fit0 : Φ) : Inv (init fit0 : St K Φ) := by
  constructor <;> simp [init]

/-- `selphase` inside or at the end of the list. -/
theorem Ds.selphase_ok {n : ℕ} {d : Ds K} (h : d.Ok n) {ip : ℕ} (hi : ip ≤ n) :
    (d.selphase ip).Ok (max n (ip + 1)) ∧ ∀ k, (d.selphase ip).psel[k]? = if k = ip then some (some ip) else d.psel[k]? := by
  have key : ∀ k, (d.selphase ip).psel[k]? = if k = ip then some (some ip) else d.psel[k]? := by
    intro k
    simp only [Ds.selphase, List.getElem?_set, List.length_append, List.length_replicate]
    by_cases hk : k = ip
    · subst hk
      rw [if_pos rfl, if_pos (by omega), if_pos rfl]
    · rw [if_neg (fun h => hk h.symm), if_neg hk]
      rcases lt_or_ge k d.psel.length with hl | hl
      · rw [List.getElem?_append_left hl]
      · rw [List.getElem?_append_right hl, List.getElem?_eq_none hl, List.getElem?_eq_none]
        rw [List.length_replicate]
        have := h.len
        omega
  refine ⟨⟨?_, ?_, fun k hk => h.clean k (by omega)⟩, key⟩
  · have := h.len
    simp only [Ds.selphase, List.length_set, List.length_append, List.length_replicate]
    omega
  · intro k o hk
    rw [key] at hk
    split_ifs at hk with e
    · subst e
      injection hk with hk
      exact .inr hk.symm
    · exact h.slot k o hk

theorem fold_selphase (n : ℕ) (d : Ds K) (h : d.psel = []) :
    ((List.range n).foldl (fun d ip => d.selphase ip) d).psel = (List.range n).map some := by
  induction n with
  | zero => simpa using h
  | succ n ih =>
    rw [List.range_succ, List.foldl_append, List.foldl_cons, List.foldl_nil]
    generalize (List.range n).foldl (fun d ip => d.selphase ip) d = e at ih ⊢
    simp only [Ds.selphase, ih, List.map_append, List.map_cons, List.map_nil, List.length_map, List.length_range]
    rw [Nat.add_sub_cancel_left]
    simp

theorem fold_selphase_rest (n : ℕ) (d : Ds K) :
    ((List.range n).foldl (fun d ip => d.selphase ip) d) =
      { d with psel := ((List.range n).foldl (fun d ip => d.selphase ip) d).psel } := by
  induction n with
  | zero => rfl
  | succ n ih =>
    rw [List.range_succ, List.foldl_append, List.foldl_cons, List.foldl_nil, ih]
    rfl

theorem ok_range (n : ℕ) (d : Ds K) (h : d.psel = (List.range n).map some)
    (hc : ∀ k, n ≤ k → d.ignI k = ∅ ∧ d.ignJ k = ∅) : d.Ok n := by
  refine ⟨by simp [h], ?_, hc⟩
  intro k o hk
  rw [h, List.getElem?_map] at hk
  rcases lt_or_ge k n with hn | hn
  · rw [List.getElem?_range hn] at hk
    simp only [Option.map_some, Option.some.injEq] at hk
    exact .inr hk.symm
  · rw [List.getElem?_eq_none (by simpa using hn)] at hk
    simp at hk

/-! ### The two load functions -/

theorem addPhase_eq (s : St K Φ) (p : Ph K) : addPhase s p =
    { s with
      phases := s.phases ++ [p]
      sets := s.sets.map fun d => d.selphase s.phases.length
      curphase := some s.phases.length
      pref := some (s.gen, s.phases.length, p.natoms) } := by
  have e : ((s.phases.length : ℤ) + 1 - 1).toNat = s.phases.length := by omega
  simp only [addPhase, setphase]
  rw [if_neg (by simp; omega), e]
  simp

/-- The data set made by a load function. -/
def newSet (n : ℕ) (r : Raw K) : Ds K :=
  ⟨(List.range n).map some, fun _ => ∅, fun _ => ∅, r.val, r.rmin, r.rmax, r.rmin, r.rmax⟩

theorem addData_eq (s : St K Φ) (r : Raw K) : addData s r =
    { s with
      sets := s.sets ++ [newSet s.phases.length r]
      curset := some s.sets.length
      dref := some (s.gen, s.sets.length) } := by
  have e : ((s.sets.length : ℤ) + 1 - 1).toNat = s.sets.length := by omega
  simp only [addData, setdata]
  rw [if_neg (by simp; omega), e]
  simp only [Option.getD_some]
  congr 3
  rw [fold_selphase_rest, fold_selphase _ _ rfl]
  rfl

/-! ### Preservation -/

theorem inv_addPhase {s : St K Φ} (h : Inv s) (p : Ph K) : Inv (addPhase s p) := by
  rw [addPhase_eq]
  refine ⟨?_, by simp, ?_, ?_, ?_, by simp, ?_⟩
  · intro d hd
    simp only [List.mem_map] at hd
    obtain ⟨d, hd, rfl⟩ := hd
    have := (Ds.selphase_ok (h.sel d hd) (le_refl s.phases.length)).1
    simpa using this
  · simpa using h.ds
  · intro k hk
    simp only [Option.some.injEq] at hk
    subst hk
    exact ⟨p, by simp, rfl⟩
  · intro k hk
    obtain ⟨h1, h2⟩ := h.cs k hk
    exact ⟨by simpa using h1, h2⟩
  · intro h0
    simp only [List.map_eq_nil_iff] at h0
    exact h.od h0

theorem inv_addData {s : St K Φ} (h : Inv s) (r : Raw K) : Inv (addData s r) := by
  rw [addData_eq]
  refine ⟨?_, h.ph, by simp, h.cp, ?_, h.op, by simp⟩
  · intro d hd
    rcases List.mem_append.1 hd with hd | hd
    · exact h.sel d hd
    · rw [List.mem_singleton.1 hd]
      exact ok_range _ _ rfl fun _ _ => ⟨rfl, rfl⟩
  · intro k hk
    simp only [Option.some.injEq] at hk
    subst hk
    exact ⟨by simp, rfl⟩

/-- Changing one data set in a way that keeps its slots good. -/
theorem inv_onSet {s : St K Φ} (h : Inv s) (i : ℕ) (f : Ds K → Ds K)
    (hf : ∀ d, d.Ok s.phases.length → (f d).Ok s.phases.length) : Inv (s.onSet i f) := by
  have e : s.sets.modify i f = [] ↔ s.sets = [] := by
    rw [← List.length_eq_zero_iff, List.length_modify, List.length_eq_zero_iff]
  refine ⟨?_, h.ph, by simpa [St.onSet, e] using h.ds, h.cp, ?_, h.op, ?_⟩
  · intro d hd
    obtain ⟨k, hk, rfl⟩ := List.getElem_of_mem hd
    simp only [St.onSet, List.getElem_modify] at *
    have hk' : k < s.sets.length := by simpa [St.onSet] using hk
    split_ifs
    · exact hf _ (h.sel _ (List.getElem_mem _))
    · exact h.sel _ (List.getElem_mem _)
  · intro k hk
    obtain ⟨h1, h2⟩ := h.cs k hk
    exact ⟨by simpa [St.onSet] using h1, h2⟩
  · intro h0
    exact h.od (e.1 h0)

theorem setphase_some {s s' : St K Φ} {ip : ℤ} (h : setphase s ip = some s') :
    ∃ p, 1 ≤ ip ∧ ip ≤ s.phases.length ∧ s.phases[(ip - 1).toNat]? = some p ∧
      s' = { s with curphase := some (ip - 1).toNat, pref := some (s.gen, (ip - 1).toNat, p.natoms) } := by
  unfold setphase at h
  split_ifs at h with hc
  cases hp : s.phases[(ip - 1).toNat]? with
  | none => rw [hp] at h; simp at h
  | some p =>
    rw [hp] at h
    injection h with h
    exact ⟨p, by omega, by omega, rfl, h.symm⟩

theorem setphase_none {s : St K Φ} {ip : ℤ} (h : setphase s ip = none) : ip < 1 ∨ (s.phases.length : ℤ) < ip := by
  by_contra hc
  unfold setphase at h
  rw [if_neg hc] at h
  have : (ip - 1).toNat < s.phases.length := by omega
  rw [List.getElem?_eq_getElem this] at h
  simp at h

theorem setdata_some {s s' : St K Φ} {is : ℤ} (h : setdata s is = some s') :
    1 ≤ is ∧ is ≤ s.sets.length ∧
      s' = { s with curset := some (is - 1).toNat, dref := some (s.gen, (is - 1).toNat) } := by
  unfold setdata at h
  split_ifs at h with hc
  injection h with h
  exact ⟨by omega, by omega, h.symm⟩

theorem inv_setphase {s s' : St K Φ} (h : Inv s) {ip : ℤ} (hs : setphase s ip = some s') : Inv s' := by
  obtain ⟨p, h1, h2, h3, rfl⟩ := setphase_some hs
  have hne : s.phases ≠ [] := by
    intro e
    rw [e] at h3
    simp at h3
  refine ⟨h.sel, by simp [hne], h.ds, ?_, h.cs, fun h0 => absurd h0 hne, h.od⟩
  intro k hk
  simp only [Option.some.injEq] at hk
  subst hk
  exact ⟨p, h3, rfl⟩

theorem inv_setdata {s s' : St K Φ} (h : Inv s) {is : ℤ} (hs : setdata s is = some s') : Inv s' := by
  obtain ⟨h1, h2, rfl⟩ := setdata_some hs
  have hne : s.sets ≠ [] := by
    intro e
    rw [e] at h2
    simp at h2
    omega
  refine ⟨h.sel, h.ph, by simp [hne], h.cp, ?_, h.op, fun h0 => absurd h0 hne⟩
  intro k hk
  simp only [Option.some.injEq] at hk
  subst hk
  exact ⟨by dsimp only; omega, rfl⟩

theorem inv_reset {s : St K Φ} (fit0 : Φ) (h : Inv s) : Inv (reset fit0 s) := by
  refine ⟨by simp [reset], by simp [reset], by simp [reset], by simp [reset], by simp [reset], ?_, ?_⟩
  · intro _ r hr
    simp only [reset] at hr ⊢
    by_cases hp : s.phases = []
    · have := h.op hp r hr
      omega
    · cases hc : s.curphase with
      | none => exact absurd (h.ph.1 hc) hp
      | some k =>
        obtain ⟨p, _, h2⟩ := h.cp k hc
        rw [h2] at hr
        injection hr with hr
        subst hr
        exact Nat.lt_succ_self _
  · intro _ r hr
    simp only [reset] at hr ⊢
    by_cases hp : s.sets = []
    · have := h.od hp r hr
      omega
    · cases hc : s.curset with
      | none => exact absurd (h.ds.1 hc) hp
      | some k =>
        obtain ⟨_, h2⟩ := h.cs k hc
        rw [h2] at hr
        injection hr with hr
        subst hr
        exact Nat.lt_succ_self _

theorem inv_vals {s : St K Φ} (h : Inv s) (pv dv f) : Inv (s.withVals pv dv f) := by
  refine ⟨?_, by simpa [St.withVals] using h.ph, by simpa [St.withVals] using h.ds, ?_, ?_, ?_, ?_⟩
  · intro d hd
    obtain ⟨k, hk, rfl⟩ := List.getElem_of_mem hd
    simp only [St.withVals, List.length_mapIdx, List.getElem_mapIdx] at hk ⊢
    have hd := h.sel _ (List.getElem_mem hk)
    exact ⟨hd.len, hd.slot, hd.clean⟩
  · intro k hk
    obtain ⟨p, h1, h2⟩ := h.cp k hk
    refine ⟨{ p with val := pv k }, ?_, h2⟩
    simp [St.withVals, h1]
  · intro k hk
    obtain ⟨h1, h2⟩ := h.cs k hk
    exact ⟨by simpa [St.withVals] using h1, h2⟩
  · intro h0
    simp only [St.withVals, List.mapIdx_eq_nil_iff] at h0
    exact h.op h0
  · intro h0
    simp only [St.withVals, List.mapIdx_eq_nil_iff] at h0
    exact h.od h0

theorem inv_store {s s' : St K Φ} (h : Inv s) {x : K} {l : Loc} (hs : store s x l = .ok s') : Inv s' := by
  cases l with
  | data g is v =>
    simp only [store] at hs
    split_ifs at hs with hc
    injection hs with hs
    subst hs
    exact inv_onSet h is (fun d => { d with val := fun w => if w = v then x else d.val w })
      fun d hd => ⟨hd.len, hd.slot, hd.clean⟩
  | phase g ip v =>
    simp only [store] at hs
    split_ifs at hs with hc
    injection hs with hs
    subst hs
    have e : ∀ f : Ph K → Ph K, s.phases.modify ip f = [] ↔ s.phases = [] := by
      intro f
      rw [← List.length_eq_zero_iff, List.length_modify, List.length_eq_zero_iff]
    refine ⟨by simpa using h.sel, by simpa [e] using h.ph, h.ds, ?_, h.cs, fun h0 => h.op ((e _).1 h0), h.od⟩
    intro k hk
    obtain ⟨p, h1, h2⟩ := h.cp k hk
    by_cases hik : ip = k
    · subst hik
      exact ⟨{ p with val := fun w => if w = v then x else p.val w }, by simp [h1], h2⟩
    · exact ⟨p, by simp [List.getElem?_modify, hik, h1], h2⟩

section
variable [LinearOrder K]

theorem rangeAll_psel (lo hi : K) (n : ℕ) (l : List (Ds K)) (h : ∀ d ∈ l, d.Ok n) :
    (∀ d ∈ (rangeAll lo hi l).2, d.Ok n) ∧ (rangeAll lo hi l).2.length = l.length := by
  induction l with
  | nil => simp [rangeAll]
  | cons d l ih =>
    have hd := h d (by simp)
    obtain ⟨ih1, ih2⟩ := ih fun e he => h e (by simp [he])
    unfold rangeAll
    cases hr : d.range lo hi with
    | none => exact ⟨h, rfl⟩
    | some d' =>
      have hd' : d'.Ok n := by
        unfold Ds.range at hr
        split_ifs at hr
        injection hr with hr
        subst hr
        exact ⟨hd.len, hd.slot, hd.clean⟩
      refine ⟨?_, by simp [ih2]⟩
      intro e he
      rcases List.mem_cons.1 he with rfl | he
      · exact hd'
      · exact ih1 e he

theorem inv_range {s : St K Φ} (h : Inv s) (is : ℤ) (lo hi : K) : Inv (range s is lo hi).2 := by
  unfold range
  split_ifs with h1 h2 _ h3
  · exact h
  · obtain ⟨a, b⟩ := rangeAll_psel lo hi s.phases.length s.sets h.sel
    have e : (rangeAll lo hi s.sets).2 = [] ↔ s.sets = [] := by
      rw [← List.length_eq_zero_iff, b, List.length_eq_zero_iff]
    refine ⟨a, h.ph, ?_, h.cp, ?_, h.op, fun h0 => h.od (e.1 h0)⟩
    · rw [e]; exact h.ds
    · intro k hk
      obtain ⟨h3, h4⟩ := h.cs k hk
      exact ⟨by rw [b]; exact h3, h4⟩
  · obtain ⟨a, b⟩ := rangeAll_psel lo hi s.phases.length s.sets h.sel
    have e : (rangeAll lo hi s.sets).2 = [] ↔ s.sets = [] := by
      rw [← List.length_eq_zero_iff, b, List.length_eq_zero_iff]
    refine ⟨a, h.ph, ?_, h.cp, ?_, h.op, fun h0 => h.od (e.1 h0)⟩
    · rw [e]; exact h.ds
    · intro k hk
      obtain ⟨h3, h4⟩ := h.cs k hk
      exact ⟨by rw [b]; exact h3, h4⟩
  · cases hd : s.sets[(is - 1).toNat]? with
    | none => exact h
    | some d =>
      dsimp only
      cases hr : d.range lo hi with
      | none => exact h
      | some d' =>
        refine inv_onSet h _ _ fun _ _ => ?_
        have hd0 := h.sel d (List.mem_of_getElem? hd)
        unfold Ds.range at hr
        split_ifs at hr
        injection hr with hr
        subst hr
        exact ⟨hd0.len, hd0.slot, hd0.clean⟩
  · exact h

theorem lift_inv {s : St K Φ} (h : Inv s) {r : Res (St K Φ)} (hr : ∀ s', r = .ok s' → Inv s') : Inv (lift s r).2 := by
  unfold lift
  cases r with
  | ok s' => exact hr s' rfl
  | err e => exact h
  | ub => exact h

theorem Ds.onIgn_psel (d : Ds K) (ij : Char) (k : ℕ) (f : Finset ℕ → Finset ℕ) : (d.onIgn ij k f).psel = d.psel := by
  unfold Ds.onIgn
  split_ifs <;> rfl

theorem onIgn_ok {n : ℕ} {d : Ds K} (h : d.Ok n) (ij : Char) {k : ℕ} (hk : k < n) (f : Finset ℕ → Finset ℕ) :
    (d.onIgn ij k f).Ok n := by
  refine ⟨by rw [Ds.onIgn_psel]; exact h.len, by rw [Ds.onIgn_psel]; exact h.slot, ?_⟩
  intro m hm
  have e : m ≠ k := by omega
  unfold Ds.onIgn
  split_ifs <;> simp [e, h.clean m hm]

theorem checkSel_phase {s : St K Φ} {ip : ℤ} {ij : Char} {a : ℤ} {r : ℕ × ℕ × Ph K} (h : checkSel s ip ij a = .ok r) :
    r.2.1 < s.phases.length := by
  unfold checkSel at h
  split at h
  · simp at h
  split at h
  · simp at h
  split_ifs at h
  split at h
  · split at h
    · simp at h
    · rename_i k _ _ p hp
      split_ifs at h
      injection h with h
      subst h
      exact (List.getElem?_eq_some_iff.1 hp).1
  · simp at h

/-- Every call keeps the invariant. -/
theorem inv_step {s : St K Φ} (fit0 : Φ) (h : Inv s) (o : Op K Φ) : Inv (step fit0 s o).2 := by
  cases o with
  | readStruct r =>
    refine lift_inv h fun s' hs => ?_
    rw [Res.bind_eq_ok] at hs
    obtain ⟨p, _, hs⟩ := hs
    injection hs with hs
    subst hs
    exact inv_addPhase h p
  | readData r =>
    refine lift_inv h fun s' hs => ?_
    rw [Res.bind_eq_ok] at hs
    obtain ⟨p, _, hs⟩ := hs
    injection hs with hs
    subst hs
    exact inv_addData h p
  | setphase ip =>
    refine lift_inv h fun s' hs => ?_
    unfold optSt at hs
    cases hp : setphase s ip with
    | none => rw [hp] at hs; simp at hs
    | some t =>
      rw [hp] at hs
      injection hs with hs
      subst hs
      exact inv_setphase h hp
  | setdata ip =>
    refine lift_inv h fun s' hs => ?_
    unfold optSt at hs
    cases hp : setdata s ip with
    | none => rw [hp] at hs; simp at hs
    | some t =>
      rw [hp] at hs
      injection hs with hs
      subst hs
      exact inv_setdata h hp
  | psel ip =>
    unfold step
    cases hc : s.curset with
    | none => exact h
    | some i =>
      dsimp only
      split_ifs with h1 h2
      · exact inv_onSet h _ _ fun d hd => ok_range _ _ rfl hd.clean
      · exact h
      · refine inv_onSet h _ _ fun d hd => ?_
        have := (Ds.selphase_ok hd (ip := (ip - 1).toNat) (by omega)).1
        rwa [max_eq_left (by omega)] at this
  | pdesel ip =>
    unfold step
    cases hc : s.curset with
    | none => exact h
    | some i =>
      dsimp only
      split_ifs with h1 h2
      · refine inv_onSet h _ _ fun d hd => ⟨by simpa using hd.len, ?_, hd.clean⟩
        intro k o hk
        dsimp only at hk
        rw [List.getElem?_replicate] at hk
        split_ifs at hk
        injection hk with hk
        exact .inl hk.symm
      · exact h
      · cases hd : s.sets[i]? with
        | none => exact h
        | some d =>
          dsimp only
          split_ifs with h3
          · refine inv_onSet h _ _ fun d hd => ⟨by simpa using hd.len, ?_, hd.clean⟩
            intro k o hk
            dsimp only at hk
            rw [List.getElem?_set] at hk
            split_ifs at hk
            · injection hk with hk
              exact .inl hk.symm
            · exact hd.slot k o hk
          · exact h
  | selType ip ij sym flag =>
    refine lift_inv h fun s' hs => ?_
    rw [Res.bind_eq_ok] at hs
    obtain ⟨r, hr, hs⟩ := hs
    cases hl : r.2.2.look sym with
    | none => rw [hl] at hs; simp at hs
    | some t =>
      rw [hl] at hs
      injection hs with hs
      subst hs
      exact inv_onSet h _ _ fun d hd => onIgn_ok hd _ (checkSel_phase hr) _
  | selIndex ip ij aidx flag =>
    refine lift_inv h fun s' hs => ?_
    rw [Res.bind_eq_ok] at hs
    obtain ⟨r, hr, hs⟩ := hs
    injection hs with hs
    subst hs
    exact inv_onSet h _ _ fun d hd => onIgn_ok hd _ (checkSel_phase hr) _
  | selAll ip ij =>
    refine lift_inv h fun s' hs => ?_
    rw [Res.bind_eq_ok] at hs
    obtain ⟨r, hr, hs⟩ := hs
    injection hs with hs
    subst hs
    exact inv_onSet h _ _ fun d hd => onIgn_ok hd _ (checkSel_phase hr) _
  | selNone ip ij =>
    refine lift_inv h fun s' hs => ?_
    rw [Res.bind_eq_ok] at hs
    obtain ⟨r, hr, hs⟩ := hs
    injection hs with hs
    subst hs
    exact inv_onSet h _ _ fun d hd => onIgn_ok hd _ (checkSel_phase hr) _
  | range is lo hi => exact inv_range h is lo hi
  | reset => exact inv_reset fit0 h
  | getvar v => exact h
  | setvar v x =>
    refine lift_inv h fun s' hs => ?_
    unfold setvar at hs
    rw [Res.bind_eq_ok] at hs
    obtain ⟨r, _, hs⟩ := hs
    cases r with
    | none => simp at hs
    | some l => exact inv_store h hs
  | numAtoms =>
    unfold step
    cases s.curphase <;> exact h
  | numPhases => exact h
  | numDatasets => exact h
  | compute g => exact inv_vals h _ _ _

/-- Reachable states satisfy the invariant. -/
theorem inv_run {s : St K Φ} (fit0 : Φ) (h : Inv s) (l : List (Op K Φ)) : Inv (run fit0 s l).2 := by
  induction l generalizing s with
  | nil => exact h
  | cons o l ih =>
    unfold run
    split
    · exact h
    · exact ih (inv_step fit0 h o)

end
end Pdffit.Api
