import Verif.Model.Layout
import Mathlib.Data.List.Nodup
import Mathlib.Data.Rat.Defs
import Mathlib.Tactic.FinCases

/-! # C47: every refinable variable has its own slot -/

namespace Pdffit.C47
open Layout

/-- The refinable variables that exist with the given phases and data sets. -/
def Exists (natoms : List ℕ) (nset : ℕ) : RVar → Prop
  | .a0 ip _ | .win ip _ | .delta2 ip | .delta1 ip | .pscale ip | .spdiameter ip | .sratio ip => ip < natoms.length
  | .pos ip ia _ | .u ip ia _ | .occ ip ia => ∃ n, natoms[ip]? = some n ∧ ia < n
  | .dscale is | .qdamp is | .qbroad is => is < nset

section
variable {α : Type} (f : α → List RVar)

theorem pushAll_fst (l : List α) (s : List RVar × List ℕ) : (pushAll f l s).1 = s.1 ++ l.flatMap f := by
  induction l generalizing s with
  | nil => simp [pushAll]
  | cons a l ih =>
    have := ih (s.1 ++ f a, s.2 ++ [s.1.length])
    simp only [pushAll, List.foldl_cons, List.flatMap_cons] at *
    rw [this, List.append_assoc]

theorem pushAll_len (l : List α) (s : List RVar × List ℕ) : (pushAll f l s).2.length = s.2.length + l.length := by
  induction l generalizing s with
  | nil => simp [pushAll]
  | cons a l ih =>
    have := ih (s.1 ++ f a, s.2 ++ [s.1.length])
    simp only [pushAll, List.foldl_cons, List.length_append, List.length_cons, List.length_nil] at *
    omega

theorem pushAll_old (l : List α) (s : List RVar × List ℕ) (k : ℕ) (h : k < s.2.length) :
    (pushAll f l s).2[k]? = s.2[k]? := by
  induction l generalizing s with
  | nil => simp [pushAll]
  | cons a l ih =>
    have := ih (s.1 ++ f a, s.2 ++ [s.1.length]) (by simp; omega)
    simp only [pushAll, List.foldl_cons] at *
    rw [this, List.getElem?_append_left h]

/-- Entry `j` of element `k` is at its offset plus `j`. -/
theorem pushAll_get (l : List α) (s : List RVar × List ℕ) (k : ℕ) (a : α) (hk : l[k]? = some a) :
    ∃ o, (pushAll f l s).2[s.2.length + k]? = some o ∧ ∀ (j : ℕ) (v : RVar), (f a)[j]? = some v →
      (pushAll f l s).1[o + j]? = some v := by
  induction l generalizing s k with
  | nil => simp at hk
  | cons b l ih =>
    cases k with
    | zero =>
      have hb : b = a := by simpa using hk
      subst hb
      refine ⟨s.1.length, ?_, ?_⟩
      · have := pushAll_old f l (s.1 ++ f b, s.2 ++ [s.1.length]) s.2.length (by simp)
        simp only [pushAll, List.foldl_cons, add_zero] at *
        rw [this]
        simp
      · intro j v hv
        rw [pushAll_fst, List.flatMap_cons, List.getElem?_append_right (by omega)]
        rw [Nat.add_sub_cancel_left, List.getElem?_append_left (List.getElem?_eq_some_iff.1 hv).1]
        exact hv
    | succ k =>
      obtain ⟨o, h1, h2⟩ := ih (s.1 ++ f b, s.2 ++ [s.1.length]) k (by simpa using hk)
      refine ⟨o, ?_, h2⟩
      have e : s.2.length + (k + 1) = (s.2 ++ [s.1.length]).length + k := by simp; omega
      rw [e]
      exact h1

end

/-- All slots of one phase. -/
def phaseVars (p : ℕ × ℕ) : List RVar := globals p.2 ++ (List.range p.1).flatMap (atomVars p.2)

theorem addPhase_slots (s : Setup) (p : ℕ × ℕ) : (addPhase s p).slots = s.slots ++ phaseVars p := by
  simp only [addPhase, pushAll_fst, phaseVars, List.append_assoc]

theorem fold_slots (l : List (ℕ × ℕ)) (s : Setup) :
    (l.foldl addPhase s).slots = s.slots ++ l.flatMap phaseVars := by
  induction l generalizing s with
  | nil => simp
  | cons p l ih => rw [List.foldl_cons, ih, addPhase_slots, List.flatMap_cons, List.append_assoc]

theorem slots_eq (natoms : List ℕ) (nset : ℕ) :
    (setup natoms nset).slots = natoms.zipIdx.flatMap phaseVars ++ (List.range nset).flatMap setVars := by
  simp only [setup, pushAll_fst, fold_slots, List.nil_append]

/-! ### Number of slots -/

theorem atoms_len (ip n : ℕ) : ((List.range n).flatMap (atomVars ip)).length = n * 10 := by
  rw [List.length_flatMap]
  have : (List.range n).map (fun a => (atomVars ip a).length) = List.replicate n 10 := by
    apply List.ext_getElem <;> simp [atomVars]
  rw [this]
  simp

/-- The number of entries is the number that `fit_setup` compares it with, so its `constraintError` is never raised. -/
theorem count (natoms : List ℕ) (nset : ℕ) : (setup natoms nset).slots.length = getnpar natoms nset := by
  rw [slots_eq, List.length_append]
  have h1 : ((List.range nset).flatMap setVars).length = nset * 3 := by
    rw [List.length_flatMap]
    have : (List.range nset).map (fun a => (setVars a).length) = List.replicate nset 3 := by
      apply List.ext_getElem <;> simp [setVars]
    rw [this]
    simp
  have h2 : ∀ k, ((natoms.zipIdx k).flatMap phaseVars).length = natoms.length * 11 + natoms.sum * 10 := by
    induction natoms with
    | nil => simp
    | cons n l ih =>
      intro k
      rw [List.zipIdx_cons, List.flatMap_cons, List.length_append, ih (k + 1)]
      simp only [phaseVars, List.length_append, atoms_len, List.length_cons, List.sum_cons, globals, List.length_nil]
      omega
  rw [h1, h2]
  unfold getnpar
  omega

/-! ### Every variable has a slot, and only one -/

theorem mem_globals (ip : ℕ) (v : RVar) : v ∈ globals ip ↔ (∃ j, v = .a0 ip j) ∨ (∃ j, v = .win ip j) ∨
    v = .delta2 ip ∨ v = .delta1 ip ∨ v = .pscale ip ∨ v = .spdiameter ip ∨ v = .sratio ip := by
  simp only [globals, List.mem_cons, List.not_mem_nil, or_false, Fin.exists_fin_succ, Fin.exists_fin_zero]
  simp only [Fin.succ_zero_eq_one, Fin.succ_one_eq_two, or_assoc]

theorem mem_atomVars (ip ia : ℕ) (v : RVar) : v ∈ atomVars ip ia ↔ (∃ j, v = .pos ip ia j) ∨ (∃ j, v = .u ip ia j) ∨
    v = .occ ip ia := by
  constructor
  · intro h
    simp only [atomVars, List.mem_cons, List.not_mem_nil, or_false] at h
    rcases h with h | h | h | h | h | h | h | h | h | h
    · exact .inl ⟨_, h⟩
    · exact .inl ⟨_, h⟩
    · exact .inl ⟨_, h⟩
    · exact .inr (.inl ⟨_, h⟩)
    · exact .inr (.inl ⟨_, h⟩)
    · exact .inr (.inl ⟨_, h⟩)
    · exact .inr (.inl ⟨_, h⟩)
    · exact .inr (.inl ⟨_, h⟩)
    · exact .inr (.inl ⟨_, h⟩)
    · exact .inr (.inr h)
  · rintro (⟨j, rfl⟩ | ⟨j, rfl⟩ | rfl)
    · fin_cases j <;> simp [atomVars]
    · fin_cases j <;> simp [atomVars]
    · simp [atomVars]

theorem mem_setVars (is : ℕ) (v : RVar) : v ∈ setVars is ↔ v = .dscale is ∨ v = .qdamp is ∨ v = .qbroad is := by
  simp [setVars]

theorem mem_phase (natoms : List ℕ) (v : RVar) : v ∈ natoms.zipIdx.flatMap phaseVars ↔
    ∃ ip n, natoms[ip]? = some n ∧ (v ∈ globals ip ∨ ∃ ia, ia < n ∧ v ∈ atomVars ip ia) := by
  rw [List.mem_flatMap]
  constructor
  · rintro ⟨⟨n, ip⟩, hp, hv⟩
    refine ⟨ip, n, by simpa using List.mem_zipIdx_iff_getElem?.1 hp, ?_⟩
    rcases List.mem_append.1 hv with h | h
    · exact .inl h
    · obtain ⟨ia, h1, h2⟩ := List.mem_flatMap.1 h
      exact .inr ⟨ia, List.mem_range.1 h1, h2⟩
  · rintro ⟨ip, n, hp, hv⟩
    refine ⟨(n, ip), List.mem_zipIdx_iff_getElem?.2 (by simpa using hp), List.mem_append.2 ?_⟩
    rcases hv with h | ⟨ia, h1, h2⟩
    · exact .inl h
    · exact .inr (List.mem_flatMap.2 ⟨ia, List.mem_range.2 h1, h2⟩)

/-- The slots belong to the existing variables, all of them and no others. -/
theorem complete (natoms : List ℕ) (nset : ℕ) (v : RVar) :
    v ∈ (setup natoms nset).slots ↔ Exists natoms nset v := by
  rw [slots_eq, List.mem_append, mem_phase, List.mem_flatMap]
  have lt : ∀ ip, ip < natoms.length ↔ ∃ n, natoms[ip]? = some n := fun ip => by
    simp [List.getElem?_eq_some_iff]
  cases v <;> simp [mem_globals, mem_atomVars, mem_setVars, Exists, lt]

theorem nodup_atoms (ip n : ℕ) : ((List.range n).flatMap (atomVars ip)).Nodup := by
  rw [List.nodup_flatMap]
  refine ⟨fun ia _ => by simp [atomVars], ?_⟩
  refine List.nodup_range.imp ?_
  intro a b hab v h1 h2
  rw [mem_atomVars] at h1 h2
  rcases h1 with ⟨j, rfl⟩ | ⟨j, rfl⟩ | rfl <;> simp_all

theorem nodup_phase (ip n : ℕ) : (phaseVars (n, ip)).Nodup := by
  refine List.nodup_append.2 ⟨by simp [globals], nodup_atoms ip n, ?_⟩
  intro v h1 w h2 e
  subst e
  obtain ⟨ia, _, h2⟩ := List.mem_flatMap.1 h2
  rw [mem_globals] at h1
  rw [mem_atomVars] at h2
  rcases h2 with ⟨j, rfl⟩ | ⟨j, rfl⟩ | rfl <;> simp at h1

/-- The phase a slot belongs to. -/
def phaseOf : RVar → Option ℕ
  | .a0 ip _ | .win ip _ | .delta2 ip | .delta1 ip | .pscale ip | .spdiameter ip | .sratio ip
  | .pos ip _ _ | .u ip _ _ | .occ ip _ => some ip
  | _ => none

theorem phaseOf_mem (p : ℕ × ℕ) (v : RVar) (h : v ∈ phaseVars p) : phaseOf v = some p.2 := by
  rcases List.mem_append.1 h with h | h
  · rw [mem_globals] at h
    rcases h with ⟨j, rfl⟩ | ⟨j, rfl⟩ | rfl | rfl | rfl | rfl | rfl <;> rfl
  · obtain ⟨ia, _, h⟩ := List.mem_flatMap.1 h
    rw [mem_atomVars] at h
    rcases h with ⟨j, rfl⟩ | ⟨j, rfl⟩ | rfl <;> rfl

/-- Different slots belong to different variables. -/
theorem distinct (natoms : List ℕ) (nset : ℕ) : (setup natoms nset).slots.Nodup := by
  rw [slots_eq]
  refine List.nodup_append.2 ⟨?_, ?_, ?_⟩
  · rw [List.nodup_flatMap]
    refine ⟨fun p _ => nodup_phase p.2 p.1, ?_⟩
    have h : (natoms.zipIdx.map Prod.snd).Nodup := by
      rw [List.zipIdx_map_snd]
      exact List.nodup_range'
    refine (List.pairwise_map.1 h).imp ?_
    intro a b hab v h1 h2
    have e1 := phaseOf_mem a v h1
    have e2 := phaseOf_mem b v h2
    rw [e1] at e2
    exact hab (by injection e2)
  · rw [List.nodup_flatMap]
    refine ⟨fun is _ => by simp [setVars], ?_⟩
    refine List.nodup_range.imp ?_
    intro a b hab v h1 h2
    rw [mem_setVars] at h1 h2
    rcases h1 with rfl | rfl | rfl <;> simp_all
  · intro v h1 w h2 e
    subst e
    obtain ⟨p, _, h1⟩ := List.mem_flatMap.1 h1
    have e1 := phaseOf_mem p v h1
    obtain ⟨is, _, h2⟩ := List.mem_flatMap.1 h2
    rw [mem_setVars] at h2
    rcases h2 with rfl | rfl | rfl <;> simp [phaseOf] at e1

/-! ### Offsets used by the derivative routines -/

theorem prefix_get {l m : List RVar} {i : ℕ} {v : RVar} (h : l[i]? = some v) : (l ++ m)[i]? = some v := by
  rw [List.getElem?_append_left (List.getElem?_eq_some_iff.1 h).1]
  exact h

/-- What a phase recorded stays valid while further phases are added. -/
theorem fold_offsets (l : List (ℕ × ℕ)) (s : Setup) (hs : s.phaseOff.length = s.atomOff.length) (k n ip : ℕ)
    (hk : l[k]? = some (n, ip)) :
    ∃ o, (l.foldl addPhase s).phaseOff[s.phaseOff.length + k]? = some o ∧
      (∀ j v, (globals ip)[j]? = some v → (l.foldl addPhase s).slots[o + j]? = some v) ∧
      ∃ ao, (l.foldl addPhase s).atomOff[s.phaseOff.length + k]? = some ao ∧
        ∀ ia, ia < n → ∃ o, ao[ia]? = some o ∧
          ∀ j v, (atomVars ip ia)[j]? = some v → (l.foldl addPhase s).slots[o + j]? = some v := by
  have keep : ∀ (l : List (ℕ × ℕ)) (s : Setup) (k : ℕ),
      (∀ o, s.phaseOff[k]? = some o → (l.foldl addPhase s).phaseOff[k]? = some o) ∧
      (∀ o, s.atomOff[k]? = some o → (l.foldl addPhase s).atomOff[k]? = some o) := by
    intro l
    induction l with
    | nil => intro s k; exact ⟨fun _ h => h, fun _ h => h⟩
    | cons p l ih =>
      intro s k
      obtain ⟨h1, h2⟩ := ih (addPhase s p) k
      refine ⟨fun o h => h1 o ?_, fun o h => h2 o ?_⟩
      · simp only [addPhase]
        rw [List.getElem?_append_left (List.getElem?_eq_some_iff.1 h).1]
        exact h
      · simp only [addPhase]
        rw [List.getElem?_append_left (List.getElem?_eq_some_iff.1 h).1]
        exact h
  induction l generalizing s k with
  | nil => simp at hk
  | cons p l ih =>
    cases k with
    | zero =>
      have hp : p = (n, ip) := by simpa using hk
      subst hp
      have hslots : ((((n, ip) :: l)).foldl addPhase s).slots = (addPhase s (n, ip)).slots ++ l.flatMap phaseVars := by
        rw [List.foldl_cons, fold_slots]
      refine ⟨s.slots.length, (keep l (addPhase s (n, ip)) _).1 _ (by simp [addPhase]), ?_, ?_⟩
      · intro j v hv
        rw [hslots, addPhase_slots]
        refine prefix_get ?_
        rw [List.getElem?_append_right (by omega), Nat.add_sub_cancel_left]
        exact prefix_get hv
      · refine ⟨_, (keep l (addPhase s (n, ip)) _).2
          (pushAll (atomVars ip) (List.range n) (s.slots ++ globals ip, [])).2 (by simp [addPhase, hs]), ?_⟩
        intro ia hia
        obtain ⟨o, h1, h2⟩ := pushAll_get (atomVars ip) (List.range n) (s.slots ++ globals ip, []) ia ia
          (by simp [hia])
        refine ⟨o, by simpa using h1, ?_⟩
        intro j v hv
        rw [hslots]
        exact prefix_get (h2 j v hv)
    | succ k =>
      have := ih (addPhase s p) (by simp [addPhase, hs]) k (by simpa using hk)
      have e : (addPhase s p).phaseOff.length + k = s.phaseOff.length + (k + 1) := by simp [addPhase]; omega
      rw [e] at this
      exact this

/-- The derivative routines find every variable at the recorded offset: the `j`-th global variable of a phase at
`phase.offset + j`, the `j`-th variable of an atom at `atom.offset + j`. -/
theorem phase_offsets (natoms : List ℕ) (nset ip n : ℕ) (h : natoms[ip]? = some n) :
    ∃ o, (setup natoms nset).phaseOff[ip]? = some o ∧
      (∀ j v, (globals ip)[j]? = some v → (setup natoms nset).slots[o + j]? = some v) ∧
      ∃ ao, (setup natoms nset).atomOff[ip]? = some ao ∧ ∀ ia, ia < n → ∃ o, ao[ia]? = some o ∧
        ∀ j v, (atomVars ip ia)[j]? = some v → (setup natoms nset).slots[o + j]? = some v := by
  have hk : natoms.zipIdx[ip]? = some (n, ip) := by simp [h]
  obtain ⟨o, h1, h2, ao, h3, h4⟩ := fold_offsets natoms.zipIdx {} rfl ip n ip hk
  have hs : (setup natoms nset).slots = (natoms.zipIdx.foldl addPhase {}).slots ++ (List.range nset).flatMap setVars := by
    simp only [setup, pushAll_fst]
  refine ⟨o, by simpa [setup] using h1, fun j v hv => by rw [hs]; exact prefix_get (h2 j v hv), ao,
    by simpa [setup] using h3, ?_⟩
  intro ia hia
  obtain ⟨o, h5, h6⟩ := h4 ia hia
  exact ⟨o, h5, fun j v hv => by rw [hs]; exact prefix_get (h6 j v hv)⟩

/-- The same for data sets. -/
theorem set_offsets (natoms : List ℕ) (nset is : ℕ) (h : is < nset) :
    ∃ o, (setup natoms nset).setOff[is]? = some o ∧
      ∀ j v, (setVars is)[j]? = some v → (setup natoms nset).slots[o + j]? = some v := by
  obtain ⟨o, h1, h2⟩ := pushAll_get setVars (List.range nset) ((natoms.zipIdx.foldl addPhase {}).slots, []) is is
    (by simp [h])
  exact ⟨o, by simpa [setup] using h1, h2⟩

/-! ### Constraints -/

section
variable {F : Type} (addr : RVar → ℕ) (cons : List (Constr F)) (natoms : List ℕ) (nset : ℕ)

/-- A slot never refers to a constraint of another variable. -/
theorem own (k c : ℕ) (h : (refvar addr cons natoms nset)[k]? = some (some c)) :
    ∃ v x, (setup natoms nset).slots[k]? = some v ∧ cons[c]? = some x ∧ x.addr = addr v ∧ x.vref = true := by
  unfold refvar at h
  rw [List.getElem?_map] at h
  cases hv : (setup natoms nset).slots[k]? with
  | none => rw [hv] at h; simp at h
  | some v =>
    rw [hv] at h
    simp only [Option.map_some, Option.some.injEq] at h
    unfold vfind at h
    cases hf : cons.findIdx? (fun c => c.addr == addr v) with
    | none => rw [hf] at h; simp at h
    | some i =>
      rw [hf] at h
      dsimp only at h
      obtain ⟨hi, h1, _⟩ := List.findIdx?_eq_some_iff_getElem.1 hf
      split_ifs at h with hr
      injection h with h
      subst h
      refine ⟨v, cons[i], rfl, List.getElem?_eq_getElem hi, by simpa using h1, ?_⟩
      simpa [hi] using hr

/-- Different variables have different addresses. -/
def Separate : Prop := ∀ v w, Exists natoms nset v → Exists natoms nset w → addr v = addr w → v = w

/-- (partial) With one constraint per variable, every constraint that contains a free parameter is attached to the
slot of its own variable and to no other.  Missing: a second constraint of the same variable is not attached
(`second_lost`). -/
theorem attached_partial (hsep : Separate addr natoms nset) (hone : (cons.map Constr.addr).Nodup)
    (c : ℕ) (x : Constr F) (hx : cons[c]? = some x) (hr : x.vref = true) (v : RVar) (hv : Exists natoms nset v)
    (ha : x.addr = addr v) (k : ℕ) :
    (refvar addr cons natoms nset)[k]? = some (some c) ↔ (setup natoms nset).slots[k]? = some v := by
  constructor
  · intro h
    obtain ⟨w, y, h1, h2, h3, _⟩ := own addr cons natoms nset k c h
    rw [hx] at h2
    injection h2 with h2
    subst h2
    rw [h1]
    congr 1
    have hw : Exists natoms nset w := by
      rw [← complete]
      exact List.mem_of_getElem? h1
    exact hsep w v hw hv (by rw [← h3, ha])
  · intro h
    unfold refvar
    rw [List.getElem?_map, h]
    simp only [Option.map_some, Option.some.injEq]
    have hc : c < cons.length := (List.getElem?_eq_some_iff.1 hx).1
    have hcx : cons[c] = x := (List.getElem?_eq_some_iff.1 hx).2
    have hf : cons.findIdx? (fun c => c.addr == addr v) = some c := by
      rw [List.findIdx?_eq_some_iff_getElem]
      refine ⟨hc, by simp [hcx, ha], ?_⟩
      intro j hj
      simp only [Bool.not_eq_true, beq_eq_false_iff_ne]
      intro e
      have hj' : j < cons.length := by omega
      have : (cons.map Constr.addr)[j]'(by simpa) = (cons.map Constr.addr)[c]'(by simpa) := by
        simp [e, hcx, ha]
      have := (List.Nodup.getElem_inj_iff hone).1 this
      omega
    unfold vfind
    rw [hf]
    dsimp only
    rw [if_pos]
    simp [hx, hr]

end

/-- A single phase with one atom, one data set, some addresses. -/
def addr0 : RVar → ℕ := fun v => (setup [1] 1).slots.idxOf v

example : (setup [2, 1] 1).phaseOff = [0, 31] ∧ (setup [2, 1] 1).atomOff = [[11, 21], [42]] ∧
    (setup [2, 1] 1).setOff = [52] ∧ (setup [2, 1] 1).slots.length = 55 := by decide +kernel

example : refvar addr0 ([⟨addr0 (.occ 0 0), none, 1, .ident, true⟩, ⟨addr0 (.a0 0 1), none, 2, .ident, true⟩] :
    List (Constr String)) [1] 1 =
    [none, some 1] ++ List.replicate 18 none ++ [some 0, none, none, none] := by decide +kernel

/-- **Violation**: when the first constraint of a variable has only fixed parameters (`vref` false), a second
constraint of that variable is appended by `constrain` and then never attached to the slot, although it contains
a free parameter. -/
theorem second_lost : ∃ cons : List (Constr String),
    cons = constrainStr [⟨addr0 (.occ 0 0), some "@1", -1, .user, false⟩] (addr0 (.occ 0 0)) (some "@2") ∧
    cons.map Constr.vref = [false, true] ∧ some 1 ∉ refvar addr0 cons [1] 1 := by
  refine ⟨_, rfl, by decide +kernel, by decide +kernel⟩

end Pdffit.C47
