import Verif.Lemmas.Api
import Mathlib.Data.Rat.Defs
import Mathlib.Algebra.Order.Ring.Rat

/-! # C25: atom selection behaves as sets, local to data set, phase and side -/

namespace Pdffit.C25
open Api
variable {K Φ : Type} [LinearOrder K]

/-- The selected atoms of data set `i`, phase `k`, side `b` (`true` for `i`). -/
def selected (s : St K Φ) (i k : ℕ) (b : Bool) : Finset ℕ :=
  match s.sets[i]?, s.phases[k]? with
  | some d, some p => Finset.range p.natoms \ (if b then d.ignI k else d.ignJ k)
  | _, _ => ∅

/-- The atoms of a phase that have type `t`. -/
def ofType (p : Ph K) (t : ℕ) : Finset ℕ := (Finset.range p.natoms).filter fun a => p.ty[a]? = some t

/-- The call addresses this data set, phase and side, and is valid: a data set exists, the phase is selected in it,
the side is `i` or `j`, the phase has atoms. -/
structure Valid (s : St K Φ) (ip : ℤ) (ij : Char) (i k : ℕ) (p : Ph K) : Prop where
  cur : s.curset = some i
  idx : ip = k + 1
  sel : ∃ d, s.sets[i]? = some d ∧ d.psel[k]? = some (some k)
  side : ij = 'i' ∨ ij = 'j'
  ph : s.phases[k]? = some p
  ne : 0 < p.natoms

/-- One set replaced. -/
def replaced (A : ℕ → ℕ → Bool → Finset ℕ) (i k : ℕ) (b : Bool) (x : Finset ℕ) : ℕ → ℕ → Bool → Finset ℕ :=
  fun i' k' b' => if i' = i ∧ k' = k ∧ b' = b then x else A i' k' b'

/-- Everything but the selection of atoms. -/
def frame (s : St K Φ) :=
  (s.phases, s.sets.map (fun d => (d.psel, d.val, d.rmin, d.rmax, d.rfmin, d.rfmax)),
    s.curphase, s.curset, s.fit, s.gen, s.pref, s.dref)

theorem checkSel_valid {s : St K Φ} {ip : ℤ} {ij : Char} {i k : ℕ} {p : Ph K} (h : Valid s ip ij i k p) (a : ℤ)
    (h1 : 1 ≤ a) (h2 : a ≤ p.natoms) : checkSel s ip ij a = .ok (i, k, p) := by
  obtain ⟨d, hd, hk⟩ := h.sel
  have hl : k < d.psel.length := (List.getElem?_eq_some_iff.1 hk).1
  have e : (ip - 1).toNat = k := by rw [h.idx]; omega
  simp only [checkSel, h.cur, hd, e, hk, h.ph]
  rw [if_neg (by rw [h.idx]; omega), if_neg, if_neg (by omega)]
  rintro ⟨h3, h4⟩
  rcases h.side with h | h
  · exact h3 h
  · exact h4 h

/-- What changing one ignore set does to the selected sets. -/
theorem onIgn_spec {s : St K Φ} {ip : ℤ} {ij : Char} {i k : ℕ} {p : Ph K} (h : Valid s ip ij i k p)
    (f : Finset ℕ → Finset ℕ) (x : Finset ℕ)
    (hx : ∀ g, selected s i k (decide (ij = 'i')) = Finset.range p.natoms \ g → Finset.range p.natoms \ f g = x) :
    selected (s.onSet i fun d => d.onIgn ij k f) = replaced (selected s) i k (decide (ij = 'i')) x ∧
      frame (s.onSet i fun d => d.onIgn ij k f) = frame s := by
  obtain ⟨d, hd, hk⟩ := h.sel
  constructor
  · funext i' k' b'
    simp only [replaced]
    by_cases hi : i' = i
    · subst hi
      have e1 : ∀ b, selected s i' k b = Finset.range p.natoms \ (if b then d.ignI k else d.ignJ k) := by
        intro b
        simp only [selected, hd, h.ph]
      simp only [selected, St.onSet, List.getElem?_modify_eq, hd, Option.map_some, true_and]
      cases hp : s.phases[k']? with
      | none =>
        have : k' ≠ k := by
          rintro rfl
          rw [h.ph] at hp
          simp at hp
        simp [this]
      | some q =>
        dsimp only
        by_cases hkk : k' = k
        · subst hkk
          rw [h.ph] at hp
          injection hp with hp
          subst hp
          by_cases hij : ij = 'i'
          · have := hx (d.ignI k') (by rw [e1]; simp [hij])
            cases b' <;> simp [Ds.onIgn, hij, this]
          · have := hx (d.ignJ k') (by rw [e1]; simp [hij])
            cases b' <;> simp [Ds.onIgn, hij, this]
        · by_cases hij : ij = 'i' <;> cases b' <;> simp [Ds.onIgn, hij, hkk]
    · have : ¬ i = i' := fun e => hi e.symm
      simp only [selected, St.onSet, List.getElem?_modify, this, if_false, hi, false_and, Option.map_id']
      cases s.sets[i']? <;> rfl
  · have e : (s.sets.modify i fun d => d.onIgn ij k f).map
        (fun d => (d.psel, d.val, d.rmin, d.rmax, d.rfmin, d.rfmax)) =
        s.sets.map (fun d => (d.psel, d.val, d.rmin, d.rmax, d.rfmin, d.rfmax)) := by
      apply List.ext_getElem?
      intro m
      simp only [List.getElem?_map, List.getElem?_modify]
      cases s.sets[m]? <;> simp
      split_ifs
      · unfold Ds.onIgn
        split_ifs <;> simp
      · simp
    simp only [frame, St.onSet, e]

theorem typeLoop_eq (p : Ph K) (t : ℕ) (flag : Bool) (g : Finset ℕ) :
    typeLoop p t flag g = if flag then g \ ofType p t else g ∪ ofType p t := by
  have key : ∀ n, (List.range n).foldl
      (fun g a => if p.ty[a]? = some t then (if flag then g.erase a else insert a g) else g) g =
      if flag then g \ ((Finset.range n).filter fun a => p.ty[a]? = some t)
      else g ∪ ((Finset.range n).filter fun a => p.ty[a]? = some t) := by
    intro n
    induction n with
    | zero => cases flag <;> simp
    | succ n ih =>
      rw [List.range_succ, List.foldl_append, List.foldl_cons, List.foldl_nil, ih]
      rw [Finset.range_add_one, Finset.filter_insert]
      by_cases hn : p.ty[n]? = some t
      · rw [if_pos hn, if_pos hn]
        cases flag
        · simp only [Bool.false_eq_true, if_false]
          ext a
          simp only [Finset.mem_union, Finset.mem_insert]
          tauto
        · simp only [if_true]
          ext a
          simp only [Finset.mem_erase, Finset.mem_sdiff, Finset.mem_insert]
          tauto
      · rw [if_neg hn, if_neg hn]
  exact key p.natoms

/-- `selectAtomType`: adds to or removes from the addressed set all atoms of that type. -/
theorem by_type (fit0 : Φ) {s : St K Φ} {ip : ℤ} {ij : Char} {i k : ℕ} {p : Ph K} (h : Valid s ip ij i k p)
    (sym : String) (t : ℕ) (ht : p.look sym = some t) (flag : Bool) :
    (step fit0 s (.selType ip ij sym flag)).1 = .ok .unit ∧
    selected (step fit0 s (.selType ip ij sym flag)).2 = replaced (selected s) i k (decide (ij = 'i'))
      (if flag then selected s i k (decide (ij = 'i')) ∪ ofType p t else selected s i k (decide (ij = 'i')) \ ofType p t) ∧
    frame (step fit0 s (.selType ip ij sym flag)).2 = frame s := by
  have hc := checkSel_valid h 1 le_rfl (by have := h.ne; omega)
  have e : step fit0 s (.selType ip ij sym flag) =
      (.ok .unit, s.onSet i fun d => d.onIgn ij k (typeLoop p t flag)) := by
    simp only [step, hc, Res.bind_ok, ht, lift]
  rw [e]
  refine ⟨rfl, onIgn_spec h _ _ ?_⟩
  intro g hg
  rw [hg, typeLoop_eq]
  cases flag
  · ext a
    simp only [Bool.false_eq_true, if_false, Finset.mem_sdiff, Finset.mem_union]
    tauto
  · ext a
    simp only [if_true, Finset.mem_sdiff, Finset.mem_union, ofType, Finset.mem_filter]
    tauto

/-- `selectAtomIndex`: adds or removes one atom. -/
theorem by_index (fit0 : Φ) {s : St K Φ} {ip : ℤ} {ij : Char} {i k : ℕ} {p : Ph K} (h : Valid s ip ij i k p)
    (a : ℕ) (ha : a < p.natoms) (flag : Bool) :
    (step fit0 s (.selIndex ip ij (a + 1) flag)).1 = .ok .unit ∧
    selected (step fit0 s (.selIndex ip ij (a + 1) flag)).2 = replaced (selected s) i k (decide (ij = 'i'))
      (if flag then insert a (selected s i k (decide (ij = 'i'))) else (selected s i k (decide (ij = 'i'))).erase a) ∧
    frame (step fit0 s (.selIndex ip ij (a + 1) flag)).2 = frame s := by
  have hc := checkSel_valid h (a + 1) (by omega) (by omega)
  have ea : ((a : ℤ) + 1 - 1).toNat = a := by omega
  have e : step fit0 s (.selIndex ip ij (a + 1) flag) =
      (.ok .unit, s.onSet i fun d => d.onIgn ij k fun g => if flag then g.erase a else insert a g) := by
    simp only [step, hc, Res.bind_ok, lift, ea]
  rw [e]
  refine ⟨rfl, onIgn_spec h _ _ ?_⟩
  intro g hg
  rw [hg]
  cases flag
  · ext b
    simp only [Bool.false_eq_true, if_false, Finset.mem_sdiff, Finset.mem_insert, Finset.mem_erase]
    tauto
  · ext b
    simp only [if_true, Finset.mem_sdiff, Finset.mem_insert, Finset.mem_erase, Finset.mem_range]
    constructor
    · rintro ⟨h1, h2⟩
      by_cases hb : b = a
      · exact .inl hb
      · exact .inr ⟨h1, fun h3 => h2 ⟨hb, h3⟩⟩
    · rintro (rfl | ⟨h1, h2⟩)
      · exact ⟨ha, fun h3 => h3.1 rfl⟩
      · exact ⟨h1, fun h3 => h2 h3.2⟩

/-- `selectAll` selects every atom. -/
theorem all (fit0 : Φ) {s : St K Φ} {ip : ℤ} {ij : Char} {i k : ℕ} {p : Ph K} (h : Valid s ip ij i k p) :
    (step fit0 s (.selAll ip ij)).1 = .ok .unit ∧
    selected (step fit0 s (.selAll ip ij)).2 = replaced (selected s) i k (decide (ij = 'i')) (Finset.range p.natoms) ∧
    frame (step fit0 s (.selAll ip ij)).2 = frame s := by
  have hc := checkSel_valid h 1 le_rfl (by have := h.ne; omega)
  have e : step fit0 s (.selAll ip ij) = (.ok .unit, s.onSet i fun d => d.onIgn ij k fun _ => ∅) := by
    simp only [step, hc, Res.bind_ok, lift]
  rw [e]
  refine ⟨rfl, onIgn_spec h _ _ ?_⟩
  intro g _
  simp

/-- `selectNone` deselects every atom. -/
theorem none (fit0 : Φ) {s : St K Φ} {ip : ℤ} {ij : Char} {i k : ℕ} {p : Ph K} (h : Valid s ip ij i k p) :
    (step fit0 s (.selNone ip ij)).1 = .ok .unit ∧
    selected (step fit0 s (.selNone ip ij)).2 = replaced (selected s) i k (decide (ij = 'i')) ∅ ∧
    frame (step fit0 s (.selNone ip ij)).2 = frame s := by
  have hc := checkSel_valid h 1 le_rfl (by have := h.ne; omega)
  have e : step fit0 s (.selNone ip ij) = (.ok .unit, s.onSet i fun d => d.onIgn ij k fun g =>
      (List.range p.natoms).foldl (fun g a => insert a g) g) := by
    simp only [step, hc, Res.bind_ok, lift]
  rw [e]
  refine ⟨rfl, onIgn_spec h _ _ ?_⟩
  intro g _
  have : ∀ n, (List.range n).foldl (fun g a => insert a g) g = g ∪ Finset.range n := by
    intro n
    induction n with
    | zero => simp
    | succ n ih =>
      rw [List.range_succ, List.foldl_append, List.foldl_cons, List.foldl_nil, ih]
      rw [Finset.range_add_one]
      ext a
      simp only [Finset.mem_insert, Finset.mem_union]
      tauto
  rw [this]
  ext a
  simp only [Finset.mem_sdiff, Finset.mem_union, Finset.notMem_empty]
  tauto

/-- Is it one of the four selection calls? -/
def isSel : Op K Φ → Bool
  | .selType .. | .selIndex .. | .selAll .. | .selNone .. => true
  | _ => false

/-- A selection call that raises changes nothing. -/
theorem raises_unchanged (fit0 : Φ) (s : St K Φ) (o : Op K Φ) (ho : isSel o = true) (e : Exc)
    (h : (step fit0 s o).1 = .err e) : (step fit0 s o).2 = s := by
  have key : ∀ r : Res (St K Φ), (lift s r).1 = .err e → (lift s r).2 = s := by
    intro r hr
    cases r with
    | ok s' => simp [lift] at hr
    | err e => rfl
    | ub => rfl
  cases o with
  | selType | selIndex | selAll | selNone => exact key _ h
  | _ => simp [isSel] at ho

/-- Invalid arguments raise: no data set or bad phase number (unassignedError), bad side, bad index or unknown symbol
(ValueError).  Partial: the phase must be selected in the data set (`deselected`). -/
theorem invalid_partial (fit0 : Φ) {s : St K Φ} (h : Inv s) (ip : ℤ) (ij : Char) :
    (s.curset = Option.none ∨ ip < 1 ∨ (s.phases.length : ℤ) < ip → ∀ a flag sym,
      (step fit0 s (.selAll ip ij)).1 = .err .unassigned ∧ (step fit0 s (.selNone ip ij)).1 = .err .unassigned ∧
      (step fit0 s (.selIndex ip ij a flag)).1 = .err .unassigned ∧
      (step fit0 s (.selType ip ij sym flag)).1 = .err .unassigned) ∧
    (∀ i, s.curset = some i → 1 ≤ ip → ip ≤ s.phases.length → ij ≠ 'i' → ij ≠ 'j' → ∀ a flag sym,
      (step fit0 s (.selAll ip ij)).1 = .err .value ∧ (step fit0 s (.selNone ip ij)).1 = .err .value ∧
      (step fit0 s (.selIndex ip ij a flag)).1 = .err .value ∧
      (step fit0 s (.selType ip ij sym flag)).1 = .err .value) ∧
    (∀ i k p, Valid s ip ij i k p →
      (∀ a flag, a < 1 ∨ (p.natoms : ℤ) < a → (step fit0 s (.selIndex ip ij a flag)).1 = .err .value) ∧
      ∀ sym flag, p.look sym = Option.none → (step fit0 s (.selType ip ij sym flag)).1 = .err .value) := by
  refine ⟨?_, ?_, ?_⟩
  · intro hb a flag sym
    have e : ∀ a, checkSel s ip ij a = .err .unassigned := by
      intro a
      unfold checkSel
      cases hc : s.curset with
      | none => rfl
      | some i =>
        obtain ⟨hi, _⟩ := h.cs i hc
        have hl := (h.sel _ (List.getElem_mem hi)).len
        dsimp only
        rw [List.getElem?_eq_getElem hi]
        dsimp only
        rw [if_pos]
        rw [hl]
        rcases hb with hb | hb
        · rw [hc] at hb; simp at hb
        · exact hb
    simp only [step, e, Res.bind_err, lift, and_self]
  · intro i hc h1 h2 h3 h4 a flag sym
    have e : ∀ a, checkSel s ip ij a = .err .value := by
      intro a
      obtain ⟨hi, _⟩ := h.cs i hc
      have hl := (h.sel _ (List.getElem_mem hi)).len
      unfold checkSel
      rw [hc]
      dsimp only
      rw [List.getElem?_eq_getElem hi]
      dsimp only
      rw [if_neg (by rw [hl]; omega), if_pos ⟨h3, h4⟩]
    simp only [step, e, Res.bind_err, lift, and_self]
  · intro i k p hv
    constructor
    · intro a flag ha
      obtain ⟨d, hd, hk⟩ := hv.sel
      have hl : k < d.psel.length := (List.getElem?_eq_some_iff.1 hk).1
      have e : (ip - 1).toNat = k := by rw [hv.idx]; omega
      have : checkSel s ip ij a = .err .value := by
        simp only [checkSel, hv.cur, hd, e, hk, hv.ph]
        rw [if_neg (by rw [hv.idx]; omega), if_neg, if_pos ha]
        rintro ⟨h3, h4⟩
        rcases hv.side with h | h
        · exact h3 h
        · exact h4 h
      simp only [step, this, Res.bind_err, lift]
    · intro sym flag hs
      have hc := checkSel_valid hv 1 le_rfl (by have := hv.ne; omega)
      simp only [step, hc, Res.bind_ok, hs, lift]

theorem selected_congr {s s' : St K Φ} {i k : ℕ} (b : Bool)
    (h1 : (s'.sets[i]?).map (fun d => (d.ignI, d.ignJ)) = (s.sets[i]?).map fun d => (d.ignI, d.ignJ))
    (h2 : (s'.phases[k]?).map Ph.natoms = (s.phases[k]?).map Ph.natoms) : selected s' i k b = selected s i k b := by
  unfold selected
  generalize s'.sets[i]? = x1, s.sets[i]? = x2, s'.phases[k]? = y1, s.phases[k]? = y2 at *
  cases x1 <;> cases x2 <;> cases y1 <;> cases y2 <;> simp_all

/-- No other call changes a selected set; new phases and new data sets start with all atoms selected. -/
theorem others (fit0 : Φ) (s : St K Φ) (o : Op K Φ) (ho : isSel o = false) (hr : o ≠ .reset) (i k : ℕ) (b : Bool)
    (hi : i < s.sets.length) (hk : k < s.phases.length) : selected (step fit0 s o).2 i k b = selected s i k b := by
  have liftk : ∀ r : Res (St K Φ), (∀ s', r = .ok s' → selected s' i k b = selected s i k b) →
      selected (lift s r).2 i k b = selected s i k b := by
    intro r h
    cases r with
    | ok s' => exact h s' rfl
    | err e => rfl
    | ub => rfl
  have seton : ∀ (m : ℕ) (f : Ds K → Ds K), (∀ d, (f d).ignI = d.ignI ∧ (f d).ignJ = d.ignJ) →
      selected (s.onSet m f) i k b = selected s i k b := by
    intro m f hf
    refine selected_congr b ?_ rfl
    simp only [St.onSet, List.getElem?_modify]
    cases hd : s.sets[i]? with
    | none => rfl
    | some d =>
      obtain ⟨h1, h2⟩ := hf d
      by_cases e : m = i <;> simp [e, h1, h2]
  cases o with
  | selType | selIndex | selAll | selNone => simp [isSel] at ho
  | reset => exact (hr rfl).elim
  | readStruct r =>
    refine liftk _ fun s' hs => ?_
    rw [Res.bind_eq_ok] at hs
    obtain ⟨p, _, hs⟩ := hs
    injection hs with hs
    subst hs
    rw [addPhase_eq]
    refine selected_congr b ?_ ?_
    · simp only [List.getElem?_map, List.getElem?_eq_getElem hi, Option.map_some]
      rfl
    · simp only [List.getElem?_append_left hk]
  | readData r =>
    refine liftk _ fun s' hs => ?_
    rw [Res.bind_eq_ok] at hs
    obtain ⟨p, _, hs⟩ := hs
    injection hs with hs
    subst hs
    rw [addData_eq]
    refine selected_congr b ?_ rfl
    simp only [List.getElem?_append_left hi]
  | setphase ip =>
    refine liftk _ fun s' hs => ?_
    unfold optSt at hs
    cases hp : setphase s ip with
    | none => rw [hp] at hs; simp at hs
    | some t =>
      rw [hp] at hs
      injection hs with hs
      subst hs
      obtain ⟨_, _, _, _, rfl⟩ := setphase_some hp
      rfl
  | setdata ip =>
    refine liftk _ fun s' hs => ?_
    unfold optSt at hs
    cases hp : setdata s ip with
    | none => rw [hp] at hs; simp at hs
    | some t =>
      rw [hp] at hs
      injection hs with hs
      subst hs
      obtain ⟨_, _, rfl⟩ := setdata_some hp
      rfl
  | psel ip =>
    unfold step
    cases hc : s.curset with
    | none => rfl
    | some m =>
      dsimp only
      split_ifs
      · exact seton _ _ fun d => ⟨rfl, rfl⟩
      · rfl
      · exact seton _ _ fun d => ⟨rfl, rfl⟩
  | pdesel ip =>
    unfold step
    cases hc : s.curset with
    | none => rfl
    | some m =>
      dsimp only
      split_ifs
      · exact seton _ _ fun d => ⟨rfl, rfl⟩
      · rfl
      · cases hd : s.sets[m]? with
        | none => rfl
        | some d =>
          dsimp only
          split_ifs
          · exact seton _ _ fun d => ⟨rfl, rfl⟩
          · rfl
  | range is lo hi' =>
    have ra : ∀ (l : List (Ds K)) (m : ℕ), ((rangeAll lo hi' l).2[m]?).map (fun d => (d.ignI, d.ignJ)) =
        (l[m]?).map fun d => (d.ignI, d.ignJ) := by
      intro l
      induction l with
      | nil => intro m; simp [rangeAll]
      | cons d l ih =>
        intro m
        unfold rangeAll
        cases hd : d.range lo hi' with
        | none => rfl
        | some d' =>
          cases m with
          | zero =>
            unfold Ds.range at hd
            split_ifs at hd
            injection hd with hd
            subst hd
            rfl
          | succ m => simpa using ih m
    have all' : selected { s with sets := (rangeAll lo hi' s.sets).2 } i k b = selected s i k b :=
      selected_congr b (ra s.sets i) rfl
    simp only [step, Api.range]
    split_ifs
    · rfl
    · exact all'
    · exact all'
    · cases hd : s.sets[(is - 1).toNat]? with
      | none => rfl
      | some d =>
        dsimp only
        cases hr' : d.range lo hi' with
        | none => rfl
        | some d' =>
          dsimp only
          unfold Ds.range at hr'
          split_ifs at hr'
          injection hr' with hr'
          refine selected_congr b ?_ rfl
          simp only [St.onSet, List.getElem?_modify]
          generalize (is - 1).toNat = m at *
          by_cases e : m = i
          · subst e
            subst hr'
            simp [hd]
          · simp [e]
    · rfl
  | getvar v => rfl
  | setvar v x =>
    refine liftk _ fun s' hs => ?_
    unfold setvar at hs
    rw [Res.bind_eq_ok] at hs
    obtain ⟨r, _, hs⟩ := hs
    cases r with
    | none => simp at hs
    | some l =>
      cases l with
      | phase g ip v =>
        simp only [store] at hs
        split_ifs at hs
        injection hs with hs
        subst hs
        refine selected_congr b rfl ?_
        simp only [List.getElem?_modify, List.getElem?_eq_getElem hk]
        by_cases e : ip = k <;> simp [e, Ph.natoms]
      | data g ip v =>
        simp only [store] at hs
        split_ifs at hs
        injection hs with hs
        subst hs
        exact seton ip (fun d => { d with val := fun w => if w = v then x else d.val w }) fun d => ⟨rfl, rfl⟩
  | numAtoms =>
    unfold step
    cases s.curphase <;> rfl
  | numPhases => rfl
  | numDatasets => rfl
  | compute g =>
    refine selected_congr b ?_ ?_
    · simp [step, St.withVals, hi]
    · simp [step, St.withVals, hk, Ph.natoms]

/-- New phases and data sets start with all atoms selected. -/
theorem fresh (fit0 : Φ) {s : St K Φ} (h : Inv s) (b : Bool) :
    (∀ r k p, s.phases[k]? = some p →
      selected (step fit0 s (.readData (.ok r))).2 s.sets.length k b = Finset.range p.natoms) ∧
    (∀ p i, i < s.sets.length →
      selected (step fit0 s (.readStruct (.ok p))).2 i s.phases.length b = Finset.range p.natoms) := by
  constructor
  · intro r k p hp
    have e : (step fit0 s (.readData (.ok r))).2 = addData s r := rfl
    rw [e, addData_eq]
    simp only [selected, hp]
    simp [newSet]
  · intro p i hi
    have e : (step fit0 s (.readStruct (.ok p))).2 = addPhase s p := rfl
    have hc := (h.sel _ (List.getElem_mem hi)).clean s.phases.length le_rfl
    rw [e, addPhase_eq]
    simp only [selected, List.getElem?_map, List.getElem?_eq_getElem hi, Option.map_some, List.getElem?_concat_length]
    simp only [Ds.selphase, hc, ite_self, Finset.sdiff_empty]

/-! ### Sequences of calls -/

theorem valid_of_check {s : St K Φ} (h : Inv s) {ip : ℤ} {ij : Char} {a : ℤ} {r : ℕ × ℕ × Ph K}
    (hc : checkSel s ip ij a = .ok r) :
    Valid s ip ij r.1 r.2.1 r.2.2 ∧ 1 ≤ a ∧ a ≤ r.2.2.natoms := by
  unfold checkSel at hc
  split at hc
  · simp at hc
  rename_i i hcur
  split at hc
  · simp at hc
  rename_i d hd
  split_ifs at hc with h1 h2
  split at hc
  · rename_i k hk
    split at hc
    · simp at hc
    · rename_i p hp
      split_ifs at hc with h3
      injection hc with hc
      subst hc
      have hk' : k = (ip - 1).toNat := by
        rcases (h.sel d (List.mem_of_getElem? hd)).slot _ _ hk with e | e
        · simp at e
        · injection e
      refine ⟨⟨hcur, by dsimp only; omega, ⟨d, hd, by rw [hk'] at hk ⊢; exact hk⟩, ?_, hp, by dsimp only; omega⟩,
        by omega, by dsimp only; omega⟩
      by_contra hn
      exact h2 ⟨fun e => hn (.inl e), fun e => hn (.inr e)⟩
  · simp at hc

/-- The specification of one call on the sets of selected atoms: set operations on the addressed set if the call
succeeds; all atoms of new phases and in new data sets. -/
def specStep (fit0 : Φ) (s : St K Φ) (o : Op K Φ) (A : ℕ → ℕ → Bool → Finset ℕ) : ℕ → ℕ → Bool → Finset ℕ :=
  match (step fit0 s o).1, o, s.curset with
  | .ok _, .selType ip ij sym flag, some i =>
    match s.phases[(ip - 1).toNat]? with
    | some p =>
      match p.look sym with
      | some t =>
        replaced A i (ip - 1).toNat (decide (ij = 'i'))
          (if flag then A i (ip - 1).toNat (decide (ij = 'i')) ∪ ofType p t
            else A i (ip - 1).toNat (decide (ij = 'i')) \ ofType p t)
      | Option.none => A
    | Option.none => A
  | .ok _, .selIndex ip ij a flag, some i =>
    replaced A i (ip - 1).toNat (decide (ij = 'i'))
      (if flag then insert (a - 1).toNat (A i (ip - 1).toNat (decide (ij = 'i')))
        else (A i (ip - 1).toNat (decide (ij = 'i'))).erase (a - 1).toNat)
  | .ok _, .selAll ip ij, some i =>
    match s.phases[(ip - 1).toNat]? with
    | some p => replaced A i (ip - 1).toNat (decide (ij = 'i')) (Finset.range p.natoms)
    | Option.none => A
  | .ok _, .selNone ip ij, some i => replaced A i (ip - 1).toNat (decide (ij = 'i')) ∅
  | .ok _, .readStruct (.ok p), _ => fun i k b => if k = s.phases.length then Finset.range p.natoms else A i k b
  | .ok _, .readData (.ok _), _ => fun i k b =>
    if i = s.sets.length then
      match s.phases[k]? with
      | some p => Finset.range p.natoms
      | Option.none => ∅
    else A i k b
  | _, _, _ => A

/-- `A` holds the selected sets of all loaded data sets and phases. -/
def Agree (A : ℕ → ℕ → Bool → Finset ℕ) (s : St K Φ) : Prop :=
  ∀ i k b, i < s.sets.length → k < s.phases.length → selected s i k b = A i k b

theorem agree_replaced {A : ℕ → ℕ → Bool → Finset ℕ} {s s' : St K Φ} (hA : Agree A s) {i k : ℕ} {b : Bool} {x y : Finset ℕ}
    (hs : selected s' = replaced (selected s) i k b x) (hf : frame s' = frame s) (hxy : x = y) :
    Agree (replaced A i k b y) s' := by
  intro i' k' b' hi hk
  have e1 : s'.phases = s.phases := congrArg (fun f => f.1) hf
  have e2 : s'.sets.length = s.sets.length := by
    have := congrArg (fun f => f.2.1.length) hf
    simpa [frame] using this
  rw [hs, hxy]
  simp only [replaced]
  split_ifs
  · rfl
  · exact hA i' k' b' (by omega) (by rw [← e1]; exact hk)

theorem lift_ok {s : St K Φ} {r : Res (St K Φ)} {x : Out K} (h : (lift s r).1 = .ok x) : ∃ s', r = .ok s' := by
  cases r with
  | ok s' => exact ⟨s', rfl⟩
  | err e => simp [lift] at h
  | ub => simp [lift] at h

theorem vals {s : St K Φ} (h : Inv s) {ip : ℤ} {ij : Char} {i k : ℕ} {p : Ph K} (hv : Valid s ip ij i k p) :
    (ip - 1).toNat = k ∧ i < s.sets.length ∧ k < s.phases.length := by
  refine ⟨by rw [hv.idx]; omega, (h.cs i hv.cur).1, (List.getElem?_eq_some_iff.1 hv.ph).1⟩

theorem len_other (fit0 : Φ) {s : St K Φ} (h : Inv s) (o : Op K Φ) (hsel : isSel o = false)
    (hn : ¬ ((∃ p, o = .readStruct (.ok p)) ∨ ∃ p, o = .readData (.ok p))) :
    (step fit0 s o).2.sets.length ≤ s.sets.length ∧ (step fit0 s o).2.phases.length ≤ s.phases.length := by
  cases o with
  | readStruct r =>
    cases r with
    | ok p => exact absurd (.inl ⟨p, rfl⟩) hn
    | err e => exact ⟨le_rfl, le_rfl⟩
    | ub => exact ⟨le_rfl, le_rfl⟩
  | readData r =>
    cases r with
    | ok p => exact absurd (.inr ⟨p, rfl⟩) hn
    | err e => exact ⟨le_rfl, le_rfl⟩
    | ub => exact ⟨le_rfl, le_rfl⟩
  | setphase ip =>
    simp only [step]
    cases hx : setphase s ip with
    | none => exact ⟨le_rfl, le_rfl⟩
    | some s' =>
      obtain ⟨e1, e2⟩ : s'.sets = s.sets ∧ s'.phases = s.phases := by
        unfold setphase at hx
        split_ifs at hx
        split at hx
        · simp at hx
        · injection hx with hx; subst hx; exact ⟨rfl, rfl⟩
      exact ⟨by simp [lift, optSt, e1], by simp [lift, optSt, e2]⟩
  | setdata ip =>
    simp only [step]
    cases hx : setdata s ip with
    | none => exact ⟨le_rfl, le_rfl⟩
    | some s' =>
      obtain ⟨e1, e2⟩ : s'.sets = s.sets ∧ s'.phases = s.phases := by
        unfold setdata at hx
        split_ifs at hx
        injection hx with hx; subst hx; exact ⟨rfl, rfl⟩
      exact ⟨by simp [lift, optSt, e1], by simp [lift, optSt, e2]⟩
  | psel ip =>
    unfold step
    cases s.curset with
    | none => exact ⟨le_rfl, le_rfl⟩
    | some m => dsimp only; split_ifs <;> simp [St.onSet]
  | pdesel ip =>
    unfold step
    cases s.curset with
    | none => exact ⟨le_rfl, le_rfl⟩
    | some m =>
      dsimp only
      split_ifs
      · simp [St.onSet]
      · simp
      · cases s.sets[m]? with
        | none => simp
        | some d => dsimp only; split_ifs <;> simp [St.onSet]
  | selType | selIndex | selAll | selNone => simp [isSel] at hsel
  | range is lo hi =>
    have := (rangeAll_psel lo hi _ s.sets h.sel).2
    simp only [step, Api.range]
    split_ifs
    · simp
    · simp [this]
    · simp [this]
    · cases s.sets[(is - 1).toNat]? with
      | none => simp
      | some d =>
        dsimp only
        cases d.range lo hi <;> simp [St.onSet]
    · simp
  | reset => simp [step, reset]
  | getvar v => exact ⟨le_rfl, le_rfl⟩
  | setvar v x =>
    simp only [step]
    cases hx : setvar s v x with
    | ok s' =>
      unfold setvar at hx
      rw [Res.bind_eq_ok] at hx
      obtain ⟨r, _, hx⟩ := hx
      cases r with
      | none => simp at hx
      | some l =>
        cases l <;>
        · simp only [store] at hx
          split_ifs at hx
          injection hx with hx
          subst hx
          simp [lift]
    | err e => exact ⟨le_rfl, le_rfl⟩
    | ub => exact ⟨le_rfl, le_rfl⟩
  | numAtoms => unfold step; cases s.curphase <;> exact ⟨le_rfl, le_rfl⟩
  | numPhases => exact ⟨le_rfl, le_rfl⟩
  | numDatasets => exact ⟨le_rfl, le_rfl⟩
  | compute g => simp [step, St.withVals]

theorem spec_other (fit0 : Φ) (s : St K Φ) (o : Op K Φ) (hsel : isSel o = false)
    (hn : ¬ ((∃ p, o = .readStruct (.ok p)) ∨ ∃ p, o = .readData (.ok p))) (A : ℕ → ℕ → Bool → Finset ℕ) :
    specStep fit0 s o A = A := by
  unfold specStep
  split <;> first | rfl | (simp [isSel] at hsel; done) | skip
  · rename_i p _ _; exact absurd (.inl ⟨_, rfl⟩) hn
  · rename_i p _ _; exact absurd (.inr ⟨_, rfl⟩) hn

theorem agree_other (fit0 : Φ) {s : St K Φ} (h : Inv s) (o : Op K Φ) (hsel : isSel o = false)
    (hn : ¬ ((∃ p, o = .readStruct (.ok p)) ∨ ∃ p, o = .readData (.ok p))) (hr : o ≠ .reset)
    {A : ℕ → ℕ → Bool → Finset ℕ} (hA : Agree A s) : Agree (specStep fit0 s o A) (step fit0 s o).2 := by
  intro i k b hi hk
  have hl := len_other fit0 h o hsel hn
  rw [spec_other fit0 s o hsel hn, others fit0 s o hsel hr i k b (by omega) (by omega)]
  exact hA i k b (by omega) (by omega)

theorem step_spec (fit0 : Φ) {s : St K Φ} (h : Inv s) (o : Op K Φ) (hu : (step fit0 s o).1 ≠ .ub)
    {A : ℕ → ℕ → Bool → Finset ℕ} (hA : Agree A s) : Agree (specStep fit0 s o A) (step fit0 s o).2 := by
  cases hr : (step fit0 s o).1 with
  | ub => exact absurd hr hu
  | err e =>
    -- a call that raises: selection calls change nothing, the others no selection
    have e1 : specStep fit0 s o A = A := by
      unfold specStep
      rw [hr]
    rw [e1]
    cases hsel : isSel o with
    | true => rw [raises_unchanged fit0 s o hsel e hr]; exact hA
    | false =>
      have hreset : o ≠ .reset := by
        rintro rfl
        simp [step] at hr
      have hlen := len_other fit0 h o hsel (by
        rintro (⟨p, rfl⟩ | ⟨p, rfl⟩) <;> simp [step, lift] at hr)
      intro i k b hi hk
      rw [others fit0 s o hsel hreset i k b (by omega) (by omega)]
      exact hA i k b (by omega) (by omega)
  | ok x =>
    cases o with
    | selType ip ij sym flag =>
      obtain ⟨s', h1⟩ := lift_ok hr
      rw [Res.bind_eq_ok] at h1
      obtain ⟨r, h2, h3⟩ := h1
      obtain ⟨hv, _, _⟩ := valid_of_check h h2
      obtain ⟨e1, e2, e3⟩ := vals h hv
      cases hl : r.2.2.look sym with
      | none => rw [hl] at h3; simp at h3
      | some t =>
        obtain ⟨_, h4, h5⟩ := by_type fit0 hv sym t hl flag
        have e : specStep fit0 s (.selType ip ij sym flag) A = replaced A r.1 r.2.1 (decide (ij = 'i'))
            (if flag then A r.1 r.2.1 (decide (ij = 'i')) ∪ ofType r.2.2 t
              else A r.1 r.2.1 (decide (ij = 'i')) \ ofType r.2.2 t) := by
          unfold specStep
          simp only [hr, hv.cur, e1, hv.ph, hl]
        rw [e]
        refine agree_replaced hA h4 h5 ?_
        rw [hA _ _ _ e2 e3]
    | selIndex ip ij a flag =>
      obtain ⟨s', h1⟩ := lift_ok hr
      rw [Res.bind_eq_ok] at h1
      obtain ⟨r, h2, h3⟩ := h1
      obtain ⟨hv, ha1, ha2⟩ := valid_of_check h h2
      obtain ⟨e1, e2, e3⟩ := vals h hv
      have ea : a = ((a - 1).toNat : ℤ) + 1 := by omega
      obtain ⟨_, h4, h5⟩ := by_index fit0 hv (a - 1).toNat (by omega) flag
      rw [← ea] at h4 h5
      have e : specStep fit0 s (.selIndex ip ij a flag) A = replaced A r.1 r.2.1 (decide (ij = 'i'))
          (if flag then insert (a - 1).toNat (A r.1 r.2.1 (decide (ij = 'i')))
            else (A r.1 r.2.1 (decide (ij = 'i'))).erase (a - 1).toNat) := by
        unfold specStep
        simp only [hr, hv.cur, e1]
      rw [e]
      refine agree_replaced hA h4 h5 ?_
      rw [hA _ _ _ e2 e3]
    | selAll ip ij =>
      obtain ⟨s', h1⟩ := lift_ok hr
      rw [Res.bind_eq_ok] at h1
      obtain ⟨r, h2, h3⟩ := h1
      obtain ⟨hv, _, _⟩ := valid_of_check h h2
      obtain ⟨e1, e2, e3⟩ := vals h hv
      obtain ⟨_, h4, h5⟩ := all fit0 hv
      have e : specStep fit0 s (.selAll ip ij) A = replaced A r.1 r.2.1 (decide (ij = 'i')) (Finset.range r.2.2.natoms) := by
        unfold specStep
        simp only [hr, hv.cur, e1, hv.ph]
      rw [e]
      exact agree_replaced hA h4 h5 rfl
    | selNone ip ij =>
      obtain ⟨s', h1⟩ := lift_ok hr
      rw [Res.bind_eq_ok] at h1
      obtain ⟨r, h2, h3⟩ := h1
      obtain ⟨hv, _, _⟩ := valid_of_check h h2
      obtain ⟨e1, e2, e3⟩ := vals h hv
      obtain ⟨_, h4, h5⟩ := none fit0 hv
      have e : specStep fit0 s (.selNone ip ij) A = replaced A r.1 r.2.1 (decide (ij = 'i')) ∅ := by
        unfold specStep
        simp only [hr, hv.cur, e1]
      rw [e]
      exact agree_replaced hA h4 h5 rfl
    | readStruct r =>
      cases r with
      | err e => simp [step, lift] at hr
      | ub => simp [step, lift] at hr
      | ok p =>
        have e0 : (step fit0 s (.readStruct (.ok p))).2 = addPhase s p := rfl
        intro i k b hi hk
        have hi' : i < s.sets.length := by rw [e0, addPhase_eq] at hi; simpa using hi
        have hk' : k < s.phases.length + 1 := by rw [e0, addPhase_eq] at hk; simpa using hk
        have e : specStep fit0 s (.readStruct (.ok p)) A i k b = if k = s.phases.length then Finset.range p.natoms
            else A i k b := by
          unfold specStep
          rw [hr]
        rw [e]
        by_cases hkk : k = s.phases.length
        · rw [if_pos hkk, hkk]
          exact (fresh fit0 h b).2 p i hi'
        · rw [if_neg hkk, others fit0 s _ rfl (by simp) i k b hi' (by omega)]
          exact hA i k b hi' (by omega)
    | readData r =>
      cases r with
      | err e => simp [step, lift] at hr
      | ub => simp [step, lift] at hr
      | ok p =>
        have e0 : (step fit0 s (.readData (.ok p))).2 = addData s p := rfl
        intro i k b hi hk
        have hi' : i < s.sets.length + 1 := by rw [e0, addData_eq] at hi; simpa using hi
        have hk' : k < s.phases.length := by rw [e0, addData_eq] at hk; simpa using hk
        have e : specStep fit0 s (.readData (.ok p)) A i k b = if i = s.sets.length then
            (match s.phases[k]? with | some p => Finset.range p.natoms | Option.none => ∅) else A i k b := by
          unfold specStep
          rw [hr]
        rw [e]
        by_cases hii : i = s.sets.length
        · rw [if_pos hii, hii, (fresh fit0 h b).1 p k _ (List.getElem?_eq_getElem hk'), List.getElem?_eq_getElem hk']
        · rw [if_neg hii, others fit0 s _ rfl (by simp) i k b (by omega) hk']
          exact hA i k b (by omega) hk'
    | reset => intro i k b hi; simp [step, reset] at hi
    | _ => exact agree_other fit0 h _ rfl (by simp) (by simp) hA

/-- The specification of a sequence of calls (a call with undefined behaviour ends the sequence). -/
def specRun (fit0 : Φ) (s : St K Φ) (A : ℕ → ℕ → Bool → Finset ℕ) : List (Op K Φ) → ℕ → ℕ → Bool → Finset ℕ
  | [] => A
  | o :: l =>
    match (step fit0 s o).1 with
    | .ub => A
    | _ => specRun fit0 (step fit0 s o).2 (specStep fit0 s o A) l

/-- **C25**: after any sequence of calls from the empty engine the selected sets are what the corresponding set
operations give, for every loaded data set, phase and side. -/
theorem sequence (fit0 : Φ) (l : List (Op K Φ)) (A : ℕ → ℕ → Bool → Finset ℕ) :
    Agree (specRun fit0 (init fit0) A l) (run fit0 (init fit0 : St K Φ) l).2 := by
  have key : ∀ (l : List (Op K Φ)) (s : St K Φ) (A : ℕ → ℕ → Bool → Finset ℕ), Inv s → Agree A s →
      Agree (specRun fit0 s A l) (run fit0 s l).2 := by
    intro l
    induction l with
    | nil => intro s A _ hA; exact hA
    | cons o l ih =>
      intro s A h hA
      unfold specRun run
      cases hr : (step fit0 s o).1 with
      | ub => exact hA
      | ok x => exact ih _ _ (inv_step fit0 h o) (step_spec fit0 h o (by rw [hr]; simp) hA)
      | err x => exact ih _ _ (inv_step fit0 h o) (step_spec fit0 h o (by rw [hr]; simp) hA)
  exact key l _ A (inv_init fit0) fun i k b hi => by simp [init] at hi

/-! ### Witnesses -/

def ph2 : Ph ℚ := ⟨[0, 1, 0], fun s => if s = "Na" then some 0 else if s = "Cl" then some 1 else .none, fun _ => 7⟩
def raw1 : Raw ℚ := ⟨fun _ => 1, 0, 10⟩

/-- **Violation**: selecting atoms of a phase that is excluded from the data set dereferences a null pointer. -/
theorem deselected : (run () (init ()) [.readStruct (.ok ph2), .readData (.ok raw1), .pdesel 1, .selAll 1 'i'] : _ × St ℚ Unit).1 =
    [.ok .unit, .ok .unit, .ok .unit, .ub] := by decide +kernel

def demo : St ℚ Unit := (run () (init ()) [.readStruct (.ok ph2), .readData (.ok raw1), .selNone 1 'j',
  .selType 1 'j' "Na" true, .selIndex 1 'j' 1 false, .selType 1 'i' "Cl" false]).2

example : selected demo 0 0 false = {2} ∧ selected demo 0 0 true = {0, 2} := by decide +kernel

end Pdffit.C25
