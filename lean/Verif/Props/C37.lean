import Verif.Model.Scat
import Mathlib.Tactic.Tauto

/-!
# C37: set_scat changes one element of one phase and one radiation

The specification is a machine that stores, for every phase, element and radiation, the latest value that has been set since the last reset
(`Spec`); elements are the symbols of the entries found by `lookup`. `get_after` says that after every sequence of calls `get_scat`
returns what the specification says, and that the other calls raise exactly when the specification says so; `independent` states the consequence that
other phases, elements and radiations are unaffected. `atoms_follow` says that the atoms of a phase see the same values.

The theorems hold for every consistent table (`Cons`); C38 proves that the table of the program is one.
-/

namespace Pdffit.C37
open Scat

/-- Every entry is found under its own symbol. -/
structure Cons (p : PT) : Prop where
  sym : ∀ s e, p.symbol_index s = some e → p.symbol_index e.symbol = some e
  name : ∀ s e, p.name_index s = some e → p.symbol_index e.symbol = some e

/-- Radiations -/
inductive Rad where | x | n
  deriving DecidableEq

/-- The radiation of a character. -/
def rad (c : Char) : Option Rad :=
  if c = 'x' ∨ c = 'X' then some .x else if c = 'n' ∨ c = 'N' then some .n else none

/-- The tabulated value. -/
def std (e : AtomType) : Rad → Rat
  | .x => e.xsf
  | .n => e.nsf

/-- The entry found for a pattern. -/
def elem (p : PT) (pat : Bytes) : Option AtomType :=
  match p.symbol_index (norm pat) with
  | some e => some e
  | none => p.name_index (norm pat)

/-- The state of the specification: number of phases, current phase, values set (`none`: tabulated). -/
structure Spec where
  n : Nat
  cur : Option Nat
  V : Nat → Bytes → Rad → Option Rat

def Spec.init : Spec := ⟨0, none, fun _ _ _ => none⟩

/-- Result and state after a call according to the specification. -/
def Spec.step (p : PT) (t : Spec) : Op → Res (Option Rat) × Spec
  | .set tp pat v =>
    match t.cur, elem p pat, rad tp with
    | none, _, _ => (.err .unassigned, t)
    | some _, none, _ => (.err .value, t)
    | some _, some _, none => (.err .runtime, t)
    | some k, some e, some r =>
      (.ok none, { t with V := fun k' s' r' => if k' = k ∧ s' = e.symbol ∧ r' = r then some v else t.V k' s' r' })
  | .reset pat =>
    match t.cur, elem p pat with
    | none, _ => (.err .unassigned, t)
    | some _, none => (.err .value, t)
    | some k, some e => (.ok none, { t with V := fun k' s' r' => if k' = k ∧ s' = e.symbol then none else t.V k' s' r' })
  | .get tp pat =>
    match elem p pat, rad tp with
    | none, _ => (.err .value, t)
    | some _, none => (.err .value, t)
    | some e, some r =>
      match t.cur with
      | none => (.ok (some (std e r)), t)
      | some k => (.ok (some ((t.V k e.symbol r).getD (std e r))), t)
  | .newPhase atoms =>
    if ∀ a ∈ atoms, elem p a ≠ none then
      (.ok none, { n := t.n + 1, cur := some t.n, V := fun k s r => if k = t.n then none else t.V k s r })
    else (.err .value, t)
  | .setphase k => if k < t.n then (.ok none, { t with cur := some k }) else (.err .unassigned, t)
  | .touch k pat =>
    if k < t.n then
      match elem p pat with
      | none => (.err .value, t)
      | some _ => (.ok none, t)
    else (.err .unassigned, t)

/-- The specification after a sequence of calls. -/
def Spec.run (p : PT) (t : Spec) (l : List Op) : Spec := l.foldl (fun t o => (t.step p o).2) t

/-! ### Local tables -/

/-- A local table holds the values `W` for the elements of `p`. -/
structure Holds (p : PT) (l : Local) (W : Bytes → Rad → Option Rat) : Prop where
  known : ∀ s e, l s = some e → ∃ e0, p.symbol_index s = some e0 ∧ e0.symbol = s ∧ e.symbol = s ∧
    ∀ r, std e r = (W s r).getD (std e0 r)
  absent : ∀ s, l s = none → ∀ r, W s r = none

theorem holds_empty (p : PT) : Holds p (fun _ => none) (fun _ _ => none) :=
  ⟨fun s e h => by simp at h, fun _ _ _ => rfl⟩

theorem lookup_elem (p : PT) (pat : Bytes) :
    toValue (p.lookup pat) = match elem p pat with | some e => .ok e | none => .err .value := by
  unfold PT.lookup elem
  cases p.symbol_index (norm pat) with
  | some e => rfl
  | none =>
    dsimp only
    cases p.name_index (norm pat) with
    | some e => rfl
    | none => rfl

theorem elem_self {p : PT} (hp : Cons p) {pat : Bytes} {e : AtomType} (h : elem p pat = some e) :
    p.symbol_index e.symbol = some e := by
  unfold elem at h
  cases hs : p.symbol_index (norm pat) with
  | some e' => rw [hs] at h; injection h with h; subst h; exact hp.sym _ _ hs
  | none => rw [hs] at h; exact hp.name _ _ h

/-- The values of the entry of a symbol. -/
theorem local_symbol_ok {p : PT} {l : Local} {W : Bytes → Rad → Option Rat} (hl : Holds p l W) {e0 : AtomType}
    (h0 : p.symbol_index e0.symbol = some e0) :
    ∃ e l', local_symbol p l e0.symbol = .ok (e, l') ∧ Holds p l' W ∧ l' e0.symbol = some e ∧ e.symbol = e0.symbol ∧
      ∀ r, std e r = (W e0.symbol r).getD (std e0 r) := by
  unfold local_symbol
  cases hs : l e0.symbol with
  | some e =>
    obtain ⟨e1, h1, _, h3, h4⟩ := hl.known _ _ hs
    rw [h0] at h1
    injection h1 with h1
    subst h1
    exact ⟨e, l, rfl, hl, hs, h3, h4⟩
  | none =>
    have hw := hl.absent _ hs
    refine ⟨e0, l.put e0.symbol e0, ?_, ⟨?_, ?_⟩, by simp [Local.put], rfl, fun r => by rw [hw]; rfl⟩
    · simp only [PT.symbol, h0, toValue, Res.bind_ok]
    · intro s e h
      unfold Local.put at h
      split_ifs at h with hc
      · injection h with h
        subst h hc
        exact ⟨e0, h0, rfl, rfl, fun r => by rw [hw]; rfl⟩
      · exact hl.known s e h
    · intro s h
      unfold Local.put at h
      split_ifs at h
      exact hl.absent s h

theorem llookup_none {p : PT} (l : Local) {pat : Bytes} (h : elem p pat = none) : llookup p l pat = .err .value := by
  unfold llookup
  rw [lookup_elem, h]
  rfl

theorem llookup_ok {p : PT} (hp : Cons p) {l : Local} {W : Bytes → Rad → Option Rat} (hl : Holds p l W) {pat : Bytes}
    {e0 : AtomType} (h : elem p pat = some e0) :
    ∃ e l', llookup p l pat = .ok (e, l') ∧ Holds p l' W ∧ l' e0.symbol = some e ∧ e.symbol = e0.symbol ∧
      ∀ r, std e r = (W e0.symbol r).getD (std e0 r) := by
  obtain ⟨e, l', h1, h2⟩ := local_symbol_ok hl (elem_self hp h)
  refine ⟨e, l', ?_, h2⟩
  unfold llookup
  rw [lookup_elem, h]
  exact h1

theorem looked_holds {p : PT} (hp : Cons p) {l : Local} {W : Bytes → Rad → Option Rat} (hl : Holds p l W) (pat : Bytes) :
    Holds p (looked p l pat) W := by
  unfold looked
  cases h : elem p pat with
  | none => rw [llookup_none l h]; exact hl
  | some e0 =>
    obtain ⟨e, l', h1, h2, _⟩ := llookup_ok hp hl h
    rw [h1]
    exact h2

/-- Setting a value. -/
theorem set_ok {p : PT} (hp : Cons p) {l : Local} {W : Bytes → Rad → Option Rat} (hl : Holds p l W) {pat : Bytes}
    {e0 : AtomType} (h : elem p pat = some e0) (tp : Char) (v : Rat) :
    match rad tp with
    | none => set_scat p l tp pat v = .err .runtime
    | some r => ∃ l', set_scat p l tp pat v = .ok l' ∧
        Holds p l' fun s' r' => if s' = e0.symbol ∧ r' = r then some v else W s' r' := by
  obtain ⟨e, l', h1, h2, h3, h4, h5⟩ := llookup_ok hp hl h
  have h0 := elem_self hp h
  have hls : local_symbol p l' e.symbol = .ok (e, l') := by
    unfold local_symbol
    rw [h4, h3]
  have key : ∀ (r : Rad) (e' : AtomType), e'.symbol = e.symbol → std e' r = v → (∀ r', r' ≠ r → std e' r' = std e r') →
      Holds p (l'.put e.symbol e') fun s' r' => if s' = e0.symbol ∧ r' = r then some v else W s' r' := by
    intro r e' he hv ho
    constructor
    · intro s x hx
      unfold Local.put at hx
      split_ifs at hx with hc
      · injection hx with hx
        subst hx hc
        refine ⟨e0, by rw [h4]; exact h0, h4.symm, he, fun r' => ?_⟩
        by_cases hr : r' = r
        · rw [if_pos ⟨h4, hr⟩, hr]; exact hv
        · rw [if_neg fun h => hr h.2, ho r' hr, h5, h4]
      · obtain ⟨e1, a1, a2, a3, a4⟩ := h2.known s x hx
        refine ⟨e1, a1, a2, a3, fun r' => ?_⟩
        rw [if_neg fun h => hc (by rw [h4]; exact h.1)]
        exact a4 r'
    · intro s hx r'
      unfold Local.put at hx
      split_ifs at hx with hc
      rw [if_neg fun h => hc (by rw [h4]; exact h.1)]
      exact h2.absent s hx r'
  unfold rad
  by_cases hx : tp = 'x' ∨ tp = 'X'
  · have hn : ¬ (tp = 'n' ∨ tp = 'N') := by rcases hx with rfl | rfl <;> decide
    rw [if_pos hx]
    refine ⟨l'.put e.symbol { e with xsf := v }, ?_, key .x _ rfl rfl ?_⟩
    · unfold set_scat lset
      rw [h1, Res.bind_ok, if_neg hn, if_pos hx, hls, Res.bind_ok]
    · intro r' hr; cases r' with
      | x => exact absurd rfl hr
      | n => rfl
  · rw [if_neg hx]
    by_cases hn : tp = 'n' ∨ tp = 'N'
    · rw [if_pos hn]
      refine ⟨l'.put e.symbol { e with nsf := v }, ?_, key .n _ rfl rfl ?_⟩
      · unfold set_scat lset
        rw [h1, Res.bind_ok, if_pos hn, hls, Res.bind_ok]
      · intro r' hr; cases r' with
        | n => exact absurd rfl hr
        | x => rfl
    · rw [if_neg hn]
      change set_scat p l tp pat v = .err .runtime
      unfold set_scat
      rw [h1, Res.bind_ok, if_neg hn, if_neg hx]

/-- Resetting an element. -/
theorem reset_ok {p : PT} (hp : Cons p) {l : Local} {W : Bytes → Rad → Option Rat} (hl : Holds p l W) {pat : Bytes}
    {e0 : AtomType} (h : elem p pat = some e0) :
    ∃ l', reset_scat p l pat = .ok l' ∧ Holds p l' fun s' r' => if s' = e0.symbol then none else W s' r' := by
  obtain ⟨e, l', h1, h2, h3, h4, h5⟩ := llookup_ok hp hl h
  have h0 := elem_self hp h
  refine ⟨l'.put e.symbol e0, ?_, ?_⟩
  · unfold reset_scat lreset PT.symbol
    rw [h1, Res.bind_ok]
    dsimp only
    rw [h4, h0, h3]
    rfl
  · constructor
    · intro s x hx
      unfold Local.put at hx
      split_ifs at hx with hc
      · injection hx with hx
        subst hx hc
        refine ⟨e0, by rw [h4]; exact h0, h4.symm, h4.symm, fun r' => ?_⟩
        rw [if_pos h4]
        rfl
      · obtain ⟨e1, a1, a2, a3, a4⟩ := h2.known s x hx
        refine ⟨e1, a1, a2, a3, fun r' => ?_⟩
        rw [if_neg fun h => hc (by rw [h4]; exact h)]
        exact a4 r'
    · intro s hx r'
      unfold Local.put at hx
      split_ifs at hx with hc
      rw [if_neg fun h => hc (by rw [h4]; exact h)]
      exact h2.absent s hx r'

theorem readAtoms_holds {p : PT} (hp : Cons p) {U W : Bytes → Rad → Option Rat} (as : List Bytes) :
    ∀ {c l : Local}, Holds p c U → Holds p l W → ∃ c' r, readAtoms p c l as = (c', r) ∧ Holds p c' U ∧
      (if ∀ a ∈ as, elem p a ≠ none then ∃ l', r = .ok l' ∧ Holds p l' W else r = .err .value) := by
  induction as with
  | nil => intro c l hc h; exact ⟨c, .ok l, rfl, hc, by simp [h]⟩
  | cons a as ih =>
    intro c l hc h
    unfold readAtoms
    cases he : elem p a with
    | none =>
      refine ⟨c, .err .value, by rw [llookup_none c he], hc, ?_⟩
      rw [if_neg fun hh => hh a (by simp) he]
    | some e0 =>
      obtain ⟨e, c1, h1, h2, _, h4, _⟩ := llookup_ok hp hc he
      obtain ⟨f, l1, g1, g2, _⟩ := local_symbol_ok h (elem_self hp he)
      obtain ⟨c', r, i1, i2, i3⟩ := ih h2 g2
      refine ⟨c', r, ?_, i2, ?_⟩
      · rw [h1]
        dsimp only
        rw [h4, g1]
        exact i1
      · simpa [he] using i3

/-! ### The engine -/

/-- The engine is in the state described by the specification. -/
structure Sim (p : PT) (s : St) (t : Spec) : Prop where
  len : s.phases.length = t.n
  cur : s.cur = t.cur
  lt : ∀ k, t.cur = some k → k < t.n
  tab : ∀ (k : Nat) (l : Local), s.phases[k]? = some l → Holds p l (t.V k)
  common : Holds p s.common fun _ _ => none

theorem curLocal_none {p : PT} {s : St} {t : Spec} (h : Sim p s t) (hc : t.cur = none) : s.curLocal = none := by
  unfold St.curLocal
  rw [h.cur, hc]
  rfl

theorem curLocal_some {p : PT} {s : St} {t : Spec} (h : Sim p s t) {k : Nat} (hc : t.cur = some k) :
    ∃ l, s.curLocal = some (k, l) ∧ s.phases[k]? = some l ∧ Holds p l (t.V k) := by
  have hk : k < s.phases.length := by rw [h.len]; exact h.lt k hc
  refine ⟨s.phases[k], ?_, List.getElem?_eq_getElem hk, h.tab k _ (List.getElem?_eq_getElem hk)⟩
  unfold St.curLocal
  rw [h.cur, hc]
  simp [List.getElem?_eq_getElem hk]

theorem sim_put {p : PT} {s : St} {t : Spec} (h : Sim p s t) {k : Nat} {l : Local} {V : Nat → Bytes → Rad → Option Rat}
    (hl : Holds p l (V k)) (hV : ∀ k', k' ≠ k → V k' = t.V k') :
    Sim p { s with phases := s.phases.set k l } { t with V := V } := by
  refine ⟨by simp [h.len], h.cur, h.lt, ?_, h.common⟩
  intro k' l' hk'
  dsimp only at hk' ⊢
  rw [List.getElem?_set] at hk'
  split_ifs at hk' with h1 h2
  · injection hk' with hk'
    subst hk' h1
    exact hl
  · rw [hV k' fun e => h1 e.symm]
    exact h.tab k' l' hk'

theorem get_value {p : PT} (hp : Cons p) {l : Local} {W : Bytes → Rad → Option Rat} (hl : Holds p l W) (tp : Char) (pat : Bytes) :
    scatValue (get_scat p l tp pat) = match elem p pat, rad tp with
      | none, _ => .err .value
      | some _, none => .err .value
      | some e, some r => .ok (some ((W e.symbol r).getD (std e r))) := by
  unfold scatValue get_scat
  cases h : elem p pat with
  | none => rw [llookup_none l h]; rfl
  | some e0 =>
    obtain ⟨e, l', h1, _, _, _, h5⟩ := llookup_ok hp hl h
    rw [h1, Res.bind_ok]
    unfold AtomType.sf rad
    by_cases hx : tp = 'x' ∨ tp = 'X'
    · have := h5 .x
      simp only [if_pos hx, toValue, Res.bind_ok]
      rw [← this]
      rfl
    · by_cases hn : tp = 'n' ∨ tp = 'N'
      · have := h5 .n
        simp only [if_neg hx, if_pos hn, toValue, Res.bind_ok]
        rw [← this]
        rfl
      · simp only [if_neg hx, if_neg hn]
        rfl

/-- One call. -/
theorem step_sim {p : PT} (hp : Cons p) {s : St} {t : Spec} (h : Sim p s t) (o : Op) :
    (step p s o).1 = (t.step p o).1 ∧ Sim p (step p s o).2 (t.step p o).2 := by
  cases o with
  | set tp pat v =>
    cases hc : t.cur with
    | none =>
      simp only [step, Spec.step, curLocal_none h hc, hc]
      exact ⟨trivial, h⟩
    | some k =>
      obtain ⟨l, h1, h2, h3⟩ := curLocal_some h hc
      simp only [step, Spec.step, h1, hc]
      have hlk := sim_put h (V := t.V) (looked_holds hp h3 pat) fun _ _ => rfl
      cases he : elem p pat with
      | none =>
        have : set_scat p l tp pat v = .err .value := by
          unfold set_scat
          rw [llookup_none l he]
          rfl
        rw [this]
        exact ⟨rfl, hlk⟩
      | some e0 =>
        have hs := set_ok hp h3 he tp v
        cases hr : rad tp with
        | none =>
          rw [hr] at hs
          rw [hs]
          exact ⟨rfl, hlk⟩
        | some r =>
          rw [hr] at hs
          obtain ⟨l', h4, h5⟩ := hs
          rw [h4]
          have hs := sim_put h (k := k) (l := l') (V := fun k' s' r' => if k' = k ∧ s' = e0.symbol ∧ r' = r then some v else t.V k' s' r')
            (by simpa using h5) ?_
          · rw [hc] at hs
            exact ⟨rfl, hs⟩
          · intro k' hk'
            funext s' r'
            rw [if_neg fun h => hk' h.1]
  | reset pat =>
    cases hc : t.cur with
    | none =>
      simp only [step, Spec.step, curLocal_none h hc, hc]
      exact ⟨trivial, h⟩
    | some k =>
      obtain ⟨l, h1, h2, h3⟩ := curLocal_some h hc
      simp only [step, Spec.step, h1, hc]
      cases he : elem p pat with
      | none =>
        have : reset_scat p l pat = .err .value := by
          unfold reset_scat
          rw [llookup_none l he]
          rfl
        rw [this]
        exact ⟨rfl, sim_put h (V := t.V) (looked_holds hp h3 pat) fun _ _ => rfl⟩
      | some e0 =>
        obtain ⟨l', h4, h5⟩ := reset_ok hp h3 he
        rw [h4]
        have hs := sim_put h (k := k) (l := l') (V := fun k' s' r' => if k' = k ∧ s' = e0.symbol then none else t.V k' s' r')
          (by simpa using h5) ?_
        · rw [hc] at hs
          exact ⟨rfl, hs⟩
        · intro k' hk'
          funext s' r'
          rw [if_neg fun h => hk' h.1]
  | get tp pat =>
    cases hc : t.cur with
    | none =>
      have hv := get_value hp h.common tp pat
      simp only [step, Spec.step, curLocal_none h hc, hc, hv]
      have hs : Sim p { s with common := looked p s.common pat } t := ⟨h.len, h.cur, h.lt, h.tab, looked_holds hp h.common pat⟩
      cases elem p pat with
      | none => exact ⟨rfl, hs⟩
      | some e => cases rad tp <;> exact ⟨rfl, hs⟩
    | some k =>
      obtain ⟨l, h1, h2, h3⟩ := curLocal_some h hc
      have hv := get_value hp h3 tp pat
      simp only [step, Spec.step, h1, hc, hv]
      have hs := sim_put h (V := t.V) (looked_holds hp h3 pat) fun _ _ => rfl
      cases elem p pat with
      | none => exact ⟨rfl, hs⟩
      | some e => cases rad tp <;> exact ⟨rfl, hs⟩
  | newPhase atoms =>
    obtain ⟨c', r, h1, h2, h3⟩ := readAtoms_holds hp atoms h.common (holds_empty p)
    simp only [step, Spec.step, h1]
    split_ifs at h3 ⊢ with ha
    · obtain ⟨l', rfl, hl'⟩ := h3
      refine ⟨rfl, ?_⟩
      refine ⟨by simp [St.addPhase, h.len], by simp [St.addPhase, h.len], ?_, ?_, h2⟩
      · intro k hk
        simp only [Option.some.injEq] at hk ⊢
        omega
      · intro k l hk
        simp only [St.addPhase] at hk ⊢
        by_cases hlt : k < s.phases.length
        · rw [List.getElem?_append_left hlt] at hk
          have hne : k ≠ t.n := by rw [← h.len]; omega
          simp only [if_neg hne]
          exact h.tab k l hk
        · have hk' : k = s.phases.length := by
            by_contra hne
            rw [List.getElem?_eq_none (by simp; omega)] at hk
            simp at hk
          subst hk'
          rw [List.getElem?_append_right (by omega)] at hk
          simp only [Nat.sub_self, List.getElem?_cons_zero, Option.some.injEq] at hk
          subst hk
          simp only [if_pos h.len]
          exact hl'
    · subst h3
      exact ⟨rfl, h.len, h.cur, h.lt, h.tab, h2⟩
  | setphase k =>
    simp only [step, Spec.step, h.len]
    split_ifs with hk
    · refine ⟨rfl, h.len, rfl, ?_, h.tab, h.common⟩
      intro k' hk'
      injection hk' with hk'
      dsimp only
      omega
    · exact ⟨rfl, h⟩
  | touch k pat =>
    simp only [step, Spec.step]
    by_cases hk : k < t.n
    · have hk' : k < s.phases.length := by rw [h.len]; exact hk
      rw [List.getElem?_eq_getElem hk', if_pos hk]
      have h3 := h.tab k _ (List.getElem?_eq_getElem hk')
      cases he : elem p pat with
      | none =>
        simp only [llookup_none _ he]
        exact ⟨rfl, sim_put h (V := t.V) h3 fun _ _ => rfl⟩
      | some e0 =>
        obtain ⟨e, l', h1, h2, _⟩ := llookup_ok hp h3 he
        simp only [h1]
        exact ⟨rfl, sim_put h (V := t.V) h2 fun _ _ => rfl⟩
    · rw [List.getElem?_eq_none (by rw [h.len]; omega), if_neg hk]
      exact ⟨rfl, h⟩

theorem run_sim {p : PT} (hp : Cons p) (l : List Op) {s : St} {t : Spec} (h : Sim p s t) : Sim p (run p s l) (t.run p l) := by
  induction l generalizing s t with
  | nil => exact h
  | cons o l ih => exact ih (step_sim hp h o).2

/-- The common table holds copies of standard entries only, in every process that has run any number of engines. -/
def Std (p : PT) (l : Local) : Prop := Holds p l fun _ _ => none

theorem init_sim {p : PT} {c : Local} (hc : Std p c) : Sim p (St.init c) Spec.init :=
  ⟨rfl, rfl, fun k hk => by simp [Spec.init] at hk, fun k l hk => by simp [St.init] at hk, hc⟩

/-- An engine leaves the common table in such a state. -/
theorem common_std {p : PT} (hp : Cons p) {c : Local} (hc : Std p c) (l : List Op) : Std p (run p (St.init c) l).common :=
  (run_sim hp l (init_sim hc)).common

/-- **C37**: after every sequence of calls the next call, in particular `get_scat`, has the result of the specification. -/
theorem get_after {p : PT} (hp : Cons p) {c : Local} (hc : Std p c) (l : List Op) (o : Op) :
    (step p (run p (St.init c) l) o).1 = ((Spec.init.run p l).step p o).1 :=
  (step_sim hp (run_sim hp l (init_sim hc)) o).1

/-- The atoms of a phase point to entries of its table: the scattering factor of an atom of an element is the value that `get_scat` returns
for the element. -/
theorem atoms_follow {p : PT} (hp : Cons p) {c : Local} (hc : Std p c) (l : List Op) (k : Nat) (tab : Local)
    (hk : (run p (St.init c) l).phases[k]? = some tab) (sym : Bytes) (e : AtomType) (he : tab sym = some e) (r : Rad) :
    ∃ e0, p.symbol_index sym = some e0 ∧ std e r = ((Spec.init.run p l).V k sym r).getD (std e0 r) := by
  obtain ⟨e0, h1, _, _, h4⟩ := ((run_sim hp l (init_sim hc)).tab k tab hk).known sym e he
  exact ⟨e0, h1, h4 r⟩

/-- A table with sodium ("Na", "Sodium") and chlorine ("Cl", "Chlorine"). -/
def salt : PT :=
  let na : AtomType := ⟨[78, 97], [83, 111, 100, 105, 117, 109], false, 11, 23, 0, 1, 11, 363 / 100⟩
  let cl : AtomType := ⟨[67, 108], [67, 104, 108, 111, 114, 105, 110, 101], false, 17, 35, 0, 1, 17, 957 / 100⟩
  ⟨fun s => if s = na.symbol then some na else if s = cl.symbol then some cl else none,
    fun s => if s = na.name then some na else if s = cl.name then some cl else none⟩

theorem salt_cons : Cons salt := by
  constructor
  · intro s e h
    unfold salt at h ⊢
    dsimp only at h ⊢
    split_ifs at h <;> (injection h with h; subst h; rfl)
  · intro s e h
    unfold salt at h ⊢
    dsimp only at h ⊢
    split_ifs at h <;> (injection h with h; subst h; rfl)

/-- Two phases of sodium chloride: the x-ray factor of sodium is set to 5 in the first one, by "NA" and then read by "sodium". -/
def salts : List Op :=
  [.newPhase [[78, 97], [67, 108]], .newPhase [[78, 97]], .setphase 0, .set 'x' [78, 65] 7, .set 'X' [78, 65] 5, .set 'n' [110, 97] 2]

example : (step salt (run salt (St.init fun _ => none) salts) (.get 'x' [115, 111, 100, 105, 117, 109])).1 = .ok (some 5) := rfl
example : (step salt (run salt (St.init fun _ => none) (salts ++ [.setphase 1])) (.get 'x' [78, 97])).1 = .ok (some 11) := rfl
example : (step salt (run salt (St.init fun _ => none) (salts ++ [.reset [78, 97]])) (.get 'x' [78, 97])).1 = .ok (some 11) := rfl
example : (step salt (run salt (St.init fun _ => none) salts) (.get 'x' [67, 108])).1 = .ok (some 17) := rfl
example (o : Op) : (step salt (run salt (St.init fun _ => none) salts) o).1 = ((Spec.init.run salt salts).step salt o).1 :=
  get_after salt_cons (holds_empty salt) salts o

/-- In the specification a call changes the value of at most one element of the current phase, and `set_scat` only that of one radiation. -/
theorem independent (p : PT) (t : Spec) (o : Op) (k : Nat) (sym : Bytes) (r : Rad) (hk : k < t.n)
    (h : (t.step p o).2.V k sym r ≠ t.V k sym r) :
    t.cur = some k ∧ ((∃ tp pat v e, o = .set tp pat v ∧ elem p pat = some e ∧ e.symbol = sym ∧ rad tp = some r) ∨
      ∃ pat e, o = .reset pat ∧ elem p pat = some e ∧ e.symbol = sym) := by
  cases o with
  | set tp pat v =>
    simp only [Spec.step] at h
    cases hc : t.cur with
    | none => simp [hc] at h
    | some k' =>
      cases he : elem p pat with
      | none => simp [hc, he] at h
      | some e =>
        cases hr : rad tp with
        | none => simp [hc, he, hr] at h
        | some r' =>
          simp only [hc, he, hr] at h
          split_ifs at h with hh
          · exact ⟨by rw [hh.1], .inl ⟨tp, pat, v, e, rfl, he, hh.2.1.symm, by rw [hr, hh.2.2]⟩⟩
          · exact absurd rfl h
  | reset pat =>
    simp only [Spec.step] at h
    cases hc : t.cur with
    | none => simp [hc] at h
    | some k' =>
      cases he : elem p pat with
      | none => simp [hc, he] at h
      | some e =>
        simp only [hc, he] at h
        split_ifs at h with hh
        · exact ⟨by rw [hh.1], .inr ⟨pat, e, rfl, he, hh.2.symm⟩⟩
        · exact absurd rfl h
  | get tp pat =>
    exfalso
    refine h ?_
    simp only [Spec.step]
    cases elem p pat with
    | none => rfl
    | some e =>
      cases rad tp with
      | none => rfl
      | some r => cases t.cur <;> rfl
  | newPhase atoms =>
    simp only [Spec.step] at h
    split_ifs at h
    · dsimp only at h
      rw [if_neg (by omega)] at h
      exact absurd rfl h
    · exact absurd rfl h
  | setphase k' =>
    simp only [Spec.step] at h
    split_ifs at h <;> exact absurd rfl h
  | touch k' pat =>
    simp only [Spec.step] at h
    split_ifs at h
    · cases he : elem p pat with
      | none => simp [he] at h
      | some e => simp [he] at h
    · exact absurd rfl h

end Pdffit.C37
