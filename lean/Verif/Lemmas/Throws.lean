import Verif.Model.Throws
import Mathlib.Tactic.SplitIfs

/-!
# Which exceptions a function can throw: a table, and the proof that it is exact
-/

namespace Pdffit.Throws

open Stm Fn

/-- Exceptions of a statement if function `f` throws `t f`. -/
def eff (t : Fn → List Exc) : Stm → List Exc
  | skip => []
  | may e => [e]
  | call f => t f
  | seq a b => eff t a ++ eff t b
  | alt a b => eff t a ++ eff t b
  | loop a => eff t a
  | conv a c d => ((eff t a).filter (· ≠ c)) ++ (if c ∈ eff t a then [d] else [])

/-- The table. -/
def thr : Fn → List Exc
  | ptLookup | ptSymbol | sf => [.runtime]
  | localSymbol | localLookup | localReset | selectAtomsOf | getScat | resetScat | scatStringXN => [.value]
  | sfXN | setpar => []
  | vget => [.vget]
  | readHeader | lattice => [.structure]
  | readAtoms => [.value]
  | readStruStream | readStructString => [.structure, .value]
  | phaseReadStru | readStruct => [.io, .structure, .value]
  | saveStru | savePdf | saveDif => [.unassigned, .io]
  | saveStruNoFile | Fn.setphase | checkPhase | setdata | selphase | pdesel | getpar | fixpar | lists => [.unassigned]
  | bondLengthAtoms | bondLengthTypes | bondAngle | checkSelect | selectType | selectIndex | selectAll => [.unassigned, .value]
  | scatString | weights | fractions | dsOutput => [.runtime]
  | setScat => [.value, .runtime]
  | alloc | range => [.value]
  | readDataStream | readDataString | readDataArrays => [.data]
  | dsReadData | readData => [.io, .data]
  | applyQmax | gaussj => [.calculation]
  | determine => [.runtime, .calculation]
  | saveRes => [.unassigned, .runtime, .io]
  | constrain => [.constraint]
  | substitutePars | parse | fillVariables | fitSetup => [.parse, .constraint]
  | compute => [.parse]
  | fitTheory | mrqcof | mrqmin => [.parse, .constraint, .structure, .runtime, .calculation]
  | Fn.calc => [.unassigned, .parse, .constraint, .structure, .runtime, .calculation]
  | matMul | matSd => [.other]
  | fitErrors => [.other, .structure]
  | refineStep | refine => [.parse, .constraint, .structure, .runtime, .calculation, .other]
  | phaseFractions => [.unassigned, .runtime]

theorem mem_allFn (f : Fn) : f ∈ allFn := by cases f <;> decide

theorem mem_allApi (a : Api) : a ∈ allApi := by cases a <;> decide

theorem thr_closed (f : Fn) : (∀ e ∈ eff thr (body f), e ∈ thr f) ∧ ∀ e ∈ thr f, e ∈ eff thr (body f) := by
  have h : ∀ f ∈ allFn, (∀ e ∈ eff thr (body f), e ∈ thr f) ∧ ∀ e ∈ thr f, e ∈ eff thr (body f) := by decide +kernel
  exact h f (mem_allFn f)

theorem exec_mem {s : Stm} {o : Option Exc} (h : Exec s o) : ∀ e, o = some e → e ∈ eff thr s := by
  induction h with
  | skip | mayNo _ | loopEnd => intro e he; cases he
  | mayYes e => intro e' he; cases he; simp [eff]
  | call _ ih => intro e he; exact (thr_closed _).1 e (ih e he)
  | seqErr _ ih => intro e he; exact List.mem_append_left _ (ih e he)
  | seqOk _ _ _ ih => intro e he; exact List.mem_append_right _ (ih e he)
  | altL _ ih => intro e he; exact List.mem_append_left _ (ih e he)
  | altR _ ih => intro e he; exact List.mem_append_right _ (ih e he)
  | loopErr _ ih => intro e he; exact ih e he
  | loopNext _ _ _ ih => intro e he; exact ih e he
  | convOk _ _ => intro e he; cases he
  | convHit h ih =>
    intro e he
    cases he
    simp only [eff]
    rw [if_pos (ih _ rfl)]
    simp
  | convPass h hn ih =>
    intro e he
    cases he
    simp only [eff]
    exact List.mem_append_left _ (List.mem_filter.2 ⟨ih _ rfl, by simpa using hn⟩)

/-- Functions called by a statement. -/
def calls : Stm → List Fn
  | skip | may _ => []
  | call f => [f]
  | seq a b | alt a b => calls a ++ calls b
  | loop a | conv a _ _ => calls a

/-- No function calls itself, directly or indirectly. -/
def rank : Fn → Nat
  | ptLookup | ptSymbol | sf | sfXN | vget | lattice | setpar => 0
  | localSymbol | localReset => 1
  | localLookup => 2
  | readHeader => 3
  | readAtoms => 3
  | readStruStream => 4
  | phaseReadStru => 5
  | readStruct => 6
  | readStructString => 5
  | saveStru | saveStruNoFile | Fn.setphase | bondLengthAtoms | bondAngle | checkPhase => 0
  | selectAtomsOf => 3
  | bondLengthTypes => 4
  | scatString | weights | fractions => 1
  | scatStringXN => 3
  | setScat => 4
  | resetScat => 4
  | getScat => 3
  | alloc | readDataStream | readDataArrays | range | setdata | selphase | pdesel | checkSelect | applyQmax => 0
  | dsReadData => 1
  | readData => 2
  | readDataString => 1
  | selectType => 3
  | selectIndex | selectAll => 1
  | determine => 2
  | dsOutput => 2
  | saveRes => 3
  | savePdf | saveDif | constrain | substitutePars | compute | matMul | matSd | gaussj | getpar | fixpar | lists => 0
  | parse => 1
  | fillVariables => 2
  | fitSetup => 3
  | fitTheory => 4
  | Fn.calc => 5
  | fitErrors => 1
  | mrqcof => 5
  | mrqmin => 6
  | refineStep => 7
  | refine => 8
  | phaseFractions => 2

theorem rank_calls (f : Fn) : ∀ g ∈ calls (body f), rank g < rank f := by
  have h : ∀ f ∈ allFn, ∀ g ∈ calls (body f), rank g < rank f := by decide +kernel
  exact h f (mem_allFn f)

theorem exec_none (n : Nat) : ∀ s : Stm, (∀ g ∈ calls s, rank g < n) → Exec s none := by
  induction n with
  | zero =>
    intro s
    induction s with
    | skip => intro _; exact .skip
    | may e => intro _; exact .mayNo e
    | call f => intro h; exact absurd (h f (by simp [calls])) (by omega)
    | seq a b iha ihb =>
      intro h
      exact .seqOk (iha fun g hg => h g (List.mem_append_left _ hg)) (ihb fun g hg => h g (List.mem_append_right _ hg))
    | alt a b iha _ => intro h; exact .altL (iha fun g hg => h g (List.mem_append_left _ hg))
    | loop a _ => intro _; exact .loopEnd
    | conv a c d ih => intro h; exact .convOk (ih h)
  | succ n ihn =>
    intro s
    induction s with
    | skip => intro _; exact .skip
    | may e => intro _; exact .mayNo e
    | call f =>
      intro h
      have := h f (by simp [calls])
      exact .call (ihn _ fun g hg => Nat.lt_of_lt_of_le (rank_calls f g hg) (by omega))
    | seq a b iha ihb =>
      intro h
      exact .seqOk (iha fun g hg => h g (List.mem_append_left _ hg)) (ihb fun g hg => h g (List.mem_append_right _ hg))
    | alt a b iha _ => intro h; exact .altL (iha fun g hg => h g (List.mem_append_left _ hg))
    | loop a _ => intro _; exact .loopEnd
    | conv a c d ih => intro h; exact .convOk (ih h)

theorem exec_normal (s : Stm) : Exec s none := by
  have : ∃ n, ∀ g ∈ calls s, rank g < n := by
    refine ⟨9, fun g _ => ?_⟩
    have h : ∀ f ∈ allFn, rank f < 9 := by decide +kernel
    exact h g (mem_allFn g)
  obtain ⟨n, hn⟩ := this
  exact exec_none n s hn

theorem mem_exec_aux (n : Nat) :
    ∀ s : Stm, (∀ g ∈ calls s, rank g < n) → ∀ e ∈ eff thr s, Exec s (some e) := by
  induction n with
  | zero =>
    intro s
    induction s with
    | skip => intro _ e he; simp [eff] at he
    | may e => intro _ e' he; simp only [eff, List.mem_singleton] at he; subst he; exact .mayYes _
    | call f => intro h; exact absurd (h f (by simp [calls])) (by omega)
    | seq a b iha ihb =>
      intro h e he
      rcases List.mem_append.1 he with h1 | h1
      · exact .seqErr (iha (fun g hg => h g (List.mem_append_left _ hg)) e h1)
      · exact .seqOk (exec_normal a) (ihb (fun g hg => h g (List.mem_append_right _ hg)) e h1)
    | alt a b iha ihb =>
      intro h e he
      rcases List.mem_append.1 he with h1 | h1
      · exact .altL (iha (fun g hg => h g (List.mem_append_left _ hg)) e h1)
      · exact .altR (ihb (fun g hg => h g (List.mem_append_right _ hg)) e h1)
    | loop a ih => intro h e he; exact .loopErr (ih h e he)
    | conv a c d ih =>
      intro h e he
      simp only [eff] at he
      rcases List.mem_append.1 he with h1 | h1
      · obtain ⟨h2, h3⟩ := List.mem_filter.1 h1
        exact .convPass (ih h e h2) (by simpa using h3)
      · split_ifs at h1 with hc
        · simp only [List.mem_singleton] at h1; subst h1; exact .convHit (ih h c hc)
        · simp at h1
  | succ n ihn =>
    intro s
    induction s with
    | skip => intro _ e he; simp [eff] at he
    | may e => intro _ e' he; simp only [eff, List.mem_singleton] at he; subst he; exact .mayYes _
    | call f =>
      intro h e he
      have := h f (by simp [calls])
      exact .call (ihn _ (fun g hg => Nat.lt_of_lt_of_le (rank_calls f g hg) (by omega)) e ((thr_closed f).2 e he))
    | seq a b iha ihb =>
      intro h e he
      rcases List.mem_append.1 he with h1 | h1
      · exact .seqErr (iha (fun g hg => h g (List.mem_append_left _ hg)) e h1)
      · exact .seqOk (exec_normal a) (ihb (fun g hg => h g (List.mem_append_right _ hg)) e h1)
    | alt a b iha ihb =>
      intro h e he
      rcases List.mem_append.1 he with h1 | h1
      · exact .altL (iha (fun g hg => h g (List.mem_append_left _ hg)) e h1)
      · exact .altR (ihb (fun g hg => h g (List.mem_append_right _ hg)) e h1)
    | loop a ih => intro h e he; exact .loopErr (ih h e he)
    | conv a c d ih =>
      intro h e he
      simp only [eff] at he
      rcases List.mem_append.1 he with h1 | h1
      · obtain ⟨h2, h3⟩ := List.mem_filter.1 h1
        exact .convPass (ih h e h2) (by simpa using h3)
      · split_ifs at h1 with hc
        · simp only [List.mem_singleton] at h1; subst h1; exact .convHit (ih h c hc)
        · simp at h1

/-- The table is exact. -/
theorem canThrow_iff (f : Fn) (e : Exc) : CanThrow f e ↔ e ∈ thr f := by
  constructor
  · intro h
    exact (thr_closed f).1 e (exec_mem h e rfl)
  · intro h
    exact mem_exec_aux (rank f) (body f) (rank_calls f) e ((thr_closed f).2 e h)

instance (a : Api) (e : Exc) (p : Py) : Decidable (Corresponds a e p) := by
  unfold Corresponds; split <;> infer_instance

/-- Decidable form of `Covered`. -/
def coveredB (a : Api) : Bool := (thr (entry a)).all fun e => match translate a e with
  | some p => decide (Corresponds a e p)
  | none => false

theorem covered_iff (a : Api) : Covered a ↔ coveredB a = true := by
  unfold Covered coveredB
  rw [List.all_eq_true]
  constructor
  · intro h e he
    obtain ⟨p, hp, hc⟩ := h e ((canThrow_iff _ _).2 he)
    simp [hp, hc]
  · intro h e he
    have := h e ((canThrow_iff _ _).1 he)
    rcases ht : translate a e with _ | p
    · rw [ht] at this; simp at this
    · rw [ht] at this; exact ⟨p, rfl, by simpa using this⟩

end Pdffit.Throws
