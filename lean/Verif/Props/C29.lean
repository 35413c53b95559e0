import Verif.Lemmas.Api
import Mathlib.Data.Rat.Defs
import Mathlib.Algebra.Order.Ring.Rat

/-! # C29: pdfrange is validated and atomic -/

namespace Pdffit.C29
open Api
variable {K Φ : Type} [LinearOrder K]

/-- `rmin < rmax` and both inside the data range. -/
def Good (d : Ds K) (lo hi : K) : Prop := lo < hi ∧ d.rmin ≤ lo ∧ hi ≤ d.rmax

/-- The data set with the fit range changed. -/
def withRange (d : Ds K) (lo hi : K) : Ds K := { d with rfmin := lo, rfmax := hi }

theorem range_iff (d : Ds K) (lo hi : K) : Good d lo hi ↔ d.range lo hi = some (withRange d lo hi) := by
  unfold Ds.range Good withRange
  constructor
  · rintro ⟨h1, h2, h3⟩
    rw [if_pos ⟨h2, (h1.trans_le h3).le, h3, h1⟩]
  · intro h
    split_ifs at h with hc
    exact ⟨hc.2.2.2, hc.1, hc.2.2.1⟩

theorem range_none (d : Ds K) (lo hi : K) (h : ¬ Good d lo hi) : d.range lo hi = none := by
  unfold Ds.range
  rw [if_neg]
  rintro ⟨h1, h2, h3, h4⟩
  exact h ⟨h4, h1, h3⟩

/-- One data set: the call succeeds exactly for good ranges, then the fit range of that data set is the given one and
nothing else changes; otherwise ValueError and nothing changes. -/
theorem one (fit0 : Φ) (s : St K Φ) (is : ℤ) (lo hi : K) (hA : is ≠ ALL) :
    (∀ d, 1 ≤ is → s.sets[(is - 1).toNat]? = some d → Good d lo hi →
      step fit0 s (.range is lo hi) = (.ok .unit, { s with sets := s.sets.set (is - 1).toNat (withRange d lo hi) })) ∧
    ((¬ ∃ d, 1 ≤ is ∧ s.sets[(is - 1).toNat]? = some d ∧ Good d lo hi) →
      step fit0 s (.range is lo hi) = (.err .value, s)) := by
  constructor
  · intro d h1 hd hg
    have hl : (is - 1).toNat < s.sets.length := (List.getElem?_eq_some_iff.1 hd).1
    simp only [step, Api.range]
    rw [if_neg (not_le.2 hg.1), if_neg hA, if_pos ⟨h1, by omega⟩, hd]
    dsimp only
    rw [(range_iff d lo hi).1 hg]
    dsimp only
    simp only [St.onSet]
    generalize (is - 1).toNat = m at hd hl ⊢
    congr 3
    apply List.ext_getElem?
    intro k
    rw [List.getElem?_modify, List.getElem?_set]
    by_cases e : m = k
    · subst e
      simp [hl]
    · simp [e]
  · intro hn
    simp only [step, Api.range]
    split_ifs with h1 h2
    · rfl
    · cases hd : s.sets[(is - 1).toNat]? with
      | none =>
        exfalso
        rw [List.getElem?_eq_none_iff] at hd
        omega
      | some d =>
        dsimp only
        rw [range_none d lo hi (fun hg => hn ⟨d, h2.1, hd, hg⟩)]
    · rfl

theorem rangeAll_spec (lo hi : K) (l : List (Ds K)) :
    ((rangeAll lo hi l).1 = true ↔ ∀ d ∈ l, Good d lo hi) ∧
    ((rangeAll lo hi l).1 = true → (rangeAll lo hi l).2 = l.map fun d => withRange d lo hi) := by
  induction l with
  | nil => simp [rangeAll]
  | cons d l ih =>
    by_cases hg : Good d lo hi
    · simp only [rangeAll, (range_iff d lo hi).1 hg]
      refine ⟨by simp [ih.1, hg], fun h => by simp [ih.2 h]⟩
    · simp only [rangeAll, range_none d lo hi hg]
      refine ⟨by simp [hg], by simp⟩

/-- All data sets: the call succeeds exactly when the range is good for every data set, and then every fit range is the
given one.  Partial: a failing call may have changed the data sets before the one that rejects the range
(`all_not_atomic`); with no data set only `rmin < rmax` is required. -/
theorem all_partial (fit0 : Φ) (s : St K Φ) (lo hi : K) :
    (lo < hi → (∀ d ∈ s.sets, Good d lo hi) →
      step fit0 s (.range ALL lo hi) = (.ok .unit, { s with sets := s.sets.map fun d => withRange d lo hi })) ∧
    (¬ (lo < hi ∧ ∀ d ∈ s.sets, Good d lo hi) → (step fit0 s (.range ALL lo hi)).1 = .err .value) ∧
    (∀ d l, s.sets = d :: l → ¬ Good d lo hi → step fit0 s (.range ALL lo hi) = (.err .value, s)) := by
  refine ⟨?_, ?_, ?_⟩
  · intro h1 h2
    have h3 := (rangeAll_spec lo hi s.sets).1.2 h2
    simp only [step, Api.range]
    rw [if_neg (not_le.2 h1), if_pos trivial, if_pos h3, (rangeAll_spec lo hi s.sets).2 h3]
  · intro h
    simp only [step, Api.range]
    split_ifs with h1 h2
    · rfl
    · exact absurd ⟨not_le.1 h1, (rangeAll_spec lo hi s.sets).1.1 h2⟩ h
    · rfl
  · intro d l hs hg
    simp only [step, Api.range]
    split_ifs with h1 h2
    · rfl
    · exact absurd ((rangeAll_spec lo hi s.sets).1.1 h2 d (by simp [hs])) hg
    · rw [hs]
      simp only [rangeAll, range_none d lo hi hg]
      rw [← hs]

/-- The fit range lies inside the data range. -/
def Inside (s : St K Φ) : Prop := ∀ d ∈ s.sets, d.rmin ≤ d.rfmin ∧ d.rfmin ≤ d.rfmax ∧ d.rfmax ≤ d.rmax

/-- Loads that deliver a data set have `rmin ≤ rmax` (`alloc` checks it, the readers do for increasing r). -/
def LoadsOk : List (Op K Φ) → Prop
  | [] => True
  | .readData (.ok r) :: l => r.rmin ≤ r.rmax ∧ LoadsOk l
  | _ :: l => LoadsOk l

theorem inside_onSet {s : St K Φ} (h : Inside s) (i : ℕ) (f : Ds K → Ds K)
    (hf : ∀ d, (f d).rmin = d.rmin ∧ (f d).rmax = d.rmax ∧ (f d).rfmin = d.rfmin ∧ (f d).rfmax = d.rfmax) :
    Inside (s.onSet i f) := by
  intro d hd
  obtain ⟨k, hk, rfl⟩ := List.getElem_of_mem hd
  simp only [St.onSet, List.getElem_modify] at *
  have hk' : k < s.sets.length := by simpa [St.onSet] using hk
  have := h _ (List.getElem_mem hk')
  split_ifs
  · obtain ⟨h1, h2, h3, h4⟩ := hf s.sets[k]
    rw [h1, h2, h3, h4]
    exact this
  · exact this

theorem rangeAll_inside (lo hi : K) (l : List (Ds K))
    (h : ∀ d ∈ l, d.rmin ≤ d.rfmin ∧ d.rfmin ≤ d.rfmax ∧ d.rfmax ≤ d.rmax) :
    ∀ d ∈ (rangeAll lo hi l).2, d.rmin ≤ d.rfmin ∧ d.rfmin ≤ d.rfmax ∧ d.rfmax ≤ d.rmax := by
  induction l with
  | nil => simp [rangeAll]
  | cons d l ih =>
    have ih := ih fun e he => h e (by simp [he])
    by_cases hg : Good d lo hi
    · simp only [rangeAll, (range_iff d lo hi).1 hg]
      intro e he
      rcases List.mem_cons.1 he with rfl | he
      · exact ⟨hg.2.1, hg.1.le, hg.2.2⟩
      · exact ih e he
    · simp only [rangeAll, range_none d lo hi hg]
      exact h

theorem lift_inside {s : St K Φ} (h : Inside s) {r : Res (St K Φ)} (hr : ∀ s', r = .ok s' → Inside s') :
    Inside (lift s r).2 := by
  unfold lift
  cases r with
  | ok s' => exact hr s' rfl
  | err e => exact h
  | ub => exact h

theorem onIgn_rng (d : Ds K) (ij : Char) (k : ℕ) (f : Finset ℕ → Finset ℕ) :
    (d.onIgn ij k f).rmin = d.rmin ∧ (d.onIgn ij k f).rmax = d.rmax ∧ (d.onIgn ij k f).rfmin = d.rfmin ∧
      (d.onIgn ij k f).rfmax = d.rfmax := by
  unfold Ds.onIgn
  split_ifs <;> simp

theorem inside_step {s : St K Φ} (fit0 : Φ) (h : Inside s) (o : Op K Φ) (ho : ∀ r, o = .readData (.ok r) → r.rmin ≤ r.rmax) :
    Inside (step fit0 s o).2 := by
  cases o with
  | readStruct r =>
    refine lift_inside h fun s' hs => ?_
    rw [Res.bind_eq_ok] at hs
    obtain ⟨p, _, hs⟩ := hs
    injection hs with hs
    subst hs
    rw [addPhase_eq]
    intro d hd
    simp only [List.mem_map] at hd
    obtain ⟨d, hd, rfl⟩ := hd
    exact h d hd
  | readData r =>
    refine lift_inside h fun s' hs => ?_
    rw [Res.bind_eq_ok] at hs
    obtain ⟨p, hp, hs⟩ := hs
    injection hs with hs
    subst hs
    rw [addData_eq]
    intro d hd
    rcases List.mem_append.1 hd with hd | hd
    · exact h d hd
    · rw [List.mem_singleton.1 hd]
      exact ⟨le_rfl, ho p (by rw [hp]), le_rfl⟩
  | setphase ip =>
    refine lift_inside h fun s' hs => ?_
    unfold optSt at hs
    cases hp : setphase s ip with
    | none => rw [hp] at hs; simp at hs
    | some t =>
      rw [hp] at hs
      injection hs with hs
      subst hs
      obtain ⟨_, _, _, _, rfl⟩ := setphase_some hp
      exact h
  | setdata ip =>
    refine lift_inside h fun s' hs => ?_
    unfold optSt at hs
    cases hp : setdata s ip with
    | none => rw [hp] at hs; simp at hs
    | some t =>
      rw [hp] at hs
      injection hs with hs
      subst hs
      obtain ⟨_, _, rfl⟩ := setdata_some hp
      exact h
  | psel ip =>
    unfold step
    cases hc : s.curset with
    | none => exact h
    | some i =>
      dsimp only
      split_ifs with h1 h2
      · exact inside_onSet h _ _ fun d => ⟨rfl, rfl, rfl, rfl⟩
      · exact h
      · exact inside_onSet h _ _ fun d => ⟨rfl, rfl, rfl, rfl⟩
  | pdesel ip =>
    unfold step
    cases hc : s.curset with
    | none => exact h
    | some i =>
      dsimp only
      split_ifs with h1 h2
      · exact inside_onSet h _ _ fun d => ⟨rfl, rfl, rfl, rfl⟩
      · exact h
      · cases hd : s.sets[i]? with
        | none => exact h
        | some d =>
          dsimp only
          split_ifs with h3
          · exact inside_onSet h _ _ fun d => ⟨rfl, rfl, rfl, rfl⟩
          · exact h
  | selType ip ij sym flag =>
    refine lift_inside h fun s' hs => ?_
    rw [Res.bind_eq_ok] at hs
    obtain ⟨r, _, hs⟩ := hs
    cases hl : r.2.2.look sym with
    | none => rw [hl] at hs; simp at hs
    | some t =>
      rw [hl] at hs
      injection hs with hs
      subst hs
      exact inside_onSet h _ _ fun d => onIgn_rng d _ _ _
  | selIndex ip ij aidx flag =>
    refine lift_inside h fun s' hs => ?_
    rw [Res.bind_eq_ok] at hs
    obtain ⟨r, _, hs⟩ := hs
    injection hs with hs
    subst hs
    exact inside_onSet h _ _ fun d => onIgn_rng d _ _ _
  | selAll ip ij =>
    refine lift_inside h fun s' hs => ?_
    rw [Res.bind_eq_ok] at hs
    obtain ⟨r, _, hs⟩ := hs
    injection hs with hs
    subst hs
    exact inside_onSet h _ _ fun d => onIgn_rng d _ _ _
  | selNone ip ij =>
    refine lift_inside h fun s' hs => ?_
    rw [Res.bind_eq_ok] at hs
    obtain ⟨r, _, hs⟩ := hs
    injection hs with hs
    subst hs
    exact inside_onSet h _ _ fun d => onIgn_rng d _ _ _
  | range is lo hi =>
    simp only [step, Api.range]
    split_ifs with h1 h2 _ h3
    · exact h
    · exact rangeAll_inside lo hi s.sets h
    · exact rangeAll_inside lo hi s.sets h
    · cases hd : s.sets[(is - 1).toNat]? with
      | none => exact h
      | some d =>
        dsimp only
        by_cases hg : Good d lo hi
        · rw [(range_iff d lo hi).1 hg]
          intro e he
          obtain ⟨k, hk, rfl⟩ := List.getElem_of_mem he
          simp only [St.onSet, List.getElem_modify] at *
          have hk' : k < s.sets.length := by simpa [St.onSet] using hk
          split_ifs
          · exact ⟨hg.2.1, hg.1.le, hg.2.2⟩
          · exact h _ (List.getElem_mem hk')
        · rw [range_none d lo hi hg]
          exact h
    · exact h
  | reset => intro d hd; simp [step, reset] at hd
  | getvar v => exact h
  | setvar v x =>
    refine lift_inside h fun s' hs => ?_
    unfold setvar at hs
    rw [Res.bind_eq_ok] at hs
    obtain ⟨r, _, hs⟩ := hs
    cases r with
    | none => simp at hs
    | some l =>
      cases l with
      | phase g ip v =>
        simp only [store] at hs
        split_ifs at hs
        injection hs with hs
        subst hs
        exact h
      | data g ip v =>
        simp only [store] at hs
        split_ifs at hs
        injection hs with hs
        subst hs
        exact inside_onSet h ip (fun d => { d with val := fun w => if w = v then x else d.val w })
          fun d => ⟨rfl, rfl, rfl, rfl⟩
  | numAtoms =>
    unfold step
    cases s.curphase <;> exact h
  | numPhases => exact h
  | numDatasets => exact h
  | compute g =>
    intro d hd
    obtain ⟨k, hk, rfl⟩ := List.getElem_of_mem hd
    simp only [step, St.withVals, List.length_mapIdx, List.getElem_mapIdx] at hk ⊢
    exact h _ (List.getElem_mem hk)

/-- In every reachable state the fit range lies inside the data range. -/
theorem reachable (fit0 : Φ) (l : List (Op K Φ)) (hl : LoadsOk l) : Inside (run fit0 (init fit0) l).2 := by
  have gen : ∀ (l : List (Op K Φ)) (s : St K Φ), LoadsOk l → Inside s → Inside (run fit0 s l).2 := by
    intro l
    induction l with
    | nil => intro s _ h; exact h
    | cons o l ih =>
      intro s hl h
      unfold run
      split
      · exact h
      · refine ih _ ?_ (inside_step fit0 h o ?_)
        · cases o with
          | readData r => cases r <;> simp_all [LoadsOk]
          | _ => simpa [LoadsOk] using hl
        · intro r e
          subst e
          exact hl.1
  exact gen l _ hl (by simp [Inside, init])

/-- Two data sets, 0…10 and 0…5. -/
def raw (b : ℚ) : Raw ℚ := ⟨fun _ => 1, 0, b⟩
def two : St ℚ Unit := (run () (init ()) [.readData (.ok (raw 10)), .readData (.ok (raw 5))]).2

/-- **Violation**: `pdfrange(ALL, 1, 8)` raises ValueError because the second data set ends at 5, but the first data
set keeps the new range. -/
theorem all_not_atomic : (step () two (.range ALL 1 8)).1 = .err .value ∧
    (step () two (.range ALL 1 8)).2.sets.map (fun d => (d.rfmin, d.rfmax)) = [(1, 8), (0, 5)] ∧
    two.sets.map (fun d => (d.rfmin, d.rfmax)) = [(0, 10), (0, 5)] := by decide +kernel

example : (step () two (.range 1 1 8)).1 = .ok .unit ∧ (step () two (.range 2 1 8)).1 = .err .value ∧
    (step () two (.range ALL 1 4)).1 = .ok .unit ∧ (step () two (.range 3 1 2)).1 = .err .value := by decide +kernel

end Pdffit.C29
