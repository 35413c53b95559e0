import Verif.Lemmas.Params

/-!
# C01  Parameters form a map from index to (value, free/fixed flag)

Specification: a partial function from (unsigned) index to value and flag.
-/

namespace Pdffit.C01
variable {K : Type}

/-- Abstract parameter table: value and "free" flag of every defined parameter. -/
abbrev Table (K : Type) := Nat → Option (K × Bool)

/-- What a call does to the table and what it returns. -/
def spec (m : Table K) : ParOp K → Table K × ParOut K
  | .setpar i v =>
      (fun n => if n = toUnsigned i then
          (match m n with | some (_, f) => some (v, f) | none => some (v, true)) else m n, .unit)
  | .getpar i => (m, match m (toUnsigned i) with | some (v, _) => .val v | none => .err .unassigned)
  | .fixpar i => flagCall m i false
  | .freepar i => flagCall m i true
where
  flagCall (m : Table K) (i : Int) (f : Bool) : Table K × ParOut K :=
    if fitsInt i = false then (m, .err .overflow)
    else if i = ALL then (fun n => (m n).map fun vf => (vf.1, f), .unit)
    else if (m (toUnsigned i)).isSome then
      (fun n => if n = toUnsigned i then (m n).map (fun vf => (vf.1, f)) else m n, .unit)
    else (m, .err .unassigned)

/-- A history of calls on the abstract table. -/
def specRun (m : Table K) : List (ParOp K) → Table K × List (ParOut K)
  | [] => (m, [])
  | o :: os => ((specRun (spec m o).1 os).1, (spec m o).2 :: (specRun (spec m o).1 os).2)

/-- The table a store stands for. -/
def table (s : ParStore K) : Table K := fun n =>
  match s.parfind n with
  | none => none
  | some i => match s.p[i]?, s.ip[i]? with
    | some v, some f => some (v, f)
    | _, _ => none

theorem table_some {s : ParStore K} (w : s.Wf) {n i : Nat} (h : s.parfind n = some i) :
    ∃ (h1 : i < s.p.length) (h2 : i < s.ip.length), table s n = some (s.p[i], s.ip[i]) := by
  obtain ⟨hi, _⟩ := ParStore.parfind_some h
  refine ⟨by rw [w.lp]; exact hi, by rw [w.li]; exact hi, ?_⟩
  simp [table, h, w.lp, w.li, hi]

theorem table_none {s : ParStore K} {n : Nat} (h : s.parfind n = none) : table s n = none := by
  simp [table, h]

theorem table_setpar {s : ParStore K} (w : s.Wf) (n : Nat) (v : K) :
    table (s.setpar n v) = fun k => if k = n then
      (match table s k with | some (_, f) => some (v, f) | none => some (v, true)) else table s k := by
  funext k
  rcases hn : s.parfind n with _ | i
  · rcases hk : s.parfind k with _ | j
    · rw [table_none hk]
      simp only [table, ParStore.setpar, hn, ParStore.parfind_append_new hk]
      by_cases e : k = n
      · subst e; simp [w.lp, w.li]
      · have e' : ¬ n = k := fun h => e h.symm
        simp [e, e']
    · have e : k ≠ n := by rintro rfl; rw [hn] at hk; cases hk
      obtain ⟨h1, h2, ht⟩ := table_some w hk
      rw [if_neg e, ht]
      simp only [table, ParStore.setpar, hn, ParStore.parfind_append_old hk]
      rw [List.getElem?_append_left h1, List.getElem?_append_left h2]
      simp [h1, h2]
  · have hpf : (s.setpar n v).parfind k = s.parfind k := by
      simp only [ParStore.setpar, hn]; rfl
    rcases hk : s.parfind k with _ | j
    · have e : k ≠ n := by rintro rfl; rw [hn] at hk; cases hk
      rw [if_neg e, table_none hk, table_none (hpf.trans hk)]
    · obtain ⟨h1, h2, ht⟩ := table_some w hk
      rw [ht]
      have : table (s.setpar n v) k = some ((s.p.set i v)[j]'(by simpa using h1), s.ip[j]) := by
        unfold table
        rw [hpf, hk]
        simp only [ParStore.setpar, hn]
        rw [List.getElem?_eq_getElem (by simpa using h1), List.getElem?_eq_getElem h2]
      rw [this]
      by_cases e : k = n
      · subst e
        have : i = j := by rw [hn] at hk; exact Option.some.inj hk
        subst this
        simp
      · have : i ≠ j := by
          rintro rfl
          obtain ⟨_, a⟩ := ParStore.parfind_some hn
          obtain ⟨_, b⟩ := ParStore.parfind_some hk
          exact e (b.symm.trans a)
        simp [e, this]

theorem getpar_table {s : ParStore K} (w : s.Wf) (n : Nat) :
    s.getpar n = match table s n with | some (v, _) => .ok v | none => .err .unassigned := by
  rcases hn : s.parfind n with _ | i
  · simp [ParStore.getpar, hn, table_none hn]
  · obtain ⟨h1, h2, ht⟩ := table_some w hn
    simp [ParStore.getpar, hn, ht, Res.at?_of_lt h1]

theorem flag_table {s : ParStore K} (w : s.Wf) (i : Int) (hi : fitsInt i = true) (f : Bool) :
    (match s.setflag i f with
      | .ok s' => (table s', ParOut.unit)
      | .err e => (table s, .err e)
      | .ub => (table s, .ub)) = spec.flagCall (table s) i f := by
  unfold spec.flagCall
  rw [hi]
  simp only [ParStore.setflag]
  by_cases ha : i = ALL
  · simp only [ha, if_true]
    simp only [Bool.true_eq_false, if_false]
    refine Prod.ext ?_ rfl
    funext k
    simp only [table, ParStore.parfind]
    rcases s.id.findIdx? (· == k) with _ | j
    · rfl
    · simp only [List.getElem?_map]
      rcases s.p[j]? with _ | a <;> rcases s.ip[j]? with _ | b <;> rfl
  · simp only [ha, if_false]
    simp only [Bool.true_eq_false, if_false]
    rcases hn : s.parfind (toUnsigned i) with _ | j
    · simp [table_none hn]
    · obtain ⟨h1, h2, ht⟩ := table_some w hn
      simp only [h2, if_true, ht, Option.isSome_some]
      refine Prod.ext ?_ rfl
      funext k
      have hpf : ∀ k, (ParStore.mk s.p (s.ip.set j f) s.id).parfind k = s.parfind k :=
        fun _ => rfl
      rcases hk : s.parfind k with _ | l
      · have e : k ≠ toUnsigned i := by rintro rfl; rw [hn] at hk; cases hk
        simp [table_none hk, table_none ((hpf k).trans hk)]
      · obtain ⟨g1, g2, gt⟩ := table_some w hk
        have : table (ParStore.mk s.p (s.ip.set j f) s.id) k
            = some (s.p[l], (s.ip.set j f)[l]'(by simpa using g2)) := by
          unfold table
          rw [hpf, hk]
          simp only
          rw [List.getElem?_eq_getElem g1, List.getElem?_eq_getElem (by simpa using g2)]
        simp only [this, gt]
        by_cases e : k = toUnsigned i
        · subst e
          have : j = l := by rw [hn] at hk; exact Option.some.inj hk
          subst this
          simp
        · have : j ≠ l := by
            rintro rfl
            obtain ⟨_, a⟩ := ParStore.parfind_some hn
            obtain ⟨_, b⟩ := ParStore.parfind_some hk
            exact e (b.symm.trans a)
          simp [e, this]

theorem step_spec {s : ParStore K} (w : s.Wf) (o : ParOp K) :
    (s.step o).1.Wf ∧ (table (s.step o).1, (s.step o).2) = spec (table s) o := by
  cases o with
  | setpar i v => exact ⟨ParStore.wf_setpar w _ _, by simp [ParStore.step, spec, table_setpar w]⟩
  | getpar i =>
    refine ⟨w, ?_⟩
    simp only [ParStore.step, spec, getpar_table w]
    rcases table s (toUnsigned i) with _ | ⟨v, f⟩ <;> rfl
  | fixpar i =>
    simp only [ParStore.step, spec]
    cases hi : fitsInt i
    · refine ⟨w, ?_⟩
      simp [spec.flagCall, hi]
    · have h := flag_table w i hi false
      rw [if_pos rfl]
      rcases hs : s.setflag i false with s' | e | _ <;> rw [hs] at h
      · exact ⟨ParStore.wf_setflag w hs, h⟩
      · exact ⟨w, h⟩
      · exact ⟨w, h⟩
  | freepar i =>
    simp only [ParStore.step, spec]
    cases hi : fitsInt i
    · refine ⟨w, ?_⟩
      simp [spec.flagCall, hi]
    · have h := flag_table w i hi true
      rw [if_pos rfl]
      rcases hs : s.setflag i true with s' | e | _ <;> rw [hs] at h
      · exact ⟨ParStore.wf_setflag w hs, h⟩
      · exact ⟨w, h⟩
      · exact ⟨w, h⟩

theorem run_spec : ∀ (ops : List (ParOp K)) {s : ParStore K}, s.Wf →
    (s.run ops).1.Wf ∧ table (s.run ops).1 = (specRun (table s) ops).1
      ∧ (s.run ops).2 = (specRun (table s) ops).2
  | [], _, w => ⟨w, rfl, rfl⟩
  | o :: os, s, w => by
    obtain ⟨w1, h⟩ := step_spec w o
    have e1 := congrArg Prod.fst h
    have e2 := congrArg Prod.snd h
    obtain ⟨w2, a, b⟩ := run_spec os w1
    simp only at e1 e2
    refine ⟨w2, ?_, ?_⟩
    · simp only [ParStore.run, specRun]
      rw [← e1]; exact a
    · simp only [ParStore.run, specRun]
      rw [e2, ← e1]
      exact congrArg _ b

/-- **C01** Starting from a new engine, every history of parameter calls returns exactly what
the abstract table returns (in particular it never has undefined behaviour), and the store at
the end stands for the abstract table. -/
theorem C01_param_store_refines_table (ops : List (ParOp K)) :
    (ParStore.run {} ops).2 = (specRun (fun _ => none) ops).2 ∧
    table (ParStore.run {} ops).1 = (specRun (fun _ => none) ops).1 := by
  obtain ⟨_, a, b⟩ := run_spec ops (ParStore.wf_empty (K := K))
  have : table (ParStore.mk [] [] [] : ParStore K) = fun _ => none := by
    funext n; rfl
  rw [this] at a b
  exact ⟨b, a⟩

/-- Value given to parameter `n` by the last `setpar` of a history. -/
def lastSet (n : Nat) : List (ParOp K) → Option K
  | [] => none
  | o :: os => match lastSet n os with
    | some v => some v
    | none => match o with
      | .setpar i v => if toUnsigned i = n then some v else none
      | _ => none

theorem spec_fst (m : Table K) (o : ParOp K) (n : Nat) :
    ((spec m o).1 n).map Prod.fst =
      match o with
      | .setpar i v => if toUnsigned i = n then some v else (m n).map Prod.fst
      | _ => (m n).map Prod.fst := by
  cases o with
  | setpar i v =>
    simp only [spec]
    by_cases e : n = toUnsigned i
    · subst e; rw [if_pos rfl, if_pos rfl]; rcases m (toUnsigned i) with _ | ⟨a, b⟩ <;> rfl
    · have e' : ¬ toUnsigned i = n := fun h => e h.symm
      simp [e, e']
  | getpar i => rfl
  | fixpar i =>
    simp only [spec, spec.flagCall]
    split_ifs <;> simp [Function.comp_def]
    by_cases e : n = toUnsigned i <;> simp [e, Function.comp_def]
  | freepar i =>
    simp only [spec, spec.flagCall]
    split_ifs <;> simp [Function.comp_def]
    by_cases e : n = toUnsigned i <;> simp [e, Function.comp_def]

theorem specRun_fst (n : Nat) : ∀ (ops : List (ParOp K)) (m : Table K),
    ((specRun m ops).1 n).map Prod.fst = match lastSet n ops with
      | some v => some v | none => (m n).map Prod.fst
  | [], m => rfl
  | o :: os, m => by
    rw [specRun, specRun_fst n os, spec_fst]
    cases o with
    | setpar i v =>
      simp only [lastSet]
      rcases lastSet n os with _ | w
      · by_cases e : toUnsigned i = n <;> simp [e]
      · simp
    | getpar i => simp only [lastSet]; rcases lastSet n os with _ | w <;> simp
    | fixpar i => simp only [lastSet]; rcases lastSet n os with _ | w <;> simp
    | freepar i => simp only [lastSet]; rcases lastSet n os with _ | w <;> simp

/-- **C01** (history form) After any history, `getpar i` returns the value of the latest
`setpar i`, and raises `unassignedError` if there was none. -/
theorem C01_getpar_returns_latest (ops : List (ParOp K)) (i : Int) :
    (ParStore.run {} ops).1.getpar (toUnsigned i) =
      match lastSet (toUnsigned i) ops with
      | some v => .ok v
      | none => .err .unassigned := by
  obtain ⟨w, a, _⟩ := run_spec ops (ParStore.wf_empty (K := K))
  rw [show (ParStore.run {} ops).1.getpar (toUnsigned i) = _ from getpar_table w _]
  have h := specRun_fst (toUnsigned i) ops (table (ParStore.mk [] [] [] : ParStore K))
  rw [← a] at h
  rw [show table (ParStore.mk [] [] [] : ParStore K) (toUnsigned i) = none from rfl] at h
  rcases ht : table ((ParStore.mk [] [] []).run ops).1 (toUnsigned i) with _ | ⟨v, f⟩ <;>
    rw [ht] at h <;> rcases hl : lastSet (toUnsigned i) ops with _ | v' <;> rw [hl] at h <;>
    simp at h ⊢
  exact h

/-- **C01** A call that raises changes nothing. -/
theorem C01_failed_call_keeps_state (s : ParStore K) (o : ParOp K) (e : Exc)
    (h : (s.step o).2 = .err e) : (s.step o).1 = s := by
  cases o with
  | setpar i v => simp [ParStore.step] at h
  | getpar i => rfl
  | fixpar i =>
    simp only [ParStore.step] at *
    split_ifs at * with hi
    · rcases hs : s.setflag i false with s' | e | _ <;> simp [hs] at h ⊢
    · rfl
  | freepar i =>
    simp only [ParStore.step] at *
    split_ifs at * with hi
    · rcases hs : s.setflag i true with s' | e | _ <;> simp [hs] at h ⊢
    · rfl

/-- **C01** Which indices name the same parameter: those that differ by a multiple of 2^32, so every index that
fits into `unsigned int` is a parameter of its own. -/
theorem C01_index_identity (i j : Int) : toUnsigned i = toUnsigned j ↔ ∃ k : Int, i = j + 2 ^ 32 * k := by
  unfold toUnsigned
  constructor
  · intro h
    refine ⟨i / 2 ^ 32 - j / 2 ^ 32, ?_⟩
    omega
  · rintro ⟨k, rfl⟩
    congr 1
    omega

/-- **C01** (user form) For indices 0 ≤ i, j < 2^32, `setpar` of one parameter is seen by `getpar` of the same and does not change another one, after any history. -/
theorem C01_getpar_setpar (ops : List (ParOp K)) (i j : Int) (v : K) (hi : 0 ≤ i ∧ i < 2 ^ 32) (hj : 0 ≤ j ∧ j < 2 ^ 32) :
    ((ParStore.run {} (ops ++ [.setpar i v])).1.getpar (toUnsigned i) = .ok v) ∧
    (i ≠ j → (ParStore.run {} (ops ++ [.setpar i v])).1.getpar (toUnsigned j) = (ParStore.run {} ops).1.getpar (toUnsigned j)) := by
  have key : ∀ (n : Nat) (l : List (ParOp K)), lastSet n (l ++ [.setpar i v]) = if toUnsigned i = n then some v else lastSet n l := by
    intro n l
    induction l with
    | nil => simp [lastSet]
    | cons o os ih =>
      simp only [List.cons_append, lastSet, ih]
      by_cases e : toUnsigned i = n <;> simp [e]
  rw [C01_getpar_returns_latest, C01_getpar_returns_latest, C01_getpar_returns_latest, key, key]
  refine ⟨by simp, fun hij => ?_⟩
  rw [if_neg]
  intro h
  obtain ⟨k, hk⟩ := (C01_index_identity i j).1 h
  have : k = 0 := by omega
  subst this
  exact hij (by omega)

example : toUnsigned (-1) = 4294967295 ∧ toUnsigned 2147483648 ≠ toUnsigned 0 := by decide

/-- Concrete history: re-setting a fixed parameter keeps the flag, a failing `fixpar 3` has no effect. -/
example : (ParStore.run {} [.setpar 1 (5 : Nat), .setpar 2 7, .fixpar 1, .setpar 1 6, .fixpar 3]).1.p
    = [6, 7] ∧
    (ParStore.run {} [.setpar 1 (5 : Nat), .setpar 2 7, .fixpar 1, .setpar 1 6, .fixpar 3]).1.ip
    = [false, true] := by decide

example : (ParStore.step (K := Nat) {} (.fixpar 3)).2 = .err .unassigned := rfl

end Pdffit.C01
