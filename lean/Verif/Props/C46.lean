import Verif.Model.Report
import Verif.Props.C01
import Mathlib.Data.List.Sort
import Mathlib.Data.Rat.Defs

/-! # C46: parameters are reported sorted by index, each once -/

namespace Pdffit.C46
open Report

theorem le_trans' (a b c : ℕ × ℕ) (h1 : le a b) (h2 : le b c) : le a c := by
  simp only [le, decide_eq_true_eq] at *
  omega

theorem le_total' (a b : ℕ × ℕ) : le a b || le b a := by
  simp only [le, Bool.or_eq_true, decide_eq_true_eq]
  omega

instance : IsTrans (ℕ × ℕ) fun a b => le a b = true := ⟨le_trans'⟩

instance : Std.Total (α := ℕ × ℕ) fun a b => le a b = true :=
  ⟨fun a b => by simpa using le_total' a b⟩

theorem sorted (id : List ℕ) : ((id.zipIdx).insertionSort fun a b => le a b = true).Pairwise fun a b => le a b :=
  List.pairwise_insertionSort _ _

/-- The order is a permutation of all positions. -/
theorem order_perm (id : List ℕ) : (orderById id).Perm (List.range id.length) := by
  have h := (List.perm_insertionSort (fun a b => le a b = true) id.zipIdx).map Prod.snd
  rw [List.zipIdx_map_snd] at h
  simpa [orderById, List.range_eq_range'] using h

theorem mem_sorted (id : List ℕ) (a : ℕ × ℕ) (h : a ∈ (id.zipIdx).insertionSort fun a b => le a b = true) : id[a.2]? = some a.1 := by
  rw [List.mem_insertionSort] at h
  obtain ⟨n, i⟩ := a
  simpa using List.mem_zipIdx_iff_getElem?.1 h

/-- The indices in the order of printing. -/
theorem order_ids (id : List ℕ) : (orderById id).map (fun i => id[i]?.getD 0) =
    ((id.zipIdx).insertionSort fun a b => le a b = true).map Prod.fst := by
  unfold orderById
  rw [List.map_map]
  apply List.map_congr_left
  intro a ha
  simp [mem_sorted id a ha]

/-- For distinct indices the printed indices are strictly increasing. -/
theorem order_strict (id : List ℕ) (hd : id.Nodup) :
    ((orderById id).map fun i => id[i]?.getD 0).Pairwise (· < ·) := by
  rw [order_ids, List.pairwise_map]
  have h1 := sorted id
  have hn : (((id.zipIdx).insertionSort fun a b => le a b = true).map Prod.fst).Nodup := by
    have := ((List.perm_insertionSort (fun a b => le a b = true) id.zipIdx).map Prod.fst).nodup_iff
    rw [this, List.zipIdx_map_fst]
    exact hd
  have h2 : ((id.zipIdx).insertionSort fun a b => le a b = true).Pairwise fun a b => a.1 ≠ b.1 := List.pairwise_map.1 hn
  refine (h1.and h2).imp ?_
  intro a b h
  obtain ⟨h, h'⟩ := h
  simp only [le, decide_eq_true_eq] at h
  omega

variable {K : Type} [Zero K]

theorem at?_lt {α : Type} (l : List α) (i : ℕ) (h : i < l.length) : Res.at? l i = .ok l[i] := by
  simp [Res.at?, h]

theorem line_ok {s : ParStore K} (w : s.Wf) (dp : List K) (hd : dp.length = s.p.length) (i : ℕ)
    (hi : i < s.id.length) : line s dp i = .ok (s.id[i], s.p[i]'(by rw [w.lp]; exact hi),
      if s.ip[i]'(by rw [w.li]; exact hi) then dp[i]'(by rw [hd, w.lp]; exact hi) else 0) := by
  unfold line
  rw [at?_lt _ _ (by rw [w.li]; exact hi), Res.bind_ok, at?_lt dp i (by rw [hd, w.lp]; exact hi)]
  rw [at?_lt s.id i hi, at?_lt s.p i (by rw [w.lp]; exact hi)]
  split_ifs <;> rfl

theorem lines_ok {s : ParStore K} (w : s.Wf) (dp : List K) (hd : dp.length = s.p.length) :
    ∀ is : List ℕ, (∀ i ∈ is, i < s.id.length) → ∃ r, lines s dp is = .ok r ∧
      r.map (fun a => a.1) = is.map (fun i => s.id[i]?.getD 0) ∧
      ∀ a ∈ r, ∃ i ∈ is, line s dp i = .ok a
  | [], _ => ⟨[], rfl, rfl, by simp⟩
  | i :: is, h => by
    obtain ⟨r, hr, h1, h2⟩ := lines_ok w dp hd is (fun j hj => h j (List.mem_cons_of_mem _ hj))
    have hi : i < s.id.length := h i (by simp)
    have hl := line_ok w dp hd i hi
    refine ⟨_ :: r, by unfold lines; rw [hl, Res.bind_ok, hr, Res.bind_ok], ?_, ?_⟩
    · simp [h1, hi]
    · intro a ha
      rcases List.mem_cons.1 ha with rfl | ha
      · exact ⟨i, by simp, hl⟩
      · obtain ⟨j, hj, e⟩ := h2 a ha
        exact ⟨j, List.mem_cons_of_mem _ hj, e⟩

/-- **C46** (partial) For the parameters left by any history of calls on a new engine, of which at least one is
free, and errors `dp` for all of them, the report lists the indices in strictly increasing order (so no index is
listed twice); the listed indices are exactly the defined ones, and the listed value is the value of that
parameter.  Missing: when all parameters are fixed nothing is listed (`all_fixed`), and after a new parameter was
defined since the last refinement the report reads behind the end of `dp` (`new_parameter`). -/
theorem report_partial (ops : List (ParOp K)) (dp : List K)
    (hd : dp.length = (ParStore.run {} ops).1.p.length)
    (hf : ∃ n v, (C01.specRun (fun _ => none) ops).1 n = some (v, true)) :
    ∃ r, report (ParStore.run {} ops).1 dp = .ok r ∧ (r.map fun a => a.1).Pairwise (· < ·) ∧
      (∀ n, n ∈ (r.map fun a => a.1) ↔ ((C01.specRun (fun _ => none) ops).1 n).isSome) ∧
      ∀ a ∈ r, ∃ f, (C01.specRun (fun _ => none) ops).1 a.1 = some (a.2.1, f) ∧ (f = false → a.2.2 = 0) := by
  obtain ⟨w, _, _⟩ := C01.run_spec ops (ParStore.wf_empty (K := K))
  have ht := (C01.C01_param_store_refines_table (K := K) ops).2
  change (ParStore.run {} ops).1.Wf at w
  rw [← ht] at hf ⊢
  revert hd w hf
  generalize (ParStore.run {} ops).1 = s
  intro hd hf w
  have hnp : npar s ≠ 0 := by
    obtain ⟨n, v, h⟩ := hf
    cases hp : s.parfind n with
    | none => rw [C01.table_none hp] at h; cases h
    | some i =>
      obtain ⟨h1, h2, h3⟩ := C01.table_some w hp
      rw [h3] at h
      have : s.ip[i] = true := by
        injection h with h
        exact congrArg Prod.snd h
      unfold npar
      exact (List.count_pos_iff.2 (this ▸ List.getElem_mem h2)).ne'
  have hm : ∀ i, i ∈ orderById s.id ↔ i < s.id.length := by
    intro i
    rw [(order_perm s.id).mem_iff]
    simp
  obtain ⟨r, h1, h2, h3⟩ := lines_ok w dp hd (orderById s.id) (fun i hi => (hm i).1 hi)
  refine ⟨r, by unfold report; rw [if_pos hnp]; exact h1, ?_, ?_, ?_⟩
  · rw [h2]
    exact order_strict _ w.nd
  · intro n
    rw [h2, List.mem_map]
    constructor
    · rintro ⟨i, hi, e⟩
      have hi := (hm i).1 hi
      have : s.parfind n = some i := by
        rw [← e]
        simpa [hi] using ParStore.parfind_of_getElem w hi
      obtain ⟨_, _, e2⟩ := C01.table_some w this
      rw [e2]
      rfl
    · intro h
      cases hp : s.parfind n with
      | none => rw [C01.table_none hp] at h; cases h
      | some i =>
        obtain ⟨hi, e⟩ := ParStore.parfind_some hp
        exact ⟨i, (hm i).2 hi, by simp [hi, e]⟩
  · intro a ha
    obtain ⟨i, hi, e⟩ := h3 a ha
    have hi := (hm i).1 hi
    rw [line_ok w dp hd i hi] at e
    injection e with e
    subst e
    obtain ⟨h1, h2, e2⟩ := C01.table_some w (ParStore.parfind_of_getElem w hi)
    refine ⟨_, e2, ?_⟩
    intro hf
    simp [hf]

/-- **Violation**: when all parameters are fixed none is listed. -/
theorem all_fixed (ops : List (ParOp K)) (dp : List K) :
    report (ParStore.run {} (ops ++ [.fixpar ALL])).1 dp = .ok [] := by
  have run_append : ∀ (a b : List (ParOp K)) (s : ParStore K),
      (s.run (a ++ b)).1 = ((s.run a).1.run b).1 := by
    intro a
    induction a with
    | nil => intros; rfl
    | cons o a ih => intro b s; exact ih b _
  rw [run_append]
  generalize (ParStore.run {} ops).1 = s
  have : (s.run [.fixpar ALL]).1 = { s with ip := s.ip.map fun _ => false } := rfl
  rw [this]
  unfold report npar
  rw [if_neg]
  simp [List.count_eq_zero]

/-- **Violation**: a free parameter defined after the errors `dp` were computed makes the report read out of
range: undefined behaviour. -/
theorem new_parameter (v1 v2 d : K) :
    report (ParStore.run {} [.setpar 7 v1, .setpar 3 v2]).1 [d] = .ub := by
  have e : (ParStore.run {} [.setpar 7 v1, .setpar 3 v2] : ParStore K × _).1 =
      { p := [v1, v2], ip := [true, true], id := [7, 3] } := rfl
  rw [e]
  have o : orderById [7, 3] = [1, 0] := by decide +kernel
  simp only [report, npar, o]
  rfl

/-- Parameters defined in the order 7, 3, 12 and 7 fixed are listed as 3, 7, 12. -/
example : report (ParStore.run {} [.setpar 7 (5 : ℚ), .setpar 3 6, .setpar 12 8, .fixpar 7]).1 [1, 2, 4] =
    .ok [(3, 6, 2), (7, 5, 0), (12, 8, 4)] := by decide +kernel

end Pdffit.C46
