import Verif.Lemmas.FullFit
import Mathlib.Tactic.LinearCombination

/-!
# The PDF as a mix of phases
-/

namespace Pdffit.Full
open Geom Det Deriv Layout Conf DMat C47 _root_.Pdffit.Parser
namespace Input
variable {I : Input}

/-- The values of everything but the scale factors of phases are the same. -/
def Off (I : Input) (v v' : ℕ → ℝ) : Prop :=
  ∀ x, C47.Exists I.natoms I.nset x → (∀ ip, x ≠ .pscale ip) → I.val v' x = I.val v x

/-- What phase `ip` contributes at scale factor one. -/
noncomputable def unit (I : Input) (v : ℕ → ℝ) (is : ℕ) (s : SetIn) (ip : ℕ) (i : ℤ) : ℝ :=
  match (I.sel v s)[ip]? with
  | some (some x) => (I.dat v is s).dscale * filt (I.dat v is s) (curve (I.dat v is s) x.1 x.2) i
  | _ => 0

theorem Off.dat {v v' : ℕ → ℝ} (h : I.Off v v') {is : ℕ} {s : SetIn} (hs : I.sets[is]? = some s) : I.dat v' is s = I.dat v is s := by
  have his : is < I.nset := (List.getElem?_eq_some_iff.1 hs).1
  unfold Input.dat dataFrom
  rw [h (.dscale is) his (fun _ => by simp), h (.qdamp is) his (fun _ => by simp), h (.qbroad is) his (fun _ => by simp)]

theorem template_get (s : SetIn) (ip : ℕ) (y : PPhase × Sel) (hy : (I.template s)[ip]? = some (some y)) :
    ∃ ph, I.phases[ip]? = some ph ∧ y.1.atom.length = ph.atom.length := by
  unfold template at hy
  rw [List.getElem?_mapIdx] at hy
  cases hp : I.phases[ip]? with
  | none => rw [hp] at hy; cases hy
  | some ph =>
    rw [hp] at hy
    simp only [Option.map_some, Option.some.injEq, Option.map_eq_some_iff] at hy
    obtain ⟨a, -, rfl⟩ := hy
    exact ⟨ph, rfl, by simp⟩

theorem Off.phase {v v' : ℕ → ℝ} (h : I.Off v v') (s : SetIn) (ip : ℕ) (y : PPhase × Sel)
    (hy : (I.template s)[ip]? = some (some y)) :
    phaseFrom (I.val v') ip y.1 = { phaseFrom (I.val v) ip y.1 with pscale := I.val v' (.pscale ip) } := by
  obtain ⟨ph, hp, hl⟩ := template_get s ip y hy
  have hip : ip < I.natoms.length := by
    unfold natoms
    rw [List.length_map]
    exact (List.getElem?_eq_some_iff.1 hp).1
  have hat : y.1.atom.mapIdx (atomFrom (I.val v') ip) = y.1.atom.mapIdx (atomFrom (I.val v) ip) := by
    apply List.ext_getElem
    · simp
    · intro ia h1 h2
      rw [List.getElem_mapIdx, List.getElem_mapIdx]
      have hia : ∃ n, I.natoms[ip]? = some n ∧ ia < n := by
        refine ⟨ph.atom.length, ?_, ?_⟩
        · unfold natoms
          rw [List.getElem?_map, hp]
          rfl
        · rw [← hl]; simpa using h1
      unfold atomFrom
      congr 1
      · funext k; exact h (.pos ip ia k) hia (fun _ => by simp)
      · exact h (.occ ip ia) hia (fun _ => by simp)
      · funext k; exact h (.u ip ia k) hia (fun _ => by simp)
  unfold phaseFrom
  rw [hat]
  congr 1
  · congr 1
    · funext k; exact h (.a0 ip k) hip (fun _ => by simp)
    · funext k; exact h (.win ip k) hip (fun _ => by simp)
  · exact h (.delta2 ip) hip (fun _ => by simp)
  · exact h (.delta1 ip) hip (fun _ => by simp)
  · exact h (.sratio ip) hip (fun _ => by simp)
  · exact h (.spdiameter ip) hip (fun _ => by simp)

theorem sel_get (v : ℕ → ℝ) (s : SetIn) (ip : ℕ) :
    (I.sel v s)[ip]? = (I.template s)[ip]?.map fun x => x.map fun y => (phaseFrom (I.val v) ip y.1, y.2) := by
  unfold sel selFrom
  rw [List.getElem?_mapIdx]

theorem sel_length (v : ℕ → ℝ) (s : SetIn) : (I.sel v s).length = I.phases.length := by
  unfold sel selFrom template
  simp

theorem Off.unit {v v' : ℕ → ℝ} (h : I.Off v v') {is : ℕ} {s : SetIn} (hs : I.sets[is]? = some s) (ip : ℕ) (i : ℤ) :
    I.unit v' is s ip i = I.unit v is s ip i := by
  unfold Input.unit
  rw [h.dat hs, sel_get, sel_get]
  cases ht : (I.template s)[ip]? with
  | none => rfl
  | some o =>
    cases o with
    | none => rfl
    | some y =>
      simp only [Option.map_some]
      rw [h.phase s ip y ht]
      rfl

theorem Off.num (H : I.Ok) {v v' : ℕ → ℝ} (h : I.Off v v') (hn : Num I v) : Num I v' := by
  constructor
  · intro ip hip
    obtain ⟨m, hm⟩ := hn.lat ip hip
    have hip' : ip < I.natoms.length := by unfold natoms; rwa [List.length_map]
    refine ⟨m, ?_⟩
    rw [← hm]
    congr 2
    · funext k; exact h (.a0 ip k) hip' (fun _ => by simp)
    · funext k; exact h (.win ip k) hip' (fun _ => by simp)
  · intro is s hs
    have o := dat_ok H (List.mem_of_getElem? hs) v is
    obtain ⟨f, hf⟩ := hn.det is s hs
    have hb := (determine_some o hf).1
    rw [h.dat hs]
    obtain ⟨g, hg, -⟩ := determine_of o (psel := I.sel v' s) (by
      intro x hx
      obtain ⟨ip, hip⟩ := List.getElem?_of_mem hx
      rw [sel_get] at hip
      cases ht : (I.template s)[ip]? with
      | none => rw [ht] at hip; cases hip
      | some t =>
        rw [ht] at hip
        cases t with
        | none => simp at hip
        | some y =>
          simp only [Option.map_some, Option.some.injEq] at hip
          subst hip
          dsimp only
          rw [h.phase s ip y ht]
          refine hb (phaseFrom (I.val v) ip y.1, y.2) (List.mem_of_getElem? (i := ip) ?_)
          rw [sel_get, ht]
          rfl)
    exact ⟨g, hg⟩

theorem filterMap_sum {α : Type} (l : List (Option α)) (f : α → ℝ) :
    ((l.filterMap id).map f).sum = ∑ q ∈ Finset.range l.length, match l[q]? with | some (some x) => f x | _ => 0 := by
  induction l with
  | nil => rfl
  | cons o l ih =>
    rw [List.length_cons, Finset.sum_range_succ']
    simp only [List.getElem?_cons_succ, List.getElem?_cons_zero]
    rw [← ih]
    cases o with
    | none => simp
    | some x => simp [add_comm]

/-- The curve as a sum over the phases. -/
theorem mix (H : I.Ok) {v : ℕ → ℝ} (hn : Num I v) {is : ℕ} {s : SetIn} (hs : I.sets[is]? = some s) (i : ℤ)
    (hi : i ∈ grid s.d.D.nfmin s.d.D.nfmax) :
    I.curveOf v is s i = ∑ ip ∈ Finset.range I.phases.length, I.val v (.pscale ip) * I.unit v is s ip i := by
  have o := dat_ok H (List.mem_of_getElem? hs) v is
  rw [mem_grid] at hi
  have k2 : (I.dat v is s).ncmin ≤ s.d.D.nfmin := ncmin_le_nfmin (D := I.dat v is s) o
  have k4 : s.d.D.nfmax ≤ (I.dat v is s).ncmax := nfmax_le_ncmax (D := I.dat v is s) o
  rw [(determine_some o (hn.curve hs)).2 i (by omega) (by omega), filterMap_sum, sel_length]
  refine Finset.sum_congr rfl fun ip _ => ?_
  unfold unit
  rw [sel_get]
  cases ht : (I.template s)[ip]? with
  | none => simp
  | some t =>
    cases t with
    | none => simp
    | some y =>
      simp only [Option.map_some, phaseFrom]
      ring

theorem foreign_col {D : Data} {is : ℕ} {psel : List (Option (PPhase × Sel))} {v : RVar} (hv : C44.Foreign is psel v) (j : ℤ) :
    column D is v psel j = 0 := by
  unfold column
  rw [C44.foreign_raw is hv]
  refine runOn_skip _ _ _ fun st hst e => ?_
  unfold stmts at hst
  rw [List.mem_append] at hst
  unfold C44.Foreign at hv
  rcases hst with hst | hst
  · obtain ⟨q, y, hq, hy⟩ := C44.stmts_used D j _ 0 st hst
    rw [e, Nat.zero_add] at hq
    rw [hq] at hv
    unfold cal at hy
    rw [List.getElem?_map] at hy
    cases e' : psel[q]? with
    | none => rw [e'] at hy; cases hy
    | some z =>
      cases z with
      | none => rw [e'] at hy; cases hy
      | some z => exact hv z e'
  · simp only [List.mem_cons, List.not_mem_nil, or_false] at hst
    rcases hst with rfl | rfl | rfl
    · rw [← e] at hv; exact hv.1 rfl
    · rw [← e] at hv; exact hv.2.1 rfl
    · rw [← e] at hv; exact hv.2.2 rfl

/-- The column of a scale factor. -/
theorem column_unit (H : I.Ok) (v : ℕ → ℝ) {is : ℕ} {s : SetIn} (hs : I.sets[is]? = some s) (ip : ℕ) (i : ℤ)
    (hi : i ∈ grid s.d.D.nfmin s.d.D.nfmax) :
    filt (I.dat v is s) (column (I.dat v is s) is (.pscale ip) (I.sel v s)) i = I.unit v is s ip i := by
  have o := dat_ok H (List.mem_of_getElem? hs) v is
  rw [mem_grid] at hi
  have k2 : (I.dat v is s).ncmin ≤ s.d.D.nfmin := ncmin_le_nfmin (D := I.dat v is s) o
  have k4 : s.d.D.nfmax ≤ (I.dat v is s).ncmax := nfmax_le_ncmax (D := I.dat v is s) o
  unfold unit
  cases hx : (I.sel v s)[ip]? with
  | none =>
    dsimp only
    rw [filt_congr o (d := fun _ => 0) (fun j _ _ => ?_) i (by omega) (by omega), filt_zero o]
    exact foreign_col (by unfold C44.Foreign; simp [owner, hx]) j
  | some t =>
    cases t with
    | none =>
      dsimp only
      rw [filt_congr o (d := fun _ => 0) (fun j _ _ => ?_) i (by omega) (by omega), filt_zero o]
      exact foreign_col (by unfold C44.Foreign; simp [owner, hx]) j
    | some x =>
      dsimp only
      rw [← filt_smul o]
      refine filt_congr o (fun j _ _ => ?_) i (by omega) (by omega)
      rw [column_phase _ is (.pscale ip) _ ip x hx rfl, run_pscale, mul_comm]

end Input
end Pdffit.Full
