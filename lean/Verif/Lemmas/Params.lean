import Verif.Model.Params
import Mathlib.Data.List.Nodup
import Mathlib.Tactic.SplitIfs

/-! Helper lemmas on the parameter store. -/

namespace Pdffit.ParStore
variable {K : Type}

/-- Representation invariant of the three vectors. -/
structure Wf (s : ParStore K) : Prop where
  lp : s.p.length = s.id.length
  li : s.ip.length = s.id.length
  nd : s.id.Nodup

theorem parfind_some {s : ParStore K} {n i : Nat} (h : s.parfind n = some i) :
    ∃ hi : i < s.id.length, s.id[i] = n := by
  unfold parfind at h
  rw [List.findIdx?_eq_some_iff_getElem] at h
  obtain ⟨hi, h1, _⟩ := h
  exact ⟨hi, by simpa using h1⟩

theorem parfind_none {s : ParStore K} {n : Nat} (h : s.parfind n = none) : n ∉ s.id := by
  unfold parfind at h
  rw [List.findIdx?_eq_none_iff] at h
  intro hm
  simpa using h n hm

theorem parfind_of_getElem {s : ParStore K} (w : s.Wf) {i : Nat} (hi : i < s.id.length) :
    s.parfind s.id[i] = some i := by
  unfold parfind
  rw [List.findIdx?_eq_some_iff_getElem]
  refine ⟨hi, by simp, ?_⟩
  intro j hj
  have := (List.nodup_iff_injective_getElem.1 w.nd)
  simp only [beq_iff_eq]
  intro h
  have h2 := @this ⟨j, by omega⟩ ⟨i, hi⟩ h
  simp at h2
  omega

theorem parfind_isNone_of_not_mem {s : ParStore K} {n : Nat} (h : n ∉ s.id) :
    s.parfind n = none := by
  unfold parfind
  rw [List.findIdx?_eq_none_iff]
  intro x hx
  simp only [beq_eq_false_iff_ne, ne_eq]
  rintro rfl
  exact h hx

theorem parfind_append_old {s : ParStore K} {n m i : Nat} {v : List K} {b : List Bool}
    (h : s.parfind n = some i) :
    (ParStore.mk v b (s.id ++ [m])).parfind n = some i := by
  unfold parfind at *
  simp only
  rw [List.findIdx?_append, h]
  rfl

theorem parfind_append_new {s : ParStore K} {n m : Nat} {v : List K} {b : List Bool}
    (h : s.parfind n = none) :
    (ParStore.mk v b (s.id ++ [m])).parfind n = if m = n then some s.id.length else none := by
  unfold parfind at *
  simp only
  rw [List.findIdx?_append, h]
  by_cases hm : m = n <;> simp [List.findIdx?_cons, hm]

theorem wf_empty : (ParStore.mk [] [] [] : ParStore K).Wf := ⟨rfl, rfl, List.nodup_nil⟩

theorem wf_setpar {s : ParStore K} (w : s.Wf) (n : Nat) (v : K) : (s.setpar n v).Wf := by
  unfold setpar
  split
  · exact ⟨by simp [w.lp], w.li, w.nd⟩
  · rename_i h
    refine ⟨by simp [w.lp], by simp [w.li], ?_⟩
    have := parfind_none h
    simp only
    rw [List.nodup_append]
    refine ⟨w.nd, by simp, ?_⟩
    intro a ha b hb
    simp at hb
    subst hb
    rintro rfl
    exact this ha

theorem wf_setflag {s s' : ParStore K} (w : s.Wf) {n : Int} {f : Bool}
    (h : s.setflag n f = .ok s') : s'.Wf := by
  unfold setflag at h
  split at h
  · cases h; exact ⟨w.lp, by simp [w.li], w.nd⟩
  · split at h
    · split at h
      · cases h; exact ⟨w.lp, by simp [w.li], w.nd⟩
      · cases h
    · cases h

end Pdffit.ParStore
