import Verif.Model.Sphere
import Mathlib.Tactic.Ring
import Mathlib.Tactic.FieldSimp
import Mathlib.Tactic.Linarith
import Mathlib.Data.List.Nodup
import Mathlib.Tactic.CongrExclamation

/-! # The enumeration of `PointsInSphere` as nested lists -/

namespace Pdffit.Sphere
variable (k : Cst)

/-- Integers `lo ≤ i < hi`. -/
def ints (lo hi : ℤ) : List ℤ := (List.range (hi - lo).toNat).map fun (i : ℕ) => lo + (i : ℤ)

theorem mem_ints {lo hi i : ℤ} : i ∈ ints lo hi ↔ lo ≤ i ∧ i < hi := by
  simp only [ints, List.mem_map, List.mem_range]
  constructor
  · rintro ⟨j, h, rfl⟩; omega
  · intro h; exact ⟨(i - lo).toNat, by omega, by omega⟩

theorem nodup_ints (lo hi : ℤ) : (ints lo hi).Nodup := by
  apply List.Nodup.map _ List.nodup_range
  intro a b h
  dsimp only at h
  omega

theorem ints_cons {lo hi : ℤ} (h : lo < hi) : ints lo hi = lo :: ints (lo + 1) hi := by
  unfold ints
  have : (hi - lo).toNat = (hi - (lo + 1)).toNat + 1 := by omega
  rw [this, List.range_succ_eq_map, List.map_cons, List.map_map]
  refine List.cons_eq_cons.2 ⟨by simp, ?_⟩
  apply List.map_congr_left
  intro j _
  simp only [Function.comp_apply]
  push_cast
  omega

theorem ints_nil {lo hi : ℤ} (h : hi ≤ lo) : ints lo hi = [] := by
  unfold ints
  have : (hi - lo).toNat = 0 := by omega
  rw [this]; rfl

/-- Plane values for `m`. -/
noncomputable def n0 (m : ℤ) : ℝ := m * k.dn0dm
noncomputable def o0p (m : ℤ) : ℝ := m * k.do0dm
noncomputable def rp (m : ℤ) : ℝ := k.rmax2 - (m / k.lat.ar) ^ 2
noncomputable def nHalf (m : ℤ) : ℝ := if 0 < rp k m then √(rp k m) * k.b2r else 0

/-- Line values for `m, n`. -/
noncomputable def o0 (m n : ℤ) : ℝ := o0p k m + (n - n0 k m) * k.do0dn
noncomputable def rl (m n : ℤ) : ℝ := rp k m - ((n - n0 k m) / k.b2r) ^ 2
noncomputable def oHalf (m n : ℤ) : ℝ := if 0 < rl k m n then √(rl k m n) * k.c1r else 0
noncomputable def re (m n : ℤ) : ℝ := k.rmin2 + (rl k m n - k.rmax2)
noncomputable def exc (m n : ℤ) : ℝ := if 0 < re k m n then √(re k m n) * k.c1r else 0
/-- There is a hole in the line that the code recognises. -/
def Hole (m n : ℤ) : Prop := exc k m n ≠ 0 ∧ |((⌈o0 k m n - exc k m n⌉ : ℤ) : ℝ) - o0 k m n| < exc k m n

open Classical in
noncomputable def hi1 (m n : ℤ) : ℤ :=
  if Hole k m n then ⌈o0 k m n - exc k m n⌉ else ⌈o0 k m n + oHalf k m n⌉

open Classical in
/-- `o` values of a line. -/
noncomputable def oList (m n : ℤ) : List ℤ :=
  ints (⌊o0 k m n - oHalf k m n⌋ + 1) (hi1 k m n) ++
    if hi1 k m n ≠ ⌈o0 k m n + oHalf k m n⌉ then ints ⌈o0 k m n + exc k m n⌉ ⌈o0 k m n + oHalf k m n⌉ else []

noncomputable def line (m n : ℤ) : List (ℤ × ℤ × ℤ) := (oList k m n).map fun o => (m, n, o)
noncomputable def plane (m : ℤ) : List (ℤ × ℤ × ℤ) :=
  (ints (⌊n0 k m - nHalf k m⌋ + 1) ⌈n0 k m + nHalf k m⌉).flatMap (line k m)

/-- What is left after a state. -/
noncomputable def restO (s : St) : List (ℤ × ℤ × ℤ) :=
  (ints (s.o + 1) s.hiO ++ if s.hiO ≠ s.outO then ints ⌈s.o0line + s.excl⌉ s.outO else []).map
    fun o => (s.m, s.n, o)
noncomputable def restN (s : St) : List (ℤ × ℤ × ℤ) := (ints (s.n + 1) s.hiN).flatMap (line k s.m)
noncomputable def restM (s : St) : List (ℤ × ℤ × ℤ) := (ints (s.m + 1) k.hiM).flatMap (plane k)

/-- The plane values in the state belong to its `m`. -/
def Inv (s : St) : Prop :=
  s.n + 1 < s.hiN → s.n0plane = n0 k s.m ∧ s.o0plane = o0p k s.m ∧ s.rplane2 = rp k s.m

theorem restO_setLine {s : St} {n : ℤ}
    (h : s.n0plane = n0 k s.m ∧ s.o0plane = o0p k s.m ∧ s.rplane2 = rp k s.m) :
    restO (setLine k s n) = line k s.m n := by
  obtain ⟨h1, h2, h3⟩ := h
  have hh : (setLine k s n).hiO = hi1 k s.m n := by
    unfold hi1
    by_cases h : Hole k s.m n
    · rw [if_pos h]
      simp only [setLine, h1, h2, h3]
      exact if_pos h
    · rw [if_neg h]
      simp only [setLine, h1, h2, h3]
      exact if_neg h
  have ho : (setLine k s n).o = ⌊o0 k s.m n - oHalf k s.m n⌋ := by
    simp only [setLine, h1, h2, h3]; rfl
  have hu : (setLine k s n).outO = ⌈o0 k s.m n + oHalf k s.m n⌉ := by
    simp only [setLine, h1, h2, h3]; rfl
  have hl : (setLine k s n).o0line = o0 k s.m n := by
    simp only [setLine, h1, h2, h3]; rfl
  have he : (setLine k s n).excl = exc k s.m n := by
    simp only [setLine, h1, h2, h3]; rfl
  have hm : (setLine k s n).m = s.m := rfl
  have hn : (setLine k s n).n = n := rfl
  unfold restO line oList
  rw [hh, ho, hu, hl, he, hm, hn]

theorem restN_nextM {s : St} (h : s.m + 1 < k.hiM) : restN k (nextM k s) = plane k (s.m + 1) := by
  simp only [nextM, if_pos h, restN, plane, nHalf, rp, n0]
  congr!

theorem inv_nextM {s : St} (h : s.m + 1 < k.hiM) : Inv k (nextM k s) := by
  intro _
  simp only [nextM, if_pos h]
  exact ⟨rfl, rfl, rfl⟩

theorem restM_nextM {s : St} (h : s.m + 1 < k.hiM) :
    restM k s = plane k (s.m + 1) ++ restM k (nextM k s) := by
  unfold restM
  rw [ints_cons h, List.flatMap_cons, nextM_m]

/-- `next_n` goes to the next line. -/
theorem nextN_rest (s : St) (hi : Inv k s) :
    ((nextN k s).m < k.hiM → restN k s ++ restM k s =
      restO (nextN k s) ++ (restN k (nextN k s) ++ restM k (nextN k s)) ∧ Inv k (nextN k s)) ∧
    (¬ (nextN k s).m < k.hiM → s.m < k.hiM → restN k s ++ restM k s = []) := by
  induction s using nextN.induct k with
  | case1 s h =>
    have hc := hi h
    have e1 : restN k s = line k s.m (s.n + 1) ++ restN k (setLine k s (s.n + 1)) := by
      unfold restN
      rw [ints_cons h, List.flatMap_cons]
      rfl
    rw [nextN, if_pos h]
    refine ⟨fun _ => ⟨?_, ?_⟩, fun h1 h2 => absurd h2 h1⟩
    · rw [e1, restO_setLine k hc, List.append_assoc]
      rfl
    · intro _
      exact hc
  | case2 s h h' ih =>
    have hm := nextM_m k { s with n := s.n + 1 }
    rw [hm] at h'
    dsimp only at h'
    rw [nextN, if_neg h, if_pos (by rw [hm]; exact h')]
    have e0 : restN k s = [] := by
      unfold restN
      rw [ints_nil (by omega)]
      rfl
    have e1 : restM k s = restM k { s with n := s.n + 1 } := rfl
    have e2 := restM_nextM k (s := { s with n := s.n + 1 }) h'
    have e3 := restN_nextM k (s := { s with n := s.n + 1 }) h'
    obtain ⟨i1, i2⟩ := ih (inv_nextM k h')
    rw [e0, List.nil_append, e1, e2]
    dsimp only at e3
    dsimp only
    rw [← e3]
    exact ⟨i1, fun h1 _ => i2 h1 (by rw [hm]; exact h')⟩
  | case3 s h h' =>
    have hm := nextM_m k { s with n := s.n + 1 }
    rw [hm] at h'
    dsimp only at h'
    rw [nextN, if_neg h, if_neg (by rw [hm]; exact h')]
    refine ⟨fun h1 => absurd h1 (by rw [hm]; exact h'), fun _ _ => ?_⟩
    unfold restN restM
    rw [ints_nil (by omega), ints_nil (by omega)]
    rfl

/-- `next_o` goes to the next point. -/
theorem nextO_rest (s : St) (hi : Inv k s) :
    ((nextO k s).m < k.hiM → restO s ++ (restN k s ++ restM k s) =
      ((nextO k s).m, (nextO k s).n, (nextO k s).o) ::
        (restO (nextO k s) ++ (restN k (nextO k s) ++ restM k (nextO k s))) ∧ Inv k (nextO k s)) ∧
    (¬ (nextO k s).m < k.hiM → s.m < k.hiM → restO s ++ (restN k s ++ restM k s) = []) := by
  induction s using nextO.induct k with
  | case1 s h =>
    rw [nextO, if_pos h]
    refine ⟨fun _ => ⟨?_, hi⟩, fun h1 h2 => absurd h2 h1⟩
    unfold restO
    rw [ints_cons h]
    rfl
  | case2 s h h1 h2 ih =>
    rw [nextO, if_neg h, if_pos h1, if_pos h2]
    have e1 : restO { s with hiO := s.outO, o := ⌈s.o0line + s.excl⌉ - 1 } = restO s := by
      unfold restO
      rw [ints_nil (lo := s.o + 1) (by omega), if_pos h1]
      simp
    rw [← e1]
    exact ⟨(ih hi).1, fun a b => (ih hi).2 a b⟩
  | case3 s h h1 h2 =>
    rw [nextO, if_neg h, if_pos h1, if_neg h2]
    exact ⟨fun a => absurd a h2, fun _ b => absurd b h2⟩
  | case4 s h h1 h2 ih =>
    rw [nextO, if_neg h, if_neg h1, if_pos h2]
    have e1 : restO s = [] := by
      unfold restO
      rw [ints_nil (by omega), if_neg h1]
      rfl
    have e2 : restN k s ++ restM k s = restN k { s with o := s.o + 1 } ++ restM k { s with o := s.o + 1 } := rfl
    obtain ⟨i1, i2⟩ := (nextN_rest k { s with o := s.o + 1 } hi).1 h2
    rw [e1, List.nil_append, e2, i1]
    exact ⟨(ih i2).1, fun a _ => (ih i2).2 a h2⟩
  | case5 s h h1 h2 =>
    rw [nextO, if_neg h, if_neg h1, if_neg h2]
    refine ⟨fun a => absurd a h2, fun _ b => ?_⟩
    have e1 : restO s = [] := by
      unfold restO
      rw [ints_nil (by omega), if_neg h1]
      rfl
    rw [e1, List.nil_append]
    exact (nextN_rest k { s with o := s.o + 1 } hi).2 h2 b

theorem visits_eq (s : St) (hi : Inv k s) (hm : s.m < k.hiM) :
    visits k s = (s.m, s.n, s.o) :: (restO s ++ (restN k s ++ restM k s)) := by
  induction s using visits.induct k with
  | case1 s h ih =>
    rw [visits, if_pos h]
    refine List.cons_eq_cons.2 ⟨rfl, ?_⟩
    obtain ⟨h1, h2⟩ := nextO_rest k s hi
    by_cases hf : (nextO k s).m < k.hiM
    · obtain ⟨a, b⟩ := h1 hf
      rw [a]
      exact ih b hf
    · rw [h2 hf h, visits, if_neg hf]
  | case2 s h => exact absurd hm h

/-- The points visited, as nested lists. -/
theorem points_eq : points k = (ints (-k.hiM + 1) k.hiM).flatMap (plane k) := by
  have hi : Inv k (start k) := by
    intro h
    simp [start] at h
  have e : restO (start k) ++ (restN k (start k) ++ restM k (start k)) =
      (ints (-k.hiM + 1) k.hiM).flatMap (plane k) := by
    simp [restO, restN, restM, start, ints]
  obtain ⟨h1, h2⟩ := nextO_rest k (start k) hi
  rw [← e]
  unfold points
  by_cases hf : (nextO k (start k)).m < k.hiM
  · obtain ⟨a, b⟩ := h1 hf
    rw [a]
    exact visits_eq k _ b hf
  · rw [visits, if_neg hf]
    by_cases hs : (start k).m < k.hiM
    · exact (h2 hf hs).symm
    · rw [e, ints_nil (by simp only [start] at hs; omega)]
      rfl

end Pdffit.Sphere
