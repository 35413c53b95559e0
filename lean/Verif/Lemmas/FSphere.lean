import Verif.Model.FSphere
import Verif.Lemmas.Sphere

/-! The enumeration of `Model/FSphere.lean` as nested lists. -/

namespace Pdffit.FSphere
open Sphere (ints mem_ints nodup_ints ints_cons ints_nil)

section
variable (f : Nums)

/-- End of the first part of a line. -/
def hi1 (m n : ℤ) : ℤ := (f.hole m n).getD (f.outO m n)

/-- `o` values of a line. -/
def oList (m n : ℤ) : List ℤ :=
  ints (f.loO m n + 1) (hi1 f m n) ++ if hi1 f m n ≠ f.outO m n then ints (f.resume m n) (f.outO m n) else []

def line (m n : ℤ) : List (ℤ × ℤ × ℤ) := (oList f m n).map fun o => (m, n, o)
def plane (m : ℤ) : List (ℤ × ℤ × ℤ) := (ints (f.loN m + 1) (f.hiN m)).flatMap (line f m)

/-- What is left after a state. -/
def restO (s : St) : List (ℤ × ℤ × ℤ) :=
  (ints (s.o + 1) s.hiO ++ if s.hiO ≠ s.outO then ints (f.resume s.m s.n) s.outO else []).map fun o => (s.m, s.n, o)
def restN (s : St) : List (ℤ × ℤ × ℤ) := (ints (s.n + 1) s.hiN).flatMap (line f s.m)
def restM (s : St) : List (ℤ × ℤ × ℤ) := (ints (s.m + 1) f.hiM).flatMap (plane f)

theorem restN_nextM {s : St} (h : s.m + 1 < f.hiM) : restN f (nextM f s) = plane f (s.m + 1) := by
  simp only [nextM, if_pos h, restN, plane]

theorem restM_nextM {s : St} (h : s.m + 1 < f.hiM) : restM f s = plane f (s.m + 1) ++ restM f (nextM f s) := by
  unfold restM
  rw [ints_cons h, List.flatMap_cons, nextM_m]

/-- `next_n` goes to the next line. -/
theorem nextN_rest (s : St) :
    ((nextN f s).m < f.hiM → restN f s ++ restM f s =
      restO f (nextN f s) ++ (restN f (nextN f s) ++ restM f (nextN f s))) ∧
    (¬ (nextN f s).m < f.hiM → s.m < f.hiM → restN f s ++ restM f s = []) := by
  induction s using nextN.induct f with
  | case1 s h =>
    have e1 : restN f s = line f s.m (s.n + 1) ++ restN f (setLine f s (s.n + 1)) := by
      unfold restN
      rw [ints_cons h, List.flatMap_cons]
      rfl
    rw [nextN, if_pos h]
    refine ⟨fun _ => ?_, fun h1 h2 => absurd h2 h1⟩
    rw [e1, List.append_assoc]
    rfl
  | case2 s h h' ih =>
    have hm := nextM_m f { s with n := s.n + 1 }
    rw [hm] at h'
    dsimp only at h'
    rw [nextN, if_neg h, if_pos (by rw [hm]; exact h')]
    have e0 : restN f s = [] := by
      unfold restN
      rw [ints_nil (by omega)]
      rfl
    have e1 : restM f s = restM f { s with n := s.n + 1 } := rfl
    have e2 := restM_nextM f (s := { s with n := s.n + 1 }) h'
    have e3 := restN_nextM f (s := { s with n := s.n + 1 }) h'
    obtain ⟨i1, i2⟩ := ih
    rw [e0, List.nil_append, e1, e2]
    dsimp only at e3
    dsimp only
    rw [← e3]
    exact ⟨i1, fun h1 _ => i2 h1 (by rw [hm]; exact h')⟩
  | case3 s h h' =>
    have hm := nextM_m f { s with n := s.n + 1 }
    rw [hm] at h'
    dsimp only at h'
    rw [nextN, if_neg h, if_neg (by rw [hm]; exact h')]
    refine ⟨fun h1 => absurd h1 (by rw [hm]; exact h'), fun _ _ => ?_⟩
    unfold restN restM
    rw [ints_nil (by omega), ints_nil (by omega)]
    rfl

/-- `next_o` goes to the next point. -/
theorem nextO_rest (s : St) :
    ((nextO f s).m < f.hiM → restO f s ++ (restN f s ++ restM f s) =
      ((nextO f s).m, (nextO f s).n, (nextO f s).o) ::
        (restO f (nextO f s) ++ (restN f (nextO f s) ++ restM f (nextO f s)))) ∧
    (¬ (nextO f s).m < f.hiM → s.m < f.hiM → restO f s ++ (restN f s ++ restM f s) = []) := by
  induction s using nextO.induct f with
  | case1 s h =>
    rw [nextO, if_pos h]
    refine ⟨fun _ => ?_, fun h1 h2 => absurd h2 h1⟩
    unfold restO
    rw [ints_cons h]
    rfl
  | case2 s h h1 h2 ih =>
    rw [nextO, if_neg h, if_pos h1, if_pos h2]
    have e1 : restO f { s with hiO := s.outO, o := f.resume s.m s.n - 1 } = restO f s := by
      unfold restO
      rw [ints_nil (lo := s.o + 1) (by omega), if_pos h1]
      simp
    rw [← e1]
    exact ⟨ih.1, fun a b => ih.2 a b⟩
  | case3 s h h1 h2 =>
    rw [nextO, if_neg h, if_pos h1, if_neg h2]
    exact ⟨fun a => absurd a h2, fun _ b => absurd b h2⟩
  | case4 s h h1 h2 ih =>
    rw [nextO, if_neg h, if_neg h1, if_pos h2]
    have e1 : restO f s = [] := by
      unfold restO
      rw [ints_nil (by omega), if_neg h1]
      rfl
    have e2 : restN f s ++ restM f s = restN f { s with o := s.o + 1 } ++ restM f { s with o := s.o + 1 } := rfl
    have i1 := (nextN_rest f { s with o := s.o + 1 }).1 h2
    rw [e1, List.nil_append, e2, i1]
    exact ⟨ih.1, fun a _ => ih.2 a h2⟩
  | case5 s h h1 h2 =>
    rw [nextO, if_neg h, if_neg h1, if_neg h2]
    refine ⟨fun a => absurd a h2, fun _ b => ?_⟩
    have e1 : restO f s = [] := by
      unfold restO
      rw [ints_nil (by omega), if_neg h1]
      rfl
    rw [e1, List.nil_append]
    exact (nextN_rest f { s with o := s.o + 1 }).2 h2 b

theorem visits_eq (s : St) (hm : s.m < f.hiM) : visits f s = (s.m, s.n, s.o) :: (restO f s ++ (restN f s ++ restM f s)) := by
  induction s using visits.induct f with
  | case1 s h ih =>
    rw [visits, if_pos h]
    refine List.cons_eq_cons.2 ⟨rfl, ?_⟩
    obtain ⟨h1, h2⟩ := nextO_rest f s
    by_cases hf : (nextO f s).m < f.hiM
    · rw [h1 hf]
      exact ih hf
    · rw [h2 hf h, visits, if_neg hf]
  | case2 s h => exact absurd hm h

/-- The points visited, as nested lists. -/
theorem points_eq : points f = (ints (-f.hiM + 1) f.hiM).flatMap (plane f) := by
  have e : restO f (start f) ++ (restN f (start f) ++ restM f (start f)) = (ints (-f.hiM + 1) f.hiM).flatMap (plane f) := by
    simp [restO, restN, restM, start, ints]
  obtain ⟨h1, h2⟩ := nextO_rest f (start f)
  rw [← e]
  unfold points
  by_cases hf : (nextO f (start f)).m < f.hiM
  · rw [h1 hf]
    exact visits_eq f _ hf
  · rw [visits, if_neg hf]
    by_cases hs : (start f).m < f.hiM
    · exact (h2 hf hs).symm
    · rw [e, ints_nil (by simp only [start] at hs; omega)]
      rfl

theorem mem_points (m n o : ℤ) : (m, n, o) ∈ points f ↔
    (-f.hiM + 1 ≤ m ∧ m < f.hiM) ∧ (f.loN m + 1 ≤ n ∧ n < f.hiN m) ∧ o ∈ oList f m n := by
  rw [points_eq, List.mem_flatMap]
  constructor
  · rintro ⟨m', hm, h⟩
    simp only [plane, List.mem_flatMap, line, List.mem_map] at h
    obtain ⟨n', hn, o', ho, e⟩ := h
    simp only [Prod.mk.injEq] at e
    obtain ⟨rfl, rfl, rfl⟩ := e
    exact ⟨mem_ints.1 hm, mem_ints.1 hn, ho⟩
  · rintro ⟨h1, h2, h3⟩
    refine ⟨m, mem_ints.2 h1, ?_⟩
    simp only [plane, List.mem_flatMap, line, List.mem_map]
    exact ⟨n, mem_ints.2 h2, o, h3, rfl⟩

theorem nodup_points (h : ∀ m n h, f.hole m n = some h → h ≤ f.resume m n) : (points f).Nodup := by
  have ho : ∀ m n, (oList f m n).Nodup := by
    intro m n
    unfold oList
    rw [List.nodup_append]
    refine ⟨nodup_ints _ _, ?_, ?_⟩
    · split
      · exact nodup_ints _ _
      · simp
    · intro x hx y hy
      split at hy
      · rename_i hne
        rw [mem_ints] at hx hy
        unfold hi1 at hx hne
        cases hc : f.hole m n with
        | none => rw [hc] at hne; simp at hne
        | some t =>
          rw [hc] at hx
          have := h m n t hc
          simp only [Option.getD_some] at hx
          omega
      · simp at hy
  rw [points_eq, List.nodup_flatMap]
  refine ⟨fun m _ => ?_, ?_⟩
  · unfold plane
    rw [List.nodup_flatMap]
    refine ⟨fun n _ => ?_, ?_⟩
    · unfold line
      exact (ho m n).map fun a b h => by simpa using h
    · refine (nodup_ints _ _).imp fun {a b} hab => ?_
      intro x h1 h2
      simp only [line, List.mem_map] at h1 h2
      obtain ⟨_, _, rfl⟩ := h1
      obtain ⟨_, _, e⟩ := h2
      simp only [Prod.mk.injEq] at e
      exact hab e.2.1.symm
  · refine (nodup_ints _ _).imp fun {a b} hab => ?_
    intro x h1 h2
    simp only [plane, line, List.mem_flatMap, List.mem_map] at h1 h2
    obtain ⟨_, _, _, _, rfl⟩ := h1
    obtain ⟨_, _, _, _, e⟩ := h2
    simp only [Prod.mk.injEq] at e
    exact hab e.1.symm

end

/-- Without rounding the sequencer is that of `Model/Sphere.lean`. -/
theorem points_exact (k : Sphere.Cst) : points (numsOf id Real.sqrt (exact k)) = Sphere.points k := by
  rw [points_eq, Sphere.points_eq]
  have e0 : (numsOf id Real.sqrt (exact k)).hiM = k.hiM := rfl
  have hre : ∀ m n, re id (exact k) m n = Sphere.re k m n := by
    intro m n
    simp only [re, rl, rp, n0, exact, id, Sphere.re, Sphere.rl, Sphere.rp, Sphere.n0]
    ring
  have hrl : ∀ m n, rl id (exact k) m n = Sphere.rl k m n := by
    intro m n
    simp only [rl, rp, n0, exact, id, Sphere.rl, Sphere.rp, Sphere.n0]
    ring
  have hrp : ∀ m, rp id (exact k) m = Sphere.rp k m := by
    intro m
    simp only [rp, exact, id, Sphere.rp]
    ring
  have ho0 : ∀ m n, o0 id (exact k) m n = Sphere.o0 k m n := fun _ _ => rfl
  have hoh : ∀ m n, oHalf id Real.sqrt (exact k) m n = Sphere.oHalf k m n := by
    intro m n
    unfold oHalf Sphere.oHalf
    rw [hrl]
    rfl
  have hex : ∀ m n, exc id Real.sqrt (exact k) m n = Sphere.exc k m n := by
    intro m n
    unfold exc Sphere.exc
    rw [hre]
    rfl
  have hnh : ∀ m, nHalf id Real.sqrt (exact k) m = Sphere.nHalf k m := by
    intro m
    unfold nHalf Sphere.nHalf
    rw [hrp]
    rfl
  have hn0 : ∀ m, n0 id (exact k) m = Sphere.n0 k m := fun _ => rfl
  rw [e0]
  congr 1
  funext m
  unfold plane Sphere.plane
  simp only [numsOf, id, hn0, hnh]
  congr 1
  funext n
  unfold line Sphere.line
  congr 1
  unfold oList Sphere.oList
  have hh : hi1 (numsOf id Real.sqrt (exact k)) m n = Sphere.hi1 k m n := by
    unfold hi1 Sphere.hi1 Sphere.Hole
    simp only [numsOf, id, ho0, hoh, hex]
    split_ifs <;> rfl
  have e1 : (numsOf id Real.sqrt (exact k)).loO m n = ⌊Sphere.o0 k m n - Sphere.oHalf k m n⌋ := by simp only [numsOf, id, ho0, hoh]
  have e2 : (numsOf id Real.sqrt (exact k)).outO m n = ⌈Sphere.o0 k m n + Sphere.oHalf k m n⌉ := by simp only [numsOf, id, ho0, hoh]
  have e3 : (numsOf id Real.sqrt (exact k)).resume m n = ⌈Sphere.o0 k m n + Sphere.exc k m n⌉ := by simp only [numsOf, id, ho0, hex]
  show ints ((numsOf id Real.sqrt (exact k)).loO m n + 1) (hi1 (numsOf id Real.sqrt (exact k)) m n) ++
    (if hi1 (numsOf id Real.sqrt (exact k)) m n ≠ (numsOf id Real.sqrt (exact k)).outO m n then
      ints ((numsOf id Real.sqrt (exact k)).resume m n) ((numsOf id Real.sqrt (exact k)).outO m n) else []) = _
  rw [hh, e1, e2, e3]

end Pdffit.FSphere
