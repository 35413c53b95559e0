import Verif.Model.Sphere
import Verif.Model.FAngle

/-!
# The sequencer of lattice points in any arithmetic (PointsInSphere.cc)

The control flow of `PointsInSphere` works on integers, which are obtained from computed numbers. Here the integers are given by a record
`Nums`, so that the same control flow runs on numbers of any arithmetic. `numsOf` computes them with operations that are
rounded by a function `rnd`, `pow(x, 2)` as a rounded product; without rounding it is the sequencer of `Model/Sphere.lean`.
-/

namespace Pdffit.FSphere

/-- The integers that the code computes. -/
structure Nums where
  /-- `hi_m` (PointsInSphere.cc 118) -/
  hiM : ℤ
  /-- `int(floor(n0plane - nHalfSpan))` in the plane `m` (PointsInSphere.cc 190) -/
  loN : ℤ → ℤ
  /-- `int(ceil(n0plane + nHalfSpan))` (PointsInSphere.cc 191) -/
  hiN : ℤ → ℤ
  /-- `int(floor(o0line - oHalfSpan))` in the line `m`, `n` (PointsInSphere.cc 163) -/
  loO : ℤ → ℤ → ℤ
  /-- `int(ceil(o0line + oHalfSpan))` (PointsInSphere.cc 164) -/
  outO : ℤ → ℤ → ℤ
  /-- `hole_o` if the line has a hole (PointsInSphere.cc 166-170) -/
  hole : ℤ → ℤ → Option ℤ
  /-- `int(ceil(o0line + oExclHalfSpan))` (PointsInSphere.cc 142) -/
  resume : ℤ → ℤ → ℤ

/-- The loop variables (PointsInSphere.h 115-120) that are integers. -/
structure St where
  m : ℤ
  n : ℤ
  o : ℤ
  hiN : ℤ
  hiO : ℤ
  outO : ℤ

section
variable (f : Nums)

/-- `next_m` (PointsInSphere.cc 178-192). -/
def nextM (s : St) : St :=
  if s.m + 1 < f.hiM then { s with m := s.m + 1, n := f.loN (s.m + 1), hiN := f.hiN (s.m + 1) } else { s with m := s.m + 1 }

theorem nextM_m (s : St) : (nextM f s).m = s.m + 1 := by
  unfold nextM
  split <;> rfl

/-- The body of `next_n` for a valid `n` (PointsInSphere.cc 157-171). -/
def setLine (s : St) (n : ℤ) : St :=
  { s with n := n, o := f.loO s.m n, outO := f.outO s.m n, hiO := (f.hole s.m n).getD (f.outO s.m n) }

/-- `next_n` (PointsInSphere.cc 150-176). -/
def nextN (s : St) : St :=
  if s.n + 1 < s.hiN then setLine f s (s.n + 1)
  else
    if (nextM f { s with n := s.n + 1 }).m < f.hiM then nextN (nextM f { s with n := s.n + 1 })
    else nextM f { s with n := s.n + 1 }
termination_by (f.hiM - s.m).toNat
decreasing_by
  have := nextM_m f { s with n := s.n + 1 }
  dsimp only at this
  omega

/-- `next_n` moves forward. -/
theorem nextN_lex (s : St) : s.m < (nextN f s).m ∨
    (nextN f s).m = s.m ∧ (nextN f s).n = s.n + 1 ∧ (nextN f s).hiN = s.hiN ∧ s.n + 1 < s.hiN := by
  induction s using nextN.induct f with
  | case1 s h => rw [nextN, if_pos h]; exact Or.inr ⟨rfl, rfl, rfl, h⟩
  | case2 s h h' ih =>
    rw [nextN, if_neg h, if_pos h']
    have hm := nextM_m f { s with n := s.n + 1 }
    dsimp only at hm
    omega
  | case3 s h h' =>
    rw [nextN, if_neg h, if_neg h']
    have hm := nextM_m f { s with n := s.n + 1 }
    dsimp only at hm
    omega

/-- `next_o` (PointsInSphere.cc 130-148). -/
def nextO (s : St) : St :=
  if s.o + 1 < s.hiO then { s with o := s.o + 1 }
  else if s.hiO ≠ s.outO then
    if s.m < f.hiM then nextO { s with hiO := s.outO, o := f.resume s.m s.n - 1 }
    else { s with hiO := s.outO, o := f.resume s.m s.n - 1 }
  else
    if (nextN f { s with o := s.o + 1 }).m < f.hiM then nextO (nextN f { s with o := s.o + 1 })
    else nextN f { s with o := s.o + 1 }
termination_by ((f.hiM - s.m).toNat, (s.hiN - s.n).toNat, if s.hiO ≠ s.outO then 1 else 0)
decreasing_by
  · rename_i h _
    simp [h, Prod.lex_def]
  · rename_i h2
    have := nextN_lex f { s with o := s.o + 1 }
    dsimp only at this
    simp only [Prod.lex_def]
    omega

/-- `next_o` moves forward. -/
theorem nextO_lex (s : St) : s.m < (nextO f s).m ∨
    (nextO f s).m = s.m ∧ (nextO f s).hiN = s.hiN ∧ (s.n < (nextO f s).n ∧ (nextO f s).n < s.hiN ∨
      (nextO f s).n = s.n ∧ (nextO f s).outO = s.outO ∧
        (((nextO f s).hiO = s.hiO ∧ s.o < (nextO f s).o ∧ (nextO f s).o < s.hiO) ∨
          (s.hiO ≠ s.outO ∧ (nextO f s).hiO = s.outO))) := by
  induction s using nextO.induct f with
  | case1 s h =>
    rw [nextO, if_pos h]
    exact Or.inr ⟨rfl, rfl, Or.inr ⟨rfl, rfl, Or.inl ⟨rfl, by simp, h⟩⟩⟩
  | case2 s h h1 h2 ih =>
    rw [nextO, if_neg h, if_pos h1, if_pos h2]
    dsimp only at ih
    omega
  | case3 s h h1 h2 =>
    rw [nextO, if_neg h, if_pos h1, if_neg h2]
    exact Or.inr ⟨rfl, rfl, Or.inr ⟨rfl, rfl, Or.inr ⟨h1, rfl⟩⟩⟩
  | case4 s h h1 h2 ih =>
    rw [nextO, if_neg h, if_neg h1, if_pos h2]
    have := nextN_lex f { s with o := s.o + 1 }
    dsimp only at this
    omega
  | case5 s h h1 h2 =>
    rw [nextO, if_neg h, if_neg h1, if_neg h2]
    have := nextN_lex f { s with o := s.o + 1 }
    dsimp only at this
    omega

/-- `rewind` up to the call of `next_o` (PointsInSphere.cc 115-127). -/
def start : St := ⟨-f.hiM, 0, 0, 0, 0, 0⟩

/-- The loop `for (...; !sph.finished(); sph.next())` from a state on: the points that are visited. -/
def visits (s : St) : List (ℤ × ℤ × ℤ) :=
  if s.m < f.hiM then (s.m, s.n, s.o) :: visits (nextO f s) else []
termination_by ((f.hiM - s.m).toNat, (s.hiN - s.n).toNat, (if s.hiO ≠ s.outO then 1 else 0), (s.hiO - s.o).toNat)
decreasing_by
  have := nextO_lex f s
  simp only [Prod.lex_def]
  split <;> split <;> omega

/-- All points visited by `for (sph.rewind(); !sph.finished(); sph.next())`. -/
def points : List (ℤ × ℤ × ℤ) := visits f (nextO f (start f))

end

/-- The computed constants (PointsInSphere.cc 100-118). -/
structure Cst (K : Type) where
  rmin2 : K
  rmax2 : K
  mHalf : K
  ar : K
  dn0dm : K
  do0dm : K
  b2r : K
  do0dn : K
  c1r : K

section
variable {K : Type} [Field K] [LinearOrder K] [FloorRing K] (rnd sq : K → K) (c : Cst K)

/-- `n0plane`, `o0plane`, `RplaneSquare`, `nHalfSpan` (PointsInSphere.cc 186-189). -/
def n0 (m : ℤ) : K := rnd (m * c.dn0dm)
@[inherit_doc n0] def o0p (m : ℤ) : K := rnd (m * c.do0dm)
@[inherit_doc n0] def rp (m : ℤ) : K := rnd (c.rmax2 - rnd (rnd (m / c.ar) * rnd (m / c.ar)))
@[inherit_doc n0] def nHalf (m : ℤ) : K := if 0 < rp rnd c m then rnd (rnd (sq (rp rnd c m)) * c.b2r) else 0

/-- `o0line`, `RlineSquare`, `oHalfSpan`, `RExclSquare`, `oExclHalfSpan` (PointsInSphere.cc 157-162). -/
def o0 (m n : ℤ) : K := rnd (o0p rnd c m + rnd (rnd (n - n0 rnd c m) * c.do0dn))
@[inherit_doc o0] def rl (m n : ℤ) : K :=
  rnd (rp rnd c m - rnd (rnd (rnd (n - n0 rnd c m) / c.b2r) * rnd (rnd (n - n0 rnd c m) / c.b2r)))
@[inherit_doc o0] def oHalf (m n : ℤ) : K := if 0 < rl rnd c m n then rnd (rnd (sq (rl rnd c m n)) * c.c1r) else 0
@[inherit_doc o0] def re (m n : ℤ) : K := rnd (c.rmin2 + rnd (rl rnd c m n - c.rmax2))
@[inherit_doc o0] def exc (m n : ℤ) : K := if 0 < re rnd c m n then rnd (rnd (sq (re rnd c m n)) * c.c1r) else 0

/-- The integers computed with rounded operations; `sq` is `sqrt`. -/
def numsOf : Nums where
  hiM := ⌈c.mHalf⌉
  loN m := ⌊rnd (n0 rnd c m - nHalf rnd sq c m)⌋
  hiN m := ⌈rnd (n0 rnd c m + nHalf rnd sq c m)⌉
  loO m n := ⌊rnd (o0 rnd c m n - oHalf rnd sq c m n)⌋
  outO m n := ⌈rnd (o0 rnd c m n + oHalf rnd sq c m n)⌉
  hole m n :=
    let h := ⌈rnd (o0 rnd c m n - exc rnd sq c m n)⌉
    if exc rnd sq c m n ≠ 0 ∧ |rnd ((h : K) - o0 rnd c m n)| < exc rnd sq c m n then some h else none
  resume m n := ⌈rnd (o0 rnd c m n + exc rnd sq c m n)⌉

end

/-- The constants of the exact sequencer. -/
noncomputable def exact (k : Sphere.Cst) : Cst ℝ :=
  ⟨k.rmin2, k.rmax2, k.rmax * k.lat.ar, k.lat.ar, k.dn0dm, k.do0dm, k.b2r, k.do0dn, k.c1r⟩

end Pdffit.FSphere
