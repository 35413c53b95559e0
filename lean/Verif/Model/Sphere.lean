import Mathlib.Analysis.SpecialFunctions.Trigonometric.Basic
import Mathlib.Analysis.SpecialFunctions.Sqrt
import Mathlib.Algebra.Order.Floor.Ring

/-!
# Lattice points in a spherical shell (PointsInSphere.cc, PointsInSphere.h)

* Numbers are real; `int(ceil(x))`, `int(floor(x))` are the exact integers.
* The loops of `next_o` and `next_n` are recursive functions; that Lean accepts them is the proof that
  these loops end.
* The reciprocal angles `alphar, betar, gammar` are not used by `PointsInSphere` and are left out.
-/

namespace Pdffit.Sphere

/-- `LatticeParameters` (PointsInSphere.h 54-74): edges, cosines and sines of the angles. -/
structure Lat where
  a : ℝ
  b : ℝ
  c : ℝ
  ca : ℝ
  cb : ℝ
  cg : ℝ
  sa : ℝ
  sb : ℝ
  sg : ℝ

/-- Constructor (PointsInSphere.cc 30-36) with `cosd`, `sind` (PointsInSphere.h 72-73). -/
noncomputable def Lat.of (a b c alpha beta gamma : ℝ) : Lat where
  a := a
  b := b
  c := c
  ca := Real.cos (Real.pi / 180 * alpha)
  cb := Real.cos (Real.pi / 180 * beta)
  cg := Real.cos (Real.pi / 180 * gamma)
  sa := Real.sin (Real.pi / 180 * alpha)
  sb := Real.sin (Real.pi / 180 * beta)
  sg := Real.sin (Real.pi / 180 * gamma)

namespace Lat
variable (l : Lat)

/-- `update` (PointsInSphere.cc 38-54), the values that are used later. -/
noncomputable def vunit : ℝ := √(1 + 2 * l.ca * l.cb * l.cg - l.ca * l.ca - l.cb * l.cb - l.cg * l.cg)
noncomputable def ar : ℝ := l.sa / (l.a * l.vunit)
noncomputable def br : ℝ := l.sb / (l.b * l.vunit)
noncomputable def cr : ℝ := l.sg / (l.c * l.vunit)
noncomputable def cbr : ℝ := (l.ca * l.cg - l.cb) / (l.sa * l.sg)
noncomputable def cgr : ℝ := (l.ca * l.cb - l.cg) / (l.sa * l.sb)

end Lat

/-- The constant members of a `PointsInSphere` object. -/
structure Cst where
  rmin : ℝ
  rmax : ℝ
  lat : Lat

namespace Cst
variable (k : Cst)

/-- `init` (PointsInSphere.cc 100-113). -/
noncomputable def rmin2 : ℝ := if k.rmin < 0 then -(k.rmin * k.rmin) else k.rmin * k.rmin
noncomputable def rmax2 : ℝ := if k.rmax < 0 then -(k.rmax * k.rmax) else k.rmax * k.rmax
noncomputable def dn0dm : ℝ := k.lat.cgr * k.lat.br / k.lat.ar
noncomputable def do0dm : ℝ := k.lat.cbr * k.lat.cr / k.lat.ar
noncomputable def b2r : ℝ := 1 / (k.lat.b * k.lat.sa)
noncomputable def c2r : ℝ := 1 / (k.lat.c * k.lat.sa)
noncomputable def ca2r : ℝ := -k.lat.ca
noncomputable def do0dn : ℝ := k.ca2r * k.c2r / k.b2r
noncomputable def c1r : ℝ := 1 / k.lat.c
/-- `hi_m` (PointsInSphere.cc 117-118), constant after `rewind`. -/
noncomputable def hiM : ℤ := ⌈k.rmax * k.lat.ar⌉

end Cst

/-- The loop variables (PointsInSphere.h 115-120). -/
structure St where
  m : ℤ
  n : ℤ
  o : ℤ
  hiN : ℤ
  hiO : ℤ
  outO : ℤ
  n0plane : ℝ
  o0plane : ℝ
  o0line : ℝ
  excl : ℝ
  rplane2 : ℝ

section
variable (k : Cst)

/-- `next_m` (PointsInSphere.cc 178-192). -/
noncomputable def nextM (s : St) : St :=
  let m := s.m + 1
  if m < k.hiM then
    let n0 : ℝ := m * k.dn0dm
    let o0 : ℝ := m * k.do0dm
    let rp := k.rmax2 - (m / k.lat.ar) ^ 2
    let half := if 0 < rp then √rp * k.b2r else 0
    { s with m := m, n0plane := n0, o0plane := o0, rplane2 := rp, n := ⌊n0 - half⌋, hiN := ⌈n0 + half⌉ }
  else { s with m := m }

theorem nextM_m (s : St) : (nextM k s).m = s.m + 1 := by
  unfold nextM
  dsimp only
  split <;> rfl

/-- The body of `next_n` for a valid `n` (PointsInSphere.cc 157-171). -/
noncomputable def setLine (s : St) (n : ℤ) : St :=
  let o0 := s.o0plane + (n - s.n0plane) * k.do0dn
  let rl := s.rplane2 - ((n - s.n0plane) / k.b2r) ^ 2
  let half := if 0 < rl then √rl * k.c1r else 0
  let re := k.rmin2 + (rl - k.rmax2)
  let excl := if 0 < re then √re * k.c1r else 0
  let out := ⌈o0 + half⌉
  let hole := ⌈o0 - excl⌉
  { s with
    n := n
    o0line := o0
    excl := excl
    o := ⌊o0 - half⌋
    outO := out
    hiO := if excl ≠ 0 ∧ |(hole : ℝ) - o0| < excl then hole else out }

/-- `next_n` (PointsInSphere.cc 150-176). -/
noncomputable def nextN (s : St) : St :=
  if s.n + 1 < s.hiN then setLine k s (s.n + 1)
  else
    if (nextM k { s with n := s.n + 1 }).m < k.hiM then nextN (nextM k { s with n := s.n + 1 })
    else nextM k { s with n := s.n + 1 }
termination_by (k.hiM - s.m).toNat
decreasing_by
  have := nextM_m k { s with n := s.n + 1 }
  dsimp only at this
  omega

/-- `next_n` moves forward. -/
theorem nextN_lex (s : St) : s.m < (nextN k s).m ∨
    (nextN k s).m = s.m ∧ (nextN k s).n = s.n + 1 ∧ (nextN k s).hiN = s.hiN ∧ s.n + 1 < s.hiN := by
  induction s using nextN.induct k with
  | case1 s h => rw [nextN, if_pos h]; exact Or.inr ⟨rfl, rfl, rfl, h⟩
  | case2 s h h' ih =>
    rw [nextN, if_neg h, if_pos h']
    have hm := nextM_m k { s with n := s.n + 1 }
    dsimp only at hm
    omega
  | case3 s h h' =>
    rw [nextN, if_neg h, if_neg h']
    have hm := nextM_m k { s with n := s.n + 1 }
    dsimp only at hm
    omega

/-- `next_o` (PointsInSphere.cc 130-148). -/
noncomputable def nextO (s : St) : St :=
  if s.o + 1 < s.hiO then { s with o := s.o + 1 }
  else if s.hiO ≠ s.outO then
    if s.m < k.hiM then nextO { s with hiO := s.outO, o := ⌈s.o0line + s.excl⌉ - 1 }
    else { s with hiO := s.outO, o := ⌈s.o0line + s.excl⌉ - 1 }
  else
    if (nextN k { s with o := s.o + 1 }).m < k.hiM then nextO (nextN k { s with o := s.o + 1 })
    else nextN k { s with o := s.o + 1 }
termination_by ((k.hiM - s.m).toNat, (s.hiN - s.n).toNat, if s.hiO ≠ s.outO then 1 else 0)
decreasing_by
  · rename_i h _
    simp [h, Prod.lex_def]
  · rename_i h2
    have := nextN_lex k { s with o := s.o + 1 }
    dsimp only at this
    simp only [Prod.lex_def]
    omega

/-- `next_o` moves forward. -/
theorem nextO_lex (s : St) : s.m < (nextO k s).m ∨
    (nextO k s).m = s.m ∧ (nextO k s).hiN = s.hiN ∧ (s.n < (nextO k s).n ∧ (nextO k s).n < s.hiN ∨
      (nextO k s).n = s.n ∧ (nextO k s).outO = s.outO ∧
        (((nextO k s).hiO = s.hiO ∧ s.o < (nextO k s).o ∧ (nextO k s).o < s.hiO) ∨
          (s.hiO ≠ s.outO ∧ (nextO k s).hiO = s.outO))) := by
  induction s using nextO.induct k with
  | case1 s h =>
    rw [nextO, if_pos h]
    exact Or.inr ⟨rfl, rfl, Or.inr ⟨rfl, rfl, Or.inl ⟨rfl, by simp, h⟩⟩⟩
  | case2 s h h1 h2 ih =>
    rw [nextO, if_neg h, if_pos h1, if_pos h2]
    dsimp only at ih
    omega
  | case3 s h h1 h2 =>
    rw [nextO, if_neg h, if_pos h1, if_neg h2]
    exact Or.inr ⟨rfl, rfl, Or.inr ⟨rfl, rfl, Or.inr ⟨h1, rfl⟩⟩⟩
  | case4 s h h1 h2 ih =>
    rw [nextO, if_neg h, if_neg h1, if_pos h2]
    have := nextN_lex k { s with o := s.o + 1 }
    dsimp only at this
    omega
  | case5 s h h1 h2 =>
    rw [nextO, if_neg h, if_neg h1, if_neg h2]
    have := nextN_lex k { s with o := s.o + 1 }
    dsimp only at this
    omega

/-- `rewind` up to the call of `next_o` (PointsInSphere.cc 115-127). -/
noncomputable def start : St := ⟨-k.hiM, 0, 0, 0, 0, 0, 0, 0, 0, 0, 0⟩

/-- The loop `for (...; !sph.finished(); sph.next())` from a state on: the points that are visited. -/
noncomputable def visits (s : St) : List (ℤ × ℤ × ℤ) :=
  if s.m < k.hiM then (s.m, s.n, s.o) :: visits (nextO k s) else []
termination_by ((k.hiM - s.m).toNat, (s.hiN - s.n).toNat, (if s.hiO ≠ s.outO then 1 else 0), (s.hiO - s.o).toNat)
decreasing_by
  have := nextO_lex k s
  simp only [Prod.lex_def]
  split <;> split <;> omega

/-- All points visited by `for (sph.rewind(); !sph.finished(); sph.next())`. -/
noncomputable def points : List (ℤ × ℤ × ℤ) := visits k (nextO k (start k))

end
end Pdffit.Sphere
