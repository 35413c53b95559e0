import Verif.Basic
import Mathlib.Data.Rat.Floor

/-!
# Numbers that are not finite: checks of arguments and conversions to `int`

The comparisons by which the code checks its arguments, and the conversions to `int` that follow, for numbers as in IEEE 754:
finite numbers, two infinities, NaN. Simplified: finite numbers are exact (rounding is the subject of C86) and there is only one zero.
-/

namespace Pdffit.Special

/-- A number. -/
inductive Dbl where
  | num (x : ℚ)
  | pinf
  | ninf
  | nan
  deriving DecidableEq

namespace Dbl

def neg : Dbl → Dbl
  | num x => num (-x)
  | pinf => ninf
  | ninf => pinf
  | nan => nan

def add : Dbl → Dbl → Dbl
  | num x, num y => num (x + y)
  | nan, _ => nan
  | _, nan => nan
  | pinf, ninf => nan
  | ninf, pinf => nan
  | pinf, _ => pinf
  | _, pinf => pinf
  | ninf, _ => ninf
  | _, ninf => ninf

def sub (a b : Dbl) : Dbl := add a (neg b)

/-- An infinity with the sign of `x`. -/
def signed (x : ℚ) : Dbl := if x = 0 then nan else if 0 < x then pinf else ninf

def mul : Dbl → Dbl → Dbl
  | num x, num y => num (x * y)
  | nan, _ => nan
  | _, nan => nan
  | num x, pinf => signed x
  | pinf, num x => signed x
  | num x, ninf => signed (-x)
  | ninf, num x => signed (-x)
  | pinf, pinf => pinf
  | ninf, ninf => pinf
  | pinf, ninf => ninf
  | ninf, pinf => ninf

/-- The zero in a denominator is positive: the denominators of the code below are differences of equal numbers and counts. -/
def div : Dbl → Dbl → Dbl
  | num x, num y => if y = 0 then signed x else num (x / y)
  | nan, _ => nan
  | _, nan => nan
  | num _, _ => num 0
  | pinf, num y => if y < 0 then ninf else pinf
  | ninf, num y => if y < 0 then pinf else ninf
  | _, _ => nan

/-- `<` -/
def lt : Dbl → Dbl → Bool
  | num x, num y => x < y
  | num _, pinf => true
  | ninf, num _ => true
  | ninf, pinf => true
  | _, _ => false

/-- `<=` -/
def le : Dbl → Dbl → Bool
  | num x, num y => x ≤ y
  | nan, _ => false
  | _, nan => false
  | ninf, _ => true
  | _, pinf => true
  | _, _ => false

/-- `sqrt`, with any function on the finite numbers. -/
def sqrt (sq : ℚ → ℚ) : Dbl → Dbl
  | num x => num (sq x)
  | pinf => pinf
  | _ => nan

/-- `std::max(a, b)`, `std::min(a, b)`: `a` unless `b` compares as greater, less. -/
def cmax (a b : Dbl) : Dbl := if lt a b then b else a
def cmin (a b : Dbl) : Dbl := if lt b a then b else a

/-- `cosd` (MathUtils.h 71), with any function on the finite numbers. -/
def cosd (c : ℚ → ℚ) : Dbl → Dbl
  | num x => num (c x)
  | _ => nan

/-- A conversion to `int` of a number that has been rounded by `f`: undefined unless the value is an `int`. -/
def toInt (f : ℚ → ℤ) : Dbl → Res ℤ
  | num x => if -2 ^ 31 ≤ f x ∧ f x ≤ 2 ^ 31 - 1 then .ok (f x) else .ub
  | _ => .ub

end Dbl

open Dbl

/-- Rounding half away from zero. -/
def round (x : ℚ) : ℤ := if 0 ≤ x then ⌊x + 1 / 2⌋ else ⌈x - 1 / 2⌉

/-- `nint` (MathUtils.h 47-50), `int(ceil(x))` -/
def nint : Dbl → Res ℤ := toInt round
def iceil : Dbl → Res ℤ := toInt fun x => ⌈x⌉

/-- A data set. -/
structure DSet where
  rmin : Dbl
  rmax : Dbl
  rfmin : Dbl
  rfmax : Dbl
  deltar : Dbl
  qmax : Dbl
  qdamp : Dbl
  bin : ℤ

/-- `alloc` (pdf.cc 49-82) -/
def alloc (qmax qdamp rmin rmax : Dbl) (bin : ℤ) : Res DSet :=
  if lt rmax rmin || lt rmin (num 0) || lt rmax (num 0) then .err .value
  else if bin ≤ 1 then .err .value
  else if lt qmax (num 0) then .err .value
  else if lt qdamp (num 0) then .err .value
  else .ok ⟨rmin, rmax, rmin, rmax, div (sub rmax rmin) (num (bin - 1 : ℤ)), qmax, qdamp, bin⟩

/-- `DataSet::range` (pdf.cc 1640-1652) -/
def DSet.range (d : DSet) (lo hi : Dbl) : Res DSet :=
  if le d.rmin lo && le lo d.rmax && le hi d.rmax && lt lo hi then .ok { d with rfmin := lo, rfmax := hi } else .err .value

/-- The index of a distance (pdf.cc 167-168, 338-339, 827-838). -/
def DSet.index (d : DSet) (r : Dbl) : Res ℤ := nint (div (sub r d.rmin) d.deltar)

/-- The double nearest to π. -/
def mpi : ℚ := 884279719003555 / 281474976710656

/-- The limits of the calculation (pdf.cc 822-836). -/
def DSet.limits (d : DSet) : Dbl × Dbl :=
  if lt (num 0) d.qmax then
    let rext := div (num (12 * mpi)) d.qmax
    (cmax d.rmin (sub d.rfmin rext), add d.rfmax rext)
  else (d.rfmin, d.rfmax)

/-- The frequency at which `applyQmaxCutoff` cuts (pdf.cc 111-130), `padlen` points. -/
def DSet.loQ (d : DSet) (padlen : ℤ) : Res ℤ :=
  iceil (div d.qmax (div (num (2 * mpi)) (mul (num (padlen - 1 : ℤ)) d.deltar)))

/-- The indices of `determine` that depend on the data set only (pdf.cc 166-171, 409-411): the fitted points, the calculated points, and the frequency if
there is a cutoff. `pad` is the length of the transform for a number of points. -/
def DSet.indices (d : DSet) (pad : ℤ → ℤ) : Res ((ℤ × ℤ) × (ℤ × ℤ) × Option ℤ) := do
  let nfmin ← d.index d.rfmin
  let nfmax ← d.index d.rfmax
  let ncmin ← d.index d.limits.1
  let ncmax ← d.index d.limits.2
  if lt (num 0) d.qmax then
    let q ← d.loQ (pad (ncmax - ncmin + 1))
    .ok ((nfmin, nfmax), (ncmin, ncmax), some q)
  else .ok ((nfmin, nfmax), (ncmin, ncmax), none)

/-- The first and the last point of a peak between `lo` and `hi` (pdf.cc 331-339, `dist - 5.0*sigma` and `dist + 5.0*sigma`). -/
def DSet.ib (d : DSet) (lo : Dbl) : Res ℤ := d.index (cmax d.limits.1 lo)
def DSet.ie (d : DSet) (hi : Dbl) : Res ℤ := d.index (cmin d.limits.2 hi)

/-- `double_eps` (MathUtils.h 29): 2^-26. -/
def eps : ℚ := 1 / 2 ^ 26

/-- The check of the cell in `Phase::lattice` (metric.cc 40-60) for the angles; the edges are not checked. -/
def lattice (c : ℚ → ℚ) (win : Dbl × Dbl × Dbl) : Res Unit :=
  let a := cosd c win.1
  let b := cosd c win.2.1
  let g := cosd c win.2.2
  let voll := add (sub (sub (sub (num 1) (mul a a)) (mul b b)) (mul g g)) (mul (mul (mul (num 2) a) b) g)
  if le voll (num eps) then .err .structure else .ok ()

/-- The limits of the generator in `bond_length_types` (stru.cc 769-771), `diam` is the diameter of the cell. -/
def rsph (diam : ℚ) (bmin bmax : Dbl) : Dbl × Dbl := (sub bmin (num diam), add bmax (num diam))

/-- `hi_m` (PointsInSphere.cc 117-118), which the constructor computes. -/
def hiM (ar : ℚ) (rmax : Dbl) : Res ℤ := iceil (mul rmax (num ar))

/-- A square with the sign of the number (PointsInSphere.cc 102-103). -/
def sqs (r : Dbl) : Dbl := if lt r (num 0) then neg (mul r r) else mul r r

/-- The excluded zone of a line (PointsInSphere.cc 161-170): `hole_o` if there is one. -/
def hole (sq : ℚ → ℚ) (rmin rmax rline2 o0 c1r : Dbl) : Res (Option ℤ) :=
  let re := add (sqs rmin) (sub rline2 (sqs rmax))
  let excl := if lt (num 0) re then mul (sqrt sq re) c1r else num 0
  if excl = num 0 then .ok none
  else do
    let h ← iceil (sub o0 excl)
    .ok (some h)

/-- Is a distance listed (stru.cc 793)? -/
def listed (bmin bmax dist : Dbl) : Bool := le bmin dist && le dist bmax

end Pdffit.Special
