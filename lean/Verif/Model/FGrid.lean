import Verif.Model.Binary

/-!
# The grid of a data set in double arithmetic

The numbers behind `getR`, `pdfrange` and the indices of `determine`, each basic operation followed by the rounding `rnd`.
`Model/Determine.lean` and `Model/Lists.lean` have the same code with exact numbers.
Comparisons, `max`, `min`, `round` and conversions from `int` are exact in double arithmetic too.
-/

namespace Pdffit.FGrid

/-- `nint` (MathUtils.h 47-50): the double is rounded half away from zero. Conversions to `int` that overflow are the subject of C63. -/
def nint (x : ℚ) : ℤ := if 0 ≤ x then ⌊x + 1 / 2⌋ else ⌈x - 1 / 2⌉

/-- `(int) x` -/
def trunc (x : ℚ) : ℤ := if 0 ≤ x then ⌊x⌋ else ⌈x⌉

/-- A data set (pdffit.h 377-398). -/
structure G where
  rmin : ℚ
  rmax : ℚ
  rfmin : ℚ
  rfmax : ℚ
  deltar : ℚ
  qmax : ℚ
  bin : ℕ
  nfmin : ℤ
  nfmax : ℤ
  deriving DecidableEq

/-- Where the data come from. -/
inductive Src where
  | alloc
  | arrays
  | text
  deriving DecidableEq

section
variable (rnd : ℚ → ℚ)

/-- A new data set with `bin` points from `lo` to `hi`: pdf.cc 76-82, 1434-1437, 1565-1570. Data that are read have passed the checks before. -/
def load (src : Src) (qmax lo hi : ℚ) (bin : ℕ) : G :=
  { rmin := lo, rmax := hi, rfmin := lo, rfmax := hi, deltar := rnd (rnd (hi - lo) / ((bin - 1 : ℤ) : ℚ)), qmax := qmax, bin := bin
    nfmin := 0, nfmax := if src = .text then bin - 1 else 0 }

namespace G
variable (g : G)

/-- The index of a distance (pdf.cc 167-168, 338-339, 827-828, 837-838). -/
def index (r : ℚ) : ℤ := nint (rnd (rnd (r - g.rmin) / g.deltar))

/-- The distance of a point (misc.cc 914, pdf.cc 344, 365). -/
def point (i : ℤ) : ℚ := rnd (rnd (i * g.deltar) + g.rmin)

/-- `DataSet::range` (pdf.cc 1640-1652), `none` is the `ValueError`. -/
def range (lo hi : ℚ) : Option G :=
  if g.rmin ≤ lo ∧ lo ≤ g.rmax ∧ hi ≤ g.rmax ∧ lo < hi then some { g with rfmin := lo, rfmax := hi } else none

/-- The double nearest to π. -/
def mpi : ℚ := 884279719003555 / 281474976710656

/-- The width of the ripples (pdf.cc 832). -/
def rext : ℚ := rnd (rnd (12 * mpi) / g.qmax)

/-- The limits of the calculation (pdf.cc 825-836). -/
def rcmin : ℚ := if 0 < g.qmax then max g.rmin (rnd (g.rfmin - g.rext rnd)) else g.rfmin
def rcmax : ℚ := if 0 < g.qmax then rnd (g.rfmax + g.rext rnd) else g.rfmax
def ncmin : ℤ := g.index rnd (g.rcmin rnd)
def ncmax : ℤ := g.index rnd (g.rcmax rnd)

/-- The first and the last point of a peak whose limits are `lo` and `hi` as doubles, the latter already cut off by `stepcut` (pdf.cc 331-339). -/
def ib (lo : ℚ) : ℤ := g.index rnd (max (g.rcmin rnd) lo)
def ie (hi : ℚ) : ℤ := g.index rnd (min (g.rcmax rnd) hi)

/-- The part of `determine` which sets the fitted points (pdf.cc 167-168). -/
def determine : G := { g with nfmin := g.index rnd g.rfmin, nfmax := g.index rnd g.rfmax }

/-- `getR` (misc.cc 896-918) -/
def getR : List ℚ :=
  if g.nfmax - g.nfmin + 1 = 1 then (List.range (trunc (rnd (rnd (g.rmax - g.rmin) / g.deltar)) + 1).toNat).map fun i : ℕ => g.point rnd (i : ℤ)
  else (List.range (g.nfmax - g.nfmin + 1).toNat).map fun i : ℕ => g.point rnd (g.nfmin + (i : ℤ))

/-- The number of points of `getpdf_obs`, `getpdf_fit` and `getpdf_diff` (misc.cc 938-946, 970-979, 1001-1011). -/
def nobs : ℕ := (g.nfmax - g.nfmin + 1).toNat

end G

/-- Calls on a data set. -/
inductive Op where
  /-- `pdfrange` -/
  | range (lo hi : ℚ)
  /-- `setvar("qmax", q)` and the constraints -/
  | setq (q : ℚ)
  /-- `calc`, or a step of a refinement -/
  | determine

/-- A rejected `pdfrange` changes nothing. -/
def step (g : G) : Op → G
  | .range lo hi => (g.range lo hi).getD g
  | .setq q => { g with qmax := q }
  | .determine => g.determine rnd

def run (g : G) (l : List Op) : G := l.foldl (step rnd) g

end
end Pdffit.FGrid
