import Verif.Model.Determine

/-!
# The lists of a data set: `getR`, `getpdf_obs`, `getpdf_fit`, `getpdf_diff` (misc.cc 872-1020, pdffit.cc 240-332)

Operations on one data set. A calculation may put any numbers into `pdftot` (`vals`); it may also end with an exception after
that point, which makes no difference here.
-/

namespace Pdffit.Lists
open Det

/-- A data set with the members that determine the lists. -/
structure LSet where
  d : DSet
  nfmin : ℤ
  nfmax : ℤ
  pdftot : List ℝ

/-- Operations. -/
inductive Op where
  /-- `pdfrange` -/
  | range (lo hi : ℝ)
  /-- `calc`, or one step of a refinement: `DataSet::determine` -/
  | determine (vals : ℕ → ℝ)
  /-- `getpdf_fit` or `getpdf_diff`, which fill an empty `pdftot` (pdffit.cc 246-254) -/
  | getFit

def LSet.filled (s : LSet) : LSet :=
  if s.pdftot = [] then { s with pdftot := List.replicate s.d.obs.length 0 } else s

/-- The data set after a successful or failed `range`. -/
def LSet.put (s : LSet) : Res DSet → LSet
  | .ok d => { s with d := d }
  | _ => s

/-- pdf.cc 166-178 for `determine`; a failed `range` changes nothing. -/
noncomputable def step (s : LSet) : Op → LSet
  | .range lo hi => s.put (s.d.range lo hi)
  | .determine vals =>
    { s with nfmin := s.d.D.nfmin, nfmax := s.d.D.nfmax, pdftot := (List.range (s.d.D.ncmax + 1).toNat).map vals }
  | .getFit => s.filled

/-- A data set after a sequence of operations. -/
noncomputable def run (s : LSet) (l : List Op) : LSet := l.foldl step s

/-- `(int) x` -/
noncomputable def trunc (x : ℝ) : ℤ := if 0 ≤ x then ⌊x⌋ else ⌈x⌉

/-- `getR` (misc.cc 876-923) -/
noncomputable def getR (s : LSet) : List ℝ :=
  if s.nfmax - s.nfmin + 1 = 1 then
    (grid 0 (trunc ((s.d.rmax - s.d.D.rmin) / s.d.D.deltar))).map fun i : ℤ => (i : ℝ) * s.d.D.deltar + s.d.D.rmin
  else (grid s.nfmin s.nfmax).map fun i : ℤ => (i : ℝ) * s.d.D.deltar + s.d.D.rmin

/-- Elements `v[i]` for the given indices. -/
def readList (v : List ℝ) : List ℤ → Res (List ℝ)
  | [] => .ok []
  | i :: l => do
    let x ← readAt v i
    let r ← readList v l
    .ok (x :: r)

/-- `getpdf_obs` (misc.cc 962-987) -/
def getObs (s : LSet) : Res (List ℝ) := readList s.d.obs (grid s.nfmin s.nfmax)

/-- `getpdf_fit` (misc.cc 930-955) -/
def getFit (s : LSet) : Res (List ℝ) := readList s.filled.pdftot (grid s.nfmin s.nfmax)

/-- `getpdf_diff` (misc.cc 993-1020) -/
def getDiff (s : LSet) : Res (List ℝ) := do
  let o ← readList s.d.obs (grid s.nfmin s.nfmax)
  let f ← readList s.filled.pdftot (grid s.nfmin s.nfmax)
  .ok (o.zipWith (fun a b => a - b) f)

end Pdffit.Lists
