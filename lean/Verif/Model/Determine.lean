import Verif.Model.Bonds
import Verif.Model.Qmax
import Verif.Model.Shape

/-!
# Calculation of the PDF (`DataSet::determine`, pdf.cc 154-413)

* Numbers are real. Where the double computation would give NaN or infinity (division by zero, square root of a negative number)
  the result is `none`: the curve is not a number somewhere. Where this is decided per pair, the whole curve is
  counted as `none`.
* Arrays are lists; an access outside the array is the outcome `Res.ub`.
* Derivatives are not part of this file.
* `np`, `v`, `rho0`, `ar` are those computed by `lattice()` (metric.cc 36-178), which `fit_theory` calls for every phase before
  `determine` (fit.cc 325).
* Elements of `ppp`, `calc` below `ncmin` are not used and are taken as zero.
-/

namespace Pdffit.Det
open Geom Parser Bonds

/-- The members of `Atom` used here. `sf` is `atom_type->sf(tp)` for the radiation of the data set. -/
structure PAtom where
  pos : Fin 3 → ℝ
  occ : ℝ
  u : Fin 6 → ℝ
  sf : ℝ

instance : Inhabited PAtom := ⟨⟨0, 0, 0, 0⟩⟩

/-- The members of `Phase` used here. -/
structure PPhase where
  cell : Cell
  icc : Fin 3 → ℕ
  atom : List PAtom
  delta2 : ℝ
  delta1 : ℝ
  rcut : ℝ
  sratio : ℝ
  stepcut : ℝ
  spdiameter : ℝ
  pscale : ℝ

/-- The members of `DataSet` used here. -/
structure Data where
  rmin : ℝ
  deltar : ℝ
  rfmin : ℝ
  rfmax : ℝ
  qmax : ℝ
  qdamp : ℝ
  qbroad : ℝ
  dscale : ℝ

/-- `ignore_i`, `ignore_j` of one phase (pdf.cc 198-207). -/
structure Sel where
  igI : ℕ → Bool
  igJ : ℕ → Bool

/-- `nint` (MathUtils.h 47-50): rounding half away from zero. -/
noncomputable def nint (x : ℝ) : ℤ := if 0 ≤ x then ⌊x + 1 / 2⌋ else ⌈x - 1 / 2⌉

namespace PPhase
variable (ph : PPhase)

/-- The phase as seen by the functions of `Model/Bonds.lean`. -/
def toPhs : Phs := ⟨ph.cell, ⟨0, 0⟩, ph.icc, ph.atom.map fun a => ⟨a.pos, 0, 0⟩⟩

/-- Atom `i`; the loops only use valid indices. -/
def atm (i : ℕ) : PAtom := ph.atom.getD i default

/-- Total occupancy (metric.cc 164-171). -/
def np : ℝ := (ph.atom.map PAtom.occ).sum

/-- `ncc*v` (metric.cc 172-173). -/
noncomputable def ncv : ℝ := (ph.icc 0 * ph.icc 1 * ph.icc 2 : ℕ) * vol ph.cell

/-- Number density (metric.cc 172-173). -/
noncomputable def rho0 : ℝ := ph.np / ph.ncv

/-- `averageScatteringFactor` (pdf.cc 790-799). -/
noncomputable def bavg : ℝ := (ph.atom.map fun a => a.occ * a.sf).sum / ph.np

/-- `setup_weights` (pdf.cc 804-813). -/
noncomputable def weight (i : ℕ) : ℝ := (ph.atm i).sf / ph.bavg

/-- `msdAtoms` (pdf.cc 880-909). -/
noncomputable def msd (a b : PAtom) (vl : Fin 3 → ℝ) : ℝ :=
  let n := √(ph.toPhs.skal vl vl)
  let U : Fin 6 → ℝ := fun i => a.u i + b.u i
  let ar := recEdge ph.cell
  let rhs : Fin 3 → ℝ := fun i => ∑ j, ph.toPhs.gten i j * (vl j / n)
  U 0 * ar 0 * ar 0 * rhs 0 * rhs 0 + U 1 * ar 1 * ar 1 * rhs 1 * rhs 1 + U 2 * ar 2 * ar 2 * rhs 2 * rhs 2 +
    2 * (U 3 * ar 0 * ar 1) * rhs 0 * rhs 1 + 2 * (U 4 * ar 0 * ar 2) * rhs 0 * rhs 2 +
    2 * (U 5 * ar 1 * ar 2) * rhs 1 * rhs 2

end PPhase

/-- The pairs of the half loop in their order (pdf.cc 213-218, 249-255). -/
def halfPairs (n : ℕ) : List (ℕ × ℕ) :=
  (List.range n).flatMap fun i => (List.range' i (n - i)).map fun j => (i, j)

/-- `skip` (pdf.cc 222-223, 257-258). -/
def skip (s : Sel) (i j : ℕ) : Bool := (s.igI i || s.igJ j) && (s.igI j || s.igJ i)

/-- `halfloopscale` (pdf.cc 219). -/
def half (i j : ℕ) : ℝ := if i = j then 1 else 2

/-- `rtot` (pdf.cc 211-220). -/
noncomputable def rtot (ph : PPhase) : ℝ :=
  ((halfPairs ph.atom.length).map fun x => half x.1 x.2 * ph.weight x.1 * ph.weight x.2).sum

/-- `ract` (pdf.cc 212-225). -/
noncomputable def ract (ph : PPhase) (s : Sel) : ℝ :=
  (((halfPairs ph.atom.length).filter fun x => !skip s x.1 x.2).map fun x =>
    half x.1 x.2 * ph.weight x.1 * ph.weight x.2).sum

namespace Data
variable (D : Data)

/-- `extendCalculationRange` (pdf.cc 821-844). -/
noncomputable def rcmin : ℝ := if 0 < D.qmax then max D.rmin (D.rfmin - 6 * 2 * Real.pi / D.qmax) else D.rfmin
noncomputable def rcmax : ℝ := if 0 < D.qmax then D.rfmax + 6 * 2 * Real.pi / D.qmax else D.rfmax
noncomputable def ncmin : ℤ := nint ((D.rcmin - D.rmin) / D.deltar)
noncomputable def ncmax : ℤ := nint ((D.rcmax - D.rmin) / D.deltar)
/-- The fit range (pdf.cc 166-168). -/
noncomputable def nfmin : ℤ := nint ((D.rfmin - D.rmin) / D.deltar)
noncomputable def nfmax : ℤ := nint ((D.rfmax - D.rmin) / D.deltar)

/-- Limits of the squared distance (pdf.cc 173-175). -/
noncomputable def rmax2 : ℝ := (D.rcmax + 1) ^ 2
noncomputable def rmin2 : ℝ := max (1 / 100) ((D.rcmin - 1) ^ 2 * (if D.rcmin - 1 < 0 then -1 else 1))

/-- The `r` value of a grid point (pdf.cc 365). -/
noncomputable def r (i : ℤ) : ℝ := i * D.deltar + D.rmin

end Data

/-- The sequencer (pdf.cc 236-248). -/
noncomputable def sphere (D : Data) (ph : PPhase) : Sphere.Cst where
  rmin := √D.rmin2 - circumDiameter ph.toPhs
  rmax := if 0 < ph.stepcut then min (√D.rmax2 + circumDiameter ph.toPhs) (ph.stepcut + circumDiameter ph.toPhs)
    else √D.rmax2 + circumDiameter ph.toPhs
  lat := Sphere.Lat.of (ph.cell.a0 0 * ph.icc 0) (ph.cell.a0 1 * ph.icc 1) (ph.cell.a0 2 * ph.icc 2)
    (ph.cell.win 0) (ph.cell.win 1) (ph.cell.win 2)

/-- What happens for one pair of atoms and one lattice point. -/
inductive Ev where
  | skip
  | nan
  | peak (dist sigma : ℝ)

/-- `dd` (pdf.cc 265-266). -/
def dd (ph : PPhase) (a b : PAtom) (T : ℤ × ℤ × ℤ) : Fin 3 → ℝ :=
  fun k => a.pos k - b.pos k - ((![T.1, T.2.1, T.2.2] k : ℤ) : ℝ) * ph.icc k

/-- Correction of the peak width (pdf.cc 288-289). -/
noncomputable def corfact (D : Data) (ph : PPhase) (dist2 : ℝ) : ℝ :=
  1 - ph.delta2 / dist2 - ph.delta1 / √dist2 + D.qbroad ^ 2 * dist2

/-- Width of the peak (pdf.cc 299, 320-323). -/
noncomputable def sigma (D : Data) (ph : PPhase) (dist2 msd : ℝ) : ℝ :=
  if √dist2 < ph.rcut then √msd * √(corfact D ph dist2) * ph.sratio else √msd * √(corfact D ph dist2)

/-- Position and width of the peak of a pair (pdf.cc 269-324). `sqrt(msd)` of a negative `msd` is NaN, for which the test
`sigmap <= 0.0` does not hold; a vanishing width gives infinite heights. -/
noncomputable def event (D : Data) (ph : PPhase) (a b : PAtom) (T : ℤ × ℤ × ℤ) : Ev :=
  let v := dd ph a b T
  let dist2 := ph.toPhs.skal v v
  if dist2 < D.rmin2 ∨ D.rmax2 < dist2 then .skip
  else if ph.msd a b v < 0 then .nan
  else if √(ph.msd a b v) ≤ 0 then .skip
  else if corfact D ph dist2 ≤ 0 then .skip
  else if sigma D ph dist2 (ph.msd a b v) = 0 then .nan
  else .peak (√dist2) (sigma D ph dist2 (ph.msd a b v))

/-- First and last grid point of a peak (pdf.cc 331-339). -/
noncomputable def ib (D : Data) (dist sig : ℝ) : ℤ := nint ((max D.rcmin (dist - 5 * sig) - D.rmin) / D.deltar)
noncomputable def ie (D : Data) (ph : PPhase) (dist sig : ℝ) : ℤ :=
  nint (((if 0 < ph.stepcut then min (min D.rcmax (dist + 5 * sig)) ph.stepcut else min D.rcmax (dist + 5 * sig)) -
    D.rmin) / D.deltar)

/-- The Gaussian at a grid point (pdf.cc 326, 344-346). -/
noncomputable def gaus (D : Data) (dist sig : ℝ) (ig : ℤ) : ℝ :=
  1 / (√(2 * Real.pi) * sig) * Real.exp (-(1 / 2) * ((D.rmin + ig * D.deltar - dist) / sig) ^ 2)

/-- `ampl` without the doubling (pdf.cc 327). -/
noncomputable def ampl (ph : PPhase) (i j : ℕ) : ℝ :=
  (ph.atm i).occ * ph.weight i * (ph.atm j).occ * ph.weight j

/-- The integers of `for (ig = lo; ig <= hi; ig++)`. -/
def grid (lo hi : ℤ) : List ℤ := (List.range (hi + 1 - lo).toNat).map fun (i : ℕ) => lo + (i : ℤ)

/-- The additions to `ppp` made for one pair and lattice point (pdf.cc 329, 341-347). -/
noncomputable def incs (D : Data) (ph : PPhase) (i j : ℕ) : Ev → List (ℤ × ℝ)
  | .peak dist sig => (grid (ib D dist sig) (ie D ph dist sig)).map fun ig =>
      (ig, (if i ≠ j then ampl ph i j + ampl ph i j else ampl ph i j) * gaus D dist sig ig)
  | _ => []

/-- All pairs and lattice points in the order of the loops (pdf.cc 249-263). -/
noncomputable def visited (D : Data) (ph : PPhase) (s : Sel) : List ((ℕ × ℕ) × (ℤ × ℤ × ℤ)) :=
  ((halfPairs ph.atom.length).filter fun x => !skip s x.1 x.2).flatMap fun x =>
    (Sphere.points (sphere D ph)).map fun T => (x, T)

/-- The event of a visited element. -/
noncomputable def eventOf (D : Data) (ph : PPhase) (x : (ℕ × ℕ) × (ℤ × ℤ × ℤ)) : Ev :=
  event D ph (ph.atm x.1.1) (ph.atm x.1.2) x.2

/-- `l[i] += v`. -/
def addAt (l : List ℝ) (i : ℤ) (v : ℝ) : Res (List ℝ) :=
  if 0 ≤ i ∧ i < l.length then .ok (l.modify i.toNat (· + v)) else .ub

/-- A sequence of additions. -/
def addAll : List (ℤ × ℝ) → List ℝ → Res (List ℝ)
  | [], l => .ok l
  | x :: xs, l => addAt l x.1 x.2 >>= addAll xs

/-- `ppp` after the loops (pdf.cc 232-358). -/
noncomputable def ppp (D : Data) (ph : PPhase) (s : Sel) : Res (List ℝ) :=
  addAll ((visited D ph s).flatMap fun x => incs D ph x.1.1 x.1.2 (eventOf D ph x))
    (List.replicate (D.ncmax + 1).toNat 0)

/-- Damping and shape factors (pdf.cc 369-386). -/
noncomputable def envelope (D : Data) (ph : PPhase) (r : ℝ) : ℝ :=
  (if 0 < D.qdamp then Real.exp (-(r * D.qdamp) ^ 2 / 2) else 1) *
  (if 0 < ph.spdiameter then Shape.sphereEnvelope r ph.spdiameter else 1) *
  (if 0 < ph.stepcut then (if r ≤ ph.stepcut then 1 else 0) else 1)

/-- `calc[i][ip]` (pdf.cc 367-386). -/
noncomputable def calcAt (D : Data) (ph : PPhase) (s : Sel) (p : List ℝ) (i : ℤ) : ℝ :=
  (p.getD i.toNat 0 / ph.np / D.r i - 4 * Real.pi * D.r i * ph.rho0 * (ract ph s / rtot ph)) * envelope D ph (D.r i)

/-- Some value of the phase is not a number: a pair gives NaN or a divisor vanishes. -/
def Bad (D : Data) (ph : PPhase) (s : Sel) : Prop :=
  (∃ x ∈ visited D ph s, eventOf D ph x = .nan) ∨ ph.np = 0 ∨ ph.ncv = 0 ∨ ph.bavg = 0 ∨ rtot ph = 0 ∨
    (∃ i, D.ncmin ≤ i ∧ i ≤ D.ncmax ∧ D.r i = 0)

open Classical in
/-- The column of `calc` of one phase (pdf.cc 194-390) for the grid points `ncmin..ncmax`, which are checked to be indices
of the arrays. -/
noncomputable def phaseCalc (D : Data) (ph : PPhase) (s : Sel) : Res (Option (ℤ → ℝ)) := do
  let p ← ppp D ph s
  if D.ncmin < 0 ∧ D.ncmin ≤ D.ncmax then .ub
  else .ok (if Bad D ph s then none else some (calcAt D ph s p))

/-- `pdftot` before the termination filter (pdf.cc 178, 190-194, 389). -/
noncomputable def total (D : Data) : List (Option (PPhase × Sel)) → Res (Option (ℤ → ℝ))
  | [] => .ok (some fun _ => 0)
  | none :: l => total D l
  | some x :: l => do
    let c ← phaseCalc D x.1 x.2
    let t ← total D l
    .ok (c.bind fun c => t.map fun t i => D.dscale * x.1.pscale * c i + t i)

/-- Number of points given to the filter (pdf.cc 411). -/
noncomputable def nclen (D : Data) : ℕ := (D.ncmax - D.ncmin + 1).toNat

/-- `DataSet::determine` (pdf.cc 154-413): the values `pdftot[i]` for `ncmin ≤ i ≤ ncmax`. -/
noncomputable def determine (D : Data) (psel : List (Option (PPhase × Sel))) : Res (Option (ℤ → ℝ)) := do
  let t ← total D psel
  if 0 < D.qmax then
    match t with
    | none => .ok none
    | some t =>
      match Qmax.applyQmaxCutoff D.deltar D.qmax (nclen D) (fun n => t (D.ncmin + n)) with
      | none => .ub
      | some y => .ok (some fun i => y (i - D.ncmin).toNat)
  else .ok t

/-! ## Data sets, fit range and residuals -/

/-- A data set with its arrays. -/
structure DSet where
  D : Data
  rmax : ℝ
  bin : ℕ
  obs : List ℝ
  wic : List ℝ

/-- `PdfFit::alloc` (pdf.cc 48-104). Registering the data set is not part of this function. -/
noncomputable def alloc (qmax qdamp rmin rmax : ℝ) (bin : ℤ) : Res DSet :=
  if rmax < rmin ∨ rmin < 0 ∨ rmax < 0 then .err .value
  else if bin ≤ 1 then .err .value
  else if qmax < 0 then .err .value
  else if qdamp < 0 then .err .value
  else .ok ⟨⟨rmin, (rmax - rmin) / (bin - 1), rmin, rmax, qmax, qdamp, 0, 1⟩, rmax, bin.toNat,
    List.replicate bin.toNat 0, List.replicate bin.toNat 1⟩

/-- `DataSet::range` (pdf.cc 1640-1652). -/
noncomputable def DSet.range (d : DSet) (lo hi : ℝ) : Res DSet :=
  if d.D.rmin ≤ lo ∧ lo ≤ d.rmax ∧ hi ≤ d.rmax ∧ lo < hi then .ok { d with D := { d.D with rfmin := lo, rfmax := hi } }
  else .err .value

/-- Read with an `int` index. -/
def readAt (l : List ℝ) (i : ℤ) : Res ℝ := if 0 ≤ i then Res.at? l i.toNat else .ub

/-- The loop over the residuals (pdflsmin.cc 269-292): `(wic, dy)` of every point. The vector `pdftot` has `ncmax+1`
elements (pdf.cc 177). -/
def resid (d : DSet) (pdftot : List ℝ) : List ℤ → Res (List (ℝ × ℝ))
  | [] => .ok []
  | i :: l => do
    let w ← readAt d.wic i
    let o ← readAt d.obs i
    let p ← readAt pdftot i
    let r ← resid d pdftot l
    .ok ((w, o - p) :: r)

/-- `determine` followed by the loop over the residuals; `none` if the curve is not a number. -/
noncomputable def residuals (d : DSet) (psel : List (Option (PPhase × Sel))) : Res (Option (List (ℝ × ℝ))) := do
  let t ← determine d.D psel
  match t with
  | none => .ok none
  | some t => do
    let r ← resid d ((List.range (d.D.ncmax + 1).toNat).map fun n : ℕ => t n) (grid d.D.nfmin d.D.nfmax)
    .ok (some r)

/-! ## Selections -/

/-- `selectNone` (pdf.cc 1281-1288) for a phase with `n` atoms; `ig` is `phase_ignore_i` or `phase_ignore_j`. -/
def selectNone (n : ℕ) (ig : ℕ → Bool) : ℕ → Bool := fun i => if i < n then true else ig i

/-- `selectAll` (pdf.cc 1272-1279). -/
def selectAll (_ : ℕ → Bool) : ℕ → Bool := fun _ => false

/-- `selectAtomType` (pdf.cc 1245-1259); `typ` gives the type of each atom, `t` is the type found for the symbol. -/
def selectType {τ : Type} [DecidableEq τ] (n : ℕ) (typ : ℕ → τ) (t : τ) (select : Bool) (ig : ℕ → Bool) : ℕ → Bool :=
  fun i => if i < n ∧ typ i = t then !select else ig i

end Pdffit.Det
