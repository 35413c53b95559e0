import Verif.Model.Cell
import Verif.Model.Constr
import Verif.Model.Sphere

/-!
# Bond lengths and angles (stru.cc 604-835, metric.cc 273-339, pdf.cc 846-875)

* Only the atom properties that are used are kept: position, its standard deviation and the atom type.
* The atom type of the C++ code is a pointer into a periodic table; here it is a number, and the
  table lookup is a parameter.
* `PdfFit::bond_*` (stru.cc 592, 702, 747) check that there is a current phase; that is modelled in
  `Model/Api.lean`.
-/

namespace Pdffit.Bonds
open Geom Parser

/-- The members of `Atom` used here (Atom.h). -/
structure Atm where
  pos : Fin 3 → ℝ
  dpos : Fin 3 → ℝ
  typ : ℕ

/-- The members of `Phase` used here; `icc` is the supercell. -/
structure Phs where
  cell : Cell
  dcell : Cell
  icc : Fin 3 → ℕ
  atom : List Atm

/-- `Phase::dtensor` (metric.cc 277-302). -/
noncomputable def dtensor (vec win dvec dwin : Fin 3 → ℝ) (i j : Fin 3) : ℝ :=
  if i ≠ j then
    let t := dvec i * vec j * bcosd (win (third i j)) + vec i * dvec j * bcosd (win (third i j)) +
      vec i * vec j * bsind (win (third i j)) * rad * dwin (third i j)
    if t < eps then 0 else t
  else dvec i * vec j + vec i * dvec j

namespace Phs
variable (p : Phs)

/-- The metric tensor after `lattice()` (metric.cc 78). -/
noncomputable def gten : Fin 3 → Fin 3 → ℝ := tensor p.cell.a0 p.cell.win
/-- Its standard deviations (metric.cc 79). -/
noncomputable def dgten : Fin 3 → Fin 3 → ℝ := dtensor p.cell.a0 p.cell.win p.dcell.a0 p.dcell.win
/-- `Phase::skalpro`. -/
noncomputable def skal (h k : Fin 3 → ℝ) : ℝ := skalpro p.gten h k

/-- `Phase::dskalpro` (metric.cc 326-339). -/
noncomputable def dskal (h k dh dk : Fin 3 → ℝ) : ℝ :=
  ∑ i, ∑ j, (|dh i * k j * p.gten i j| + |h i * dk j * p.gten i j| + |h i * k j * p.dgten i j|)

end Phs

/-- `for (t = x; t < n; t += n)`: the values of `t` in the loop body. For `n = 0` the coordinates are
NaN after `fmod(x, 0)` and the loop is not entered. -/
noncomputable def loopVals (x : ℝ) (n : ℕ) : List ℝ :=
  if x < n ∧ 0 < n then x :: loopVals (x + n) n else []
termination_by ⌈(n : ℝ) - x⌉.toNat
decreasing_by
  rename_i h
  have h2 : (1 : ℝ) ≤ n := by exact_mod_cast h.2
  have h3 : ⌈(n : ℝ) - (x + n)⌉ ≤ ⌈(n : ℝ) - x⌉ - 1 := by
    rw [Int.ceil_le]
    push_cast
    have := Int.le_ceil ((n : ℝ) - x)
    linarith
  have h4 : 0 < ⌈(n : ℝ) - x⌉ := Int.ceil_pos.2 (by linarith [h.1])
  omega

/-- All vectors `test` of the triple loop (stru.cc 626-632) in their order. -/
noncomputable def tests (x : Fin 3 → ℝ) (icc : Fin 3 → ℕ) : List (Fin 3 → ℝ) :=
  (loopVals (x 0) (icc 0)).flatMap fun a => (loopVals (x 1) (icc 1)).flatMap fun b =>
    (loopVals (x 2) (icc 2)).map fun c => ![a, b, c]

/-- Body of the triple loop (stru.cc 633-638) on `(nearest, mindsquare)`. The assignment
`dsquare = mindsquare` changes a variable that is not used any more. -/
noncomputable def nearStep (p : Phs) (s : (Fin 3 → ℝ) × ℝ) (t : Fin 3 → ℝ) : (Fin 3 → ℝ) × ℝ :=
  if p.skal t t < s.2 then (t, s.2) else s

/-- First step of `make_nearest` (stru.cc 607-611). -/
noncomputable def wrap (icc : Fin 3 → ℕ) (x : Fin 3 → ℝ) : Fin 3 → ℝ := fun i => fmodK (x i) (icc i)

/-- Shift to the octant with `xyz[i] <= 0` (stru.cc 620-623). -/
noncomputable def octant (icc : Fin 3 → ℕ) (x : Fin 3 → ℝ) : Fin 3 → ℝ :=
  fun i => if 0 < x i then x i - icc i else x i

/-- The search around the origin (stru.cc 624-642). -/
noncomputable def search (p : Phs) (x : Fin 3 → ℝ) : Fin 3 → ℝ :=
  ((tests x p.icc).foldl (nearStep p) (x, p.skal x x)).1

/-- `Phase::make_nearest` (stru.cc 604-643). -/
noncomputable def makeNearest (p : Phs) (x : Fin 3 → ℝ) : Fin 3 → ℝ :=
  if (∀ i, wrap p.icc x i = 0) ∨ ∀ i, p.cell.win i = 90 then wrap p.icc x
  else search p (octant p.icc (wrap p.icc x))

/-- `PairDistance` (PairDistance.h). -/
structure PairDist where
  dij : ℝ
  ddij : ℝ
  i : ℕ
  j : ℕ

/-- Distance and standard deviation from `d` and `dd` (stru.cc 734-735, 791-794). -/
noncomputable def mkPair (p : Phs) (d dd : Fin 3 → ℝ) (i j : ℕ) : PairDist where
  dij := √(p.skal d d)
  ddij := if 0 < √(p.skal d d) then 1 / 2 / √(p.skal d d) * p.dskal d d dd dd else 0
  i := i
  j := j

/-- `Phase::bond_length_atoms` (stru.cc 711-744). -/
noncomputable def bondLengthAtoms (p : Phs) (ia ja : ℤ) : Res PairDist :=
  if ia < 1 ∨ ia > p.atom.length ∨ ja < 1 ∨ ja > p.atom.length then .err .value
  else do
    let ai ← Res.at? p.atom (ia - 1).toNat
    let aj ← Res.at? p.atom (ja - 1).toNat
    .ok (mkPair p (makeNearest p fun k => ai.pos k - aj.pos k) (fun k => ai.dpos k + aj.dpos k)
      ia.toNat ja.toNat)

/-- Angle and standard deviation (stru.cc 677-694) from the bond vectors `x`, `y`. The angle is
`none` (NaN) when a bond vector has no length. -/
noncomputable def angle (p : Phs) (x y dx dy : Fin 3 → ℝ) : Option (ℝ × ℝ) :=
  if √(p.skal x x) * √(p.skal y y) = 0 then none
  else
    let xx := √(p.skal x x)
    let yy := √(p.skal y y)
    let dxx := 1 / 2 / xx * p.dskal x x dx dx
    let dyy := 1 / 2 / yy * p.dskal y y dy dy
    let arg := p.skal x y / (xx * yy)
    let darg := 1 / (xx * yy) * p.dskal x y dx dy + arg / xx * dxx + arg / yy * dyy
    some (bacosd arg, if arg ≠ 1 then |1 / √(1 - arg * arg) / rad * darg| else 0)

/-- `Phase::bond_angle` (stru.cc 645-697). -/
noncomputable def bondAngle (p : Phs) (ia ja ka : ℤ) : Res (Option (ℝ × ℝ)) :=
  if ia < 1 ∨ ia > p.atom.length ∨ ja < 1 ∨ ja > p.atom.length ∨ ka < 1 ∨ ka > p.atom.length then
    .err .value
  else if ia = ja ∨ ia = ka ∨ ja = ka then .err .value
  else do
    let ai ← Res.at? p.atom (ia - 1).toNat
    let aj ← Res.at? p.atom (ja - 1).toNat
    let ak ← Res.at? p.atom (ka - 1).toNat
    .ok (angle p (makeNearest p fun k => aj.pos k - ai.pos k) (makeNearest p fun k => aj.pos k - ak.pos k)
      (fun k => aj.dpos k + ai.dpos k) (fun k => aj.dpos k + ak.dpos k))

/-- The four cell diagonals (pdf.cc 854-860). -/
def diagonals : List (Fin 3 → ℝ) := [![1, 1, 1], ![-1, 1, 1], ![1, -1, 1], ![1, 1, -1]]

/-- `Phase::circum_diameter` (pdf.cc 850-875); `epsilond` equals `2^-26`. -/
noncomputable def circumDiameter (p : Phs) : ℝ :=
  if p.atom = [] then 0
  else
    diagonals.foldl (fun mx u => if √(p.skal u u) > mx then √(p.skal u u) else mx) (-1) * (1 + eps) + eps

/-- `Phase::selectAtomsOf` (stru.cc 809-835): zero-based indices; `lookup` is the periodic table.
`toupper` is applied to ASCII letters. -/
def selectAtomsOf (lookup : String → Option ℕ) (atom : List Atm) (sym : String) : Res (List ℕ) :=
  if sym.toUpper = "ALL" then .ok (List.range atom.length)
  else
    match lookup sym with
    | none => .err .value
    | some t => .ok ((List.range atom.length).filter fun i => (atom[i]?.map Atm.typ) == some t)

/-- The sequencer of `bond_length_types` (stru.cc 767-774). -/
noncomputable def sph (p : Phs) (bmin bmax : ℝ) : Sphere.Cst where
  rmin := bmin - circumDiameter p
  rmax := bmax + circumDiameter p
  lat := Sphere.Lat.of (p.cell.a0 0 * p.icc 0) (p.cell.a0 1 * p.icc 1) (p.cell.a0 2 * p.icc 2)
    (p.cell.win 0) (p.cell.win 1) (p.cell.win 2)

/-- Position difference to an image (stru.cc 787-788). -/
def diff (p : Phs) (ai aj : Atm) (T : ℤ × ℤ × ℤ) : Fin 3 → ℝ :=
  fun k => ai.pos k - aj.pos k - ((![T.1, T.2.1, T.2.2] k : ℤ) : ℝ) * p.icc k

/-- Innermost loop body (stru.cc 785-801). -/
noncomputable def tryPair (p : Phs) (bmin bmax : ℝ) (i j : ℕ) (ai aj : Atm) (T : ℤ × ℤ × ℤ) : Option PairDist :=
  if √(p.skal (diff p ai aj T) (diff p ai aj T)) ≥ bmin ∧ √(p.skal (diff p ai aj T) (diff p ai aj T)) ≤ bmax then
    some (mkPair p (diff p ai aj T) (fun k => ai.dpos k + aj.dpos k) (i + 1) (j + 1))
  else none

/-- The pairs of two given atoms (stru.cc 783-802). -/
noncomputable def pairsOf (p : Phs) (bmin bmax : ℝ) (i j : ℕ) : List PairDist :=
  match p.atom[i]?, p.atom[j]? with
  | some ai, some aj => (Sphere.points (sph p bmin bmax)).filterMap (tryPair p bmin bmax i j ai aj)
  | _, _ => []

/-- `Phase::bond_length_types` (stru.cc 757-807). `std::stable_sort` with `operator<` on `dij` is the
stable merge sort of the standard library of Lean. -/
noncomputable def bondLengthTypes (lookup : String → Option ℕ) (p : Phs) (symi symj : String) (bmin bmax : ℝ) :
    Res (List PairDist) := do
  let si ← selectAtomsOf lookup p.atom symi
  let sj ← selectAtomsOf lookup p.atom symj
  .ok ((si.flatMap fun i => sj.flatMap fun j => pairsOf p bmin bmax i j).mergeSort
    fun a b => decide (a.dij ≤ b.dij))

end Pdffit.Bonds
