import Verif.Model.ReportText

/-!
# The description of a cell that is printed when a structure is read

* metric.cc 181-241 (`Phase::show_lattice`), called by `read_struct` and `read_struct_string` (stru.cc 144, 167).
* Values and standard deviations as in `Model/ReportText.lean`.
* The reader is not part of the program; it says what can be read in the text.
-/

namespace Pdffit.LatText
open RText
open Stru (natStr scanInt)

structure LatR where
  iphase : ℕ
  name : List Char
  a0 : Fin 3 → Val
  da0 : Fin 3 → Val
  win : Fin 3 → Val
  dwin : Fin 3 → Val
  v : Val
  dv : Val
  rho0 : Val
  drho0 : Val
  gten : Fin 3 → Fin 3 → Val
  dgten : Fin 3 → Fin 3 → Val
  ar : Fin 3 → Val
  dar : Fin 3 → Val
  wrez : Fin 3 → Val
  dwrez : Fin 3 → Val
  vr : Val
  dvr : Val
  rten : Fin 3 → Fin 3 → Val
  drten : Fin 3 → Fin 3 → Val

/-- Three values in a line: widths 20, 20 and 0. -/
def row (x dx : Fin 3 → Val) : List Char := cell true 20 (x 0) (dx 0) ++ cell true 20 (x 1) (dx 1) ++ cell true 0 (x 2) (dx 2)

/-- The lines of `show_lattice`. -/
def latLines (p : LatR) : List (List Char) :=
  [" Phase number           : ".toList ++ natStr p.iphase,
   " Phase title            : ".toList ++ p.name,
   [],
   " Lattice parameters     :".toList ++ row p.a0 p.da0,
   "           & angles     :".toList ++ row p.win p.dwin,
   " Unit cell volume       :".toList ++ cell true 0 p.v p.dv,
   " Number density         :".toList ++ cell true 0 p.rho0 p.drho0,
   " Metric tensor          :".toList ++ row (fun i => p.gten i 0) (fun i => p.dgten i 0),
   "                         ".toList ++ row (fun i => p.gten i 1) (fun i => p.dgten i 1),
   "                         ".toList ++ row (fun i => p.gten i 2) (fun i => p.dgten i 2),
   [],
   " Recip. lat. parameters :".toList ++ row p.ar p.dar,
   "               & angles :".toList ++ row p.wrez p.dwrez,
   " Recip. unit cell vol.  :".toList ++ cell true 0 p.vr p.dvr,
   " Recip. metric tensor   :".toList ++ row (fun i => p.rten i 0) (fun i => p.drten i 0),
   "                         ".toList ++ row (fun i => p.rten i 1) (fun i => p.drten i 1),
   "                         ".toList ++ row (fun i => p.rten i 2) (fun i => p.drten i 2),
   []]

def latText (p : LatR) : List Char := unlines (latLines p)

/-! ## Reading -/

structure LatS where
  iphase : ℕ
  name : List Char
  a0 : List (Val × Option Val)
  win : List (Val × Option Val)
  v : List (Val × Option Val)
  rho0 : List (Val × Option Val)
  gten : List (List (Val × Option Val))
  ar : List (Val × Option Val)
  wrez : List (Val × Option Val)
  vr : List (Val × Option Val)
  rten : List (List (Val × Option Val))
  deriving DecidableEq

/-- `n` values after the label. -/
def vals (n : ℕ) (l : List Char) : Option (List (Val × Option Val)) := (readCells n (l.drop 25)).map Prod.fst

def readLat (s : List Char) : Option LatS :=
  match lines s with
  | [l0, l1, _, l3, l4, l5, l6, l7, l8, l9, _, l11, l12, l13, l14, l15, l16, _] => do
    let n ← scanInt (l0.drop 25)
    let a0 ← vals 3 l3
    let win ← vals 3 l4
    let v ← vals 1 l5
    let rho0 ← vals 1 l6
    let g0 ← vals 3 l7
    let g1 ← vals 3 l8
    let g2 ← vals 3 l9
    let ar ← vals 3 l11
    let wrez ← vals 3 l12
    let vr ← vals 1 l13
    let r0 ← vals 3 l14
    let r1 ← vals 3 l15
    let r2 ← vals 3 l16
    some ⟨n.1.toNat, l1.drop 26, a0, win, v, rho0, [g0, g1, g2], ar, wrez, vr, [r0, r1, r2]⟩
  | _ => none

end Pdffit.LatText
