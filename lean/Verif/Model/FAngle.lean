import Verif.Model.Bonds
import Verif.Model.Binary
import Verif.Model.Special

/-!
# Bond angles in double arithmetic (stru.cc 604-697, metric.cc 246-339)

The code of `Model/Bonds.lean` for `bond_angle` with every operation rounded to 53 bits, without overflow and underflow.
`fmod` is exact in IEEE 754. The functions `cosd` and `sind` of the library and the constant `rad` are parameters;
the function `acosd` is exact on `[-1, 1]` and has the value NaN elsewhere.
-/

namespace Pdffit.FAngle
open Binary Special Geom

/-- Binary digits of a square root: the largest `r + k`, `k < 2^b`, with a square that is not greater than `q`. -/
def isq (q : ℚ) : ℕ → ℕ → ℕ
  | 0, r => r
  | b + 1, r => isq q b (if (((r + 2 ^ b : ℕ) : ℚ)) ^ 2 ≤ q then r + 2 ^ b else r)

/-- `sqrt` of a positive number rounded to 53 bits; zero for a zero. -/
def sqrt53 (x : ℚ) : ℚ :=
  if x ≤ 0 then 0
  else
    let u := pow2 (ilog x / 2 - 52)
    let q := x / u ^ 2
    let f := isq q 53 0
    (if q < ((f : ℚ) + 1 / 2) ^ 2 then (f : ℚ) else f + 1) * u

/-- Functions of the mathematical library (MathUtils.h 68-71) and `rad` (MathUtils.h 28). -/
structure Lib where
  cosd : ℚ → ℚ
  sind : ℚ → ℚ
  rad : ℚ

/-- The members of `Atom` used here. -/
structure Atm where
  pos : Fin 3 → ℚ
  dpos : Fin 3 → ℚ

/-- The members of `Phase` used here. -/
structure Phs where
  a0 : Fin 3 → ℚ
  win : Fin 3 → ℚ
  da0 : Fin 3 → ℚ
  dwin : Fin 3 → ℚ
  icc : Fin 3 → ℕ
  atom : List Atm

/-- `double_eps` (MathUtils.h 29). -/
def eps : ℚ := 1 / 2 ^ 26

/-- `Phase::tensor` (metric.cc 250-271). -/
def tensor (L : Lib) (vec win : Fin 3 → ℚ) (i j : Fin 3) : ℚ :=
  if i ≠ j then
    let t := rnd53 (rnd53 (vec i * vec j) * L.cosd (win (third i j)))
    if |t| < eps then 0 else t
  else rnd53 (vec i * vec j)

/-- `Phase::dtensor` (metric.cc 277-302). -/
def dtensor (L : Lib) (vec win dvec dwin : Fin 3 → ℚ) (i j : Fin 3) : ℚ :=
  if i ≠ j then
    let c := L.cosd (win (third i j))
    let t := rnd53 (rnd53 (rnd53 (rnd53 (dvec i * vec j) * c) + rnd53 (rnd53 (vec i * dvec j) * c)) +
      rnd53 (rnd53 (rnd53 (rnd53 (vec i * vec j) * L.sind (win (third i j))) * L.rad) * dwin (third i j)))
    if t < eps then 0 else t
  else rnd53 (rnd53 (dvec i * vec j) + rnd53 (vec i * dvec j))

/-- The pairs of indices in the order of the double loop. -/
def ij : List (Fin 3 × Fin 3) := [(0, 0), (0, 1), (0, 2), (1, 0), (1, 1), (1, 2), (2, 0), (2, 1), (2, 2)]

/-- A product of three factors. -/
def prod (a b c : ℚ) : ℚ := rnd53 (rnd53 (a * b) * c)

/-- `Phase::skalpro` (metric.cc 309-321). -/
def skal (g : Fin 3 → Fin 3 → ℚ) (h k : Fin 3 → ℚ) : ℚ :=
  ij.foldl (fun s p => rnd53 (s + prod (h p.1) (k p.2) (g p.1 p.2))) 0

/-- `Phase::dskalpro` (metric.cc 326-339). -/
def dskal (g dg : Fin 3 → Fin 3 → ℚ) (h k dh dk : Fin 3 → ℚ) : ℚ :=
  ij.foldl (fun s p => rnd53 (s + rnd53 (rnd53 (|prod (dh p.1) (k p.2) (g p.1 p.2)| + |prod (h p.1) (dk p.2) (g p.1 p.2)|) +
    |prod (h p.1) (k p.2) (dg p.1 p.2)|))) 0

/-- `fmod` with a positive divisor. -/
def fmod (x : ℚ) (n : ℕ) : ℚ := if 0 ≤ x then x - n * ⌊x / n⌋ else x - n * ⌈x / n⌉

/-- `for (t = x; t < n; t += n)` (stru.cc 626-630), from `-n < x`: the third value is not less than `n`. -/
def loopVals (x : ℚ) (n : ℕ) : List ℚ :=
  let y := rnd53 (x + n)
  [x, y, rnd53 (y + n)].takeWhile (· < (n : ℚ))

/-- The vectors `test` of the triple loop (stru.cc 626-632). -/
def tests (x : Fin 3 → ℚ) (icc : Fin 3 → ℕ) : List (Fin 3 → ℚ) :=
  (loopVals (x 0) (icc 0)).flatMap fun a => (loopVals (x 1) (icc 1)).flatMap fun b =>
    (loopVals (x 2) (icc 2)).map fun c => ![a, b, c]

/-- `Phase::make_nearest` (stru.cc 604-643); `dsquare = mindsquare` in the loop has no effect. -/
def makeNearest (g : Fin 3 → Fin 3 → ℚ) (p : Phs) (x : Fin 3 → ℚ) : Fin 3 → ℚ :=
  let w : Fin 3 → ℚ := fun i => fmod (x i) (p.icc i)
  if (∀ i, w i = 0) ∨ ∀ i, p.win i = 90 then w
  else
    let o : Fin 3 → ℚ := fun i => if 0 < w i then rnd53 (w i - p.icc i) else w i
    (tests o p.icc).foldl (fun s t => if skal g t t < skal g o o then t else s) o

/-- The argument of `acosd` (stru.cc 679-686); `none` is NaN, from `0/0`. -/
def arg (g : Fin 3 → Fin 3 → ℚ) (x y : Fin 3 → ℚ) : Option ℚ :=
  let d := rnd53 (sqrt53 (skal g x x) * sqrt53 (skal g y y))
  if d = 0 then none else some (rnd53 (skal g x y / d))

/-- `darg` (stru.cc 682-684, 688). -/
def darg (g dg : Fin 3 → Fin 3 → ℚ) (x y dx dy : Fin 3 → ℚ) (a : ℚ) : ℚ :=
  let xx := sqrt53 (skal g x x)
  let yy := sqrt53 (skal g y y)
  let dxx := rnd53 (rnd53 (1 / 2 / xx) * dskal g dg x x dx dx)
  let dyy := rnd53 (rnd53 (1 / 2 / yy) * dskal g dg y y dy dy)
  rnd53 (rnd53 (rnd53 (rnd53 (1 / rnd53 (xx * yy)) * dskal g dg x y dx dy) + rnd53 (rnd53 (a / xx) * dxx)) + rnd53 (rnd53 (a / yy) * dyy))

/-- `fabs(1.0/sqrt(1.0-arg*arg)/rad*darg)` unless `arg` is one (stru.cc 689-692). -/
def dang (rad a da : ℚ) : Dbl :=
  if a ≠ 1 then
    let q := rnd53 (1 - rnd53 (a * a))
    if q < 0 then .nan
    else if q = 0 then (if da = 0 then .nan else .pinf)
    else .num |rnd53 (rnd53 (rnd53 (1 / sqrt53 q) / rad) * da)|
  else .num 0

/-- The angle, a number only for an argument in `[-1, 1]`. -/
noncomputable def ang (a : ℚ) : Option ℝ := if |a| ≤ 1 then some (Pdffit.Parser.bacosd a) else none

/-- Angle and deviation from the bond vectors (stru.cc 677-692). -/
noncomputable def angle (L : Lib) (g dg : Fin 3 → Fin 3 → ℚ) (x y dx dy : Fin 3 → ℚ) : Option ℝ × Dbl :=
  match arg g x y with
  | none => (none, .nan)
  | some a => (ang a, dang L.rad a (darg g dg x y dx dy a))

/-- The difference `aj - ai` of two positions and the sum of their deviations (stru.cc 669-675). -/
def diff (a b : Atm) : Fin 3 → ℚ := fun k => rnd53 (a.pos k - b.pos k)
@[inherit_doc diff] def ddiff (a b : Atm) : Fin 3 → ℚ := fun k => rnd53 (a.dpos k + b.dpos k)

/-- `Phase::bond_angle` (stru.cc 645-697); `none` and `nan` are NaN. In a structure with a zero number of cells `fmod` gives NaN. -/
noncomputable def bondAngle (L : Lib) (p : Phs) (ia ja ka : ℤ) : Res (Option ℝ × Dbl) :=
  if ia < 1 ∨ ia > p.atom.length ∨ ja < 1 ∨ ja > p.atom.length ∨ ka < 1 ∨ ka > p.atom.length then
    .err .value
  else if ia = ja ∨ ia = ka ∨ ja = ka then .err .value
  else do
    let ai ← Res.at? p.atom (ia - 1).toNat
    let aj ← Res.at? p.atom (ja - 1).toNat
    let ak ← Res.at? p.atom (ka - 1).toNat
    if ∃ i, p.icc i = 0 then .ok (none, .nan)
    else
      let g := tensor L p.a0 p.win
      .ok (angle L g (dtensor L p.a0 p.win p.da0 p.dwin) (makeNearest g p (diff aj ai)) (makeNearest g p (diff aj ak))
        (ddiff aj ai) (ddiff aj ak))

example : sqrt53 2 = 6369051672525773 / 4503599627370496 := by decide +kernel
example : sqrt53 (1 / 4) = 1 / 2 := by decide +kernel

end Pdffit.FAngle
