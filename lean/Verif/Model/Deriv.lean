import Verif.Model.Determine
import Verif.Model.Layout

/-!
# Derivatives of the PDF (`DataSet::pdf_derivative`, pdf.cc 421-770, and `DataSet::fit_setup_derivatives`, fit.cc 361-560)

* The matrix `fit_a` has one column per constrained variable. The column of a variable is found with `fit.refvar`; different variables
  have different columns (C47). The model keeps one column for every variable `RVar` and computes it when it is asked for.
* `NEW_SHARP` is defined (pdf.cc 42).
* `none` stands for a column that is not a number somewhere, as in `Model/Determine.lean`.
* The final product with the matrix of the derivatives of the constraints (`fit_b`, fit.cc 558) is not part of this file.
-/

namespace Pdffit.Deriv
open Geom Parser Bonds Det Layout

/-- Arguments of `pdf_derivative`. -/
structure Pk where
  ph : PPhase
  qbroad : ℝ
  a : PAtom
  b : PAtom
  rk : ℝ
  sigma : ℝ
  sigmap : ℝ
  dist : ℝ
  d : Fin 3 → ℝ
  ampl : ℝ
  gaus : ℝ

namespace Pk
variable (p : Pk)

/-- `s11, s22, s33, s12, s13, s23` (pdf.cc 434-439). -/
def s (k : Fin 6) : ℝ := p.a.u k + p.b.u k
/-- pdf.cc 441 -/
noncomputable def rd : ℝ := (p.rk - p.dist) / p.sigma
/-- `phi` (pdf.cc 443-452) -/
noncomputable def phi : ℝ := if p.dist < p.ph.rcut then p.ph.sratio else 1
/-- `dsdphi` (pdf.cc 443-452) -/
noncomputable def dsdphi : ℝ := if p.dist < p.ph.rcut then p.sigma / p.phi else 0
/-- pdf.cc 455 -/
def T : ℝ := p.ampl * p.gaus
/-- pdf.cc 456 -/
noncomputable def dTds : ℝ := p.T / p.sigma * (p.rd * p.rd - 1)
/-- pdf.cc 457 -/
noncomputable def dTdr : ℝ := (p.rk - p.dist) / p.sigma ^ 2 * p.T
/-- pdf.cc 462 -/
noncomputable def dsds2 : ℝ := (p.phi * p.sigmap) ^ 2 / (2 * p.sigma)
/-- pdf.cc 463 -/
noncomputable def dsdsp : ℝ := p.sigma / p.sigmap
/-- pdf.cc 464-465 -/
noncomputable def dsdr : ℝ :=
  p.dsds2 * (2 * p.ph.delta2 / p.dist ^ 3 + p.ph.delta1 / p.dist ^ 2 + 2 * p.qbroad ^ 2 * p.dist)
/-- pdf.cc 476 -/
noncomputable def dspdr : ℝ := -p.sigmap / p.dist

/-- `cosa`, `cosb`, `cosg` (metric.cc 44-46). -/
noncomputable def cs (k : Fin 3) : ℝ := bcosd (p.ph.cell.win k)

/-- The sums `d[0] + cosg*d[1] + cosb*d[2]` etc. (pdf.cc 494, 515, 536). -/
noncomputable def gd : Fin 3 → ℝ :=
  ![p.d 0 + p.cs 2 * p.d 1 + p.cs 1 * p.d 2, p.cs 2 * p.d 0 + p.d 1 + p.cs 0 * p.d 2,
    p.cs 1 * p.d 0 + p.cs 0 * p.d 1 + p.d 2]

/-- The sums `d[0]*s11 + d[1]*s12 + d[2]*s13` etc. (pdf.cc 495, 516, 537). -/
def sd : Fin 3 → ℝ :=
  ![p.d 0 * p.s 0 + p.d 1 * p.s 3 + p.d 2 * p.s 4, p.d 0 * p.s 3 + p.d 1 * p.s 1 + p.d 2 * p.s 5,
    p.d 0 * p.s 4 + p.d 1 * p.s 5 + p.d 2 * p.s 2]

/-- `dg` for a coordinate (pdf.cc 494-497, 515-518, 536-539). -/
noncomputable def dgx (k : Fin 3) : ℝ :=
  let drdx := p.ph.cell.a0 k / p.dist * p.gd k
  let dspdx := p.ph.cell.a0 k * p.sd k / p.dist ^ 2 / p.sigmap
  p.dTds * (p.dsdsp * (p.dspdr * drdx + dspdx) + p.dsdr * drdx) + p.dTdr * drdx

/-- pdf.cc 561-563 -/
noncomputable def fsimp : ℝ := p.dTds * p.dsdsp * (1 / (2 * p.sigmap * p.dist ^ 2))

/-- `dg` for a displacement parameter (pdf.cc 565-621). -/
noncomputable def dgu : Fin 6 → ℝ :=
  ![p.fsimp * p.d 0 ^ 2, p.fsimp * p.d 1 ^ 2, p.fsimp * p.d 2 ^ 2,
    2 * p.fsimp * p.d 0 * p.d 1, 2 * p.fsimp * p.d 0 * p.d 2, 2 * p.fsimp * p.d 1 * p.d 2]

/-- `dg` for an edge of the cell (pdf.cc 644-676). -/
noncomputable def dga (k : Fin 3) : ℝ :=
  let drda := p.gd k * p.d k / p.ph.cell.a0 k / p.dist
  let dspda := p.sd k * p.d k / p.ph.cell.a0 k / p.dist ^ 2 / p.sigmap
  (p.dTds * (p.dsdsp * p.dspdr + p.dsdr) + p.dTdr) * drda + p.dTds * p.dsdsp * dspda

/-- `dg` for an angle of the cell (pdf.cc 681-710). -/
noncomputable def dgw (k : Fin 3) : ℝ :=
  let drda := -rad * bsind (p.ph.cell.win k) * p.d (k + 1) * p.d (k + 2) / p.dist
  (p.dTds * (p.dsdsp * p.dspdr + p.dsdr) + p.dTdr) * drda

/-- The additions to the row `fit_a_i` (pdf.cc 487-768) for the atoms `ia`, `ja` of phase `ip` and data set `is`. -/
noncomputable def adds (is ip ia ja : ℕ) : List (RVar × ℝ) :=
  [(.pos ip ia 0, p.dgx 0), (.pos ip ja 0, -p.dgx 0), (.pos ip ia 1, p.dgx 1), (.pos ip ja 1, -p.dgx 1),
    (.pos ip ia 2, p.dgx 2), (.pos ip ja 2, -p.dgx 2),
    (.u ip ia 0, p.dgu 0), (.u ip ja 0, p.dgu 0), (.u ip ia 1, p.dgu 1), (.u ip ja 1, p.dgu 1),
    (.u ip ia 2, p.dgu 2), (.u ip ja 2, p.dgu 2), (.u ip ia 3, p.dgu 3), (.u ip ja 3, p.dgu 3),
    (.u ip ia 4, p.dgu 4), (.u ip ja 4, p.dgu 4), (.u ip ia 5, p.dgu 5), (.u ip ja 5, p.dgu 5),
    (.occ ip ia, p.T / p.a.occ), (.occ ip ja, p.T / p.b.occ),
    (.a0 ip 0, p.dga 0), (.a0 ip 1, p.dga 1), (.a0 ip 2, p.dga 2),
    (.win ip 0, p.dgw 0), (.win ip 1, p.dgw 1), (.win ip 2, p.dgw 2),
    (.delta2 ip, -p.dTds * p.dsds2 / p.dist ^ 2), (.delta1 ip, -p.dTds * p.dsds2 / p.dist),
    (.sratio ip, p.dTds * p.dsdphi), (.qbroad is, p.dTds * p.dsds2 * (2 * p.qbroad * p.dist ^ 2))]

end Pk

/-- What is added to the column of `v` by a list of additions. -/
def valOf (v : RVar) (l : List (RVar × ℝ)) : ℝ := (l.map fun x => if x.1 = v then x.2 else 0).sum

/-- The call of `pdf_derivative` for the grid point `ig` of a peak (pdf.cc 344-355). -/
noncomputable def pk (D : Data) (ph : PPhase) (x : (ℕ × ℕ) × (ℤ × ℤ × ℤ)) (dist sig : ℝ) (ig : ℤ) : Pk where
  ph := ph
  qbroad := D.qbroad
  a := ph.atm x.1.1
  b := ph.atm x.1.2
  rk := D.rmin + ig * D.deltar
  sigma := sig
  sigmap := √(ph.msd (ph.atm x.1.1) (ph.atm x.1.2) (dd ph (ph.atm x.1.1) (ph.atm x.1.2) x.2))
  dist := dist
  d := fun k => dd ph (ph.atm x.1.1) (ph.atm x.1.2) x.2 k * ph.cell.a0 k
  ampl := if x.1.1 ≠ x.1.2 then Det.ampl ph x.1.1 x.1.2 + Det.ampl ph x.1.1 x.1.2 else Det.ampl ph x.1.1 x.1.2
  gaus := Det.gaus D dist sig ig

/-- Additions to the column of `v` for one pair and lattice point; phase `ip`, data set `is`. -/
noncomputable def dincs (D : Data) (ph : PPhase) (is ip : ℕ) (v : RVar) (x : (ℕ × ℕ) × (ℤ × ℤ × ℤ)) : List (ℤ × ℝ) :=
  match eventOf D ph x with
  | .peak dist sig => (grid (ib D dist sig) (ie D ph dist sig)).map fun ig =>
      (ig, valOf v ((pk D ph x dist sig ig).adds is ip x.1.1 x.1.2))
  | _ => []

/-- Additions of all selected phases (pdf.cc 190-358); `ip` is the number of the first phase of the list. -/
noncomputable def rawIncs (D : Data) (is : ℕ) (v : RVar) : List (Option (PPhase × Sel)) → ℕ → List (ℤ × ℝ)
  | [], _ => []
  | none :: l, ip => rawIncs D is v l (ip + 1)
  | some x :: l, ip => ((visited D x.1 x.2).flatMap (dincs D x.1 is ip v)) ++ rawIncs D is v l (ip + 1)

/-- The column of `v` of `fit_a` after the loops over the pairs. It has `ncmax+1` rows, initially zero (pdf.cc 182-186). -/
noncomputable def raw (D : Data) (is : ℕ) (v : RVar) (psel : List (Option (PPhase × Sel))) : Res (List ℝ) :=
  addAll (rawIncs D is v psel 0) (List.replicate (D.ncmax + 1).toNat 0)

/-! ## `fit_setup_derivatives` -/

/-- fit.cc 380 -/
noncomputable def bk (D : Data) (r : ℝ) : ℝ := if 0 < D.qdamp then Real.exp (-(r * D.qdamp) ^ 2 / 2) else 1

/-- fit.cc 394-400 -/
noncomputable def shapeEnv (ph : PPhase) (r : ℝ) : ℝ :=
  if 0 < ph.stepcut ∧ ph.stepcut < r then 0
  else if ph.spdiameter ≤ 0 then 1 else Shape.sphereEnvelope r ph.spdiameter

/-- fit.cc 402 -/
noncomputable def facp (D : Data) (ph : PPhase) (r : ℝ) : ℝ := ph.pscale * shapeEnv ph r * D.dscale * bk D r
/-- fit.cc 403 -/
noncomputable def facs (ph : PPhase) (r : ℝ) : ℝ := 1 / (ph.np * r)
/-- fit.cc 404 -/
noncomputable def fac (D : Data) (ph : PPhase) (r : ℝ) : ℝ := facs ph r * facp D ph r

/-- `ddrho` (fit.cc 452-478). -/
noncomputable def ddrho (c : Cell) (k : Fin 3) : ℝ :=
  (c.a0 0 * c.a0 1 * c.a0 2 / vol c) ^ 2 * (rad * bsind (c.win k) * (bcosd (c.win k) - bcosd (c.win (k + 1)) * bcosd (c.win (k + 2))))

/-- `phase.dnorm` (pdf.cc 228). -/
noncomputable def dnorm (ph : PPhase) (s : Sel) : ℝ := ract ph s / rtot ph

/-- Assignments for atom `ia` (fit.cc 406-433); `c` is `calc[i][ip]`. -/
noncomputable def atomStmts (D : Data) (ph : PPhase) (s : Sel) (ip : ℕ) (r c : ℝ) (ia : ℕ) : List (RVar × (ℝ → ℝ)) :=
  let mul : RVar → RVar × (ℝ → ℝ) := fun v => (v, fun x => x * fac D ph r)
  [mul (.pos ip ia 0), mul (.pos ip ia 1), mul (.pos ip ia 2), mul (.u ip ia 0), mul (.u ip ia 1), mul (.u ip ia 2),
    mul (.u ip ia 3), mul (.u ip ia 4), mul (.u ip ia 5),
    (.occ ip ia, fun x => facp D ph r * (facs ph r * x - 4 * Real.pi * r * ph.rho0 * dnorm ph s / ph.np) +
      ph.pscale * D.dscale * (1 - 2 * ph.weight ia) / ph.np *
        (c + 4 * Real.pi * r * ph.rho0 * dnorm ph s * bk D r * shapeEnv ph r))]

/-- Assignments for the variables of a phase (fit.cc 441-508). -/
noncomputable def phaseStmts (D : Data) (ph : PPhase) (s : Sel) (ip : ℕ) (r c : ℝ) : List (RVar × (ℝ → ℝ)) :=
  let mul : RVar → RVar × (ℝ → ℝ) := fun v => (v, fun x => x * fac D ph r)
  let edge : Fin 3 → RVar × (ℝ → ℝ) := fun k => (.a0 ip k, fun x =>
    facp D ph r * (facs ph r * x + 4 * Real.pi * r * dnorm ph s * ph.rho0 / ph.cell.a0 k))
  let angle : Fin 3 → RVar × (ℝ → ℝ) := fun k => (.win ip k, fun x =>
    facp D ph r * (facs ph r * x + 4 * Real.pi * r * dnorm ph s * ph.rho0 * ddrho ph.cell k))
  (List.range ph.atom.length).flatMap (atomStmts D ph s ip r c) ++
  [edge 0, edge 1, edge 2, angle 0, angle 1, angle 2, mul (.delta2 ip), mul (.delta1 ip),
    (.pscale ip, fun _ => c * D.dscale),
    (.spdiameter ip, fun _ => if ph.spdiameter ≤ 0 then 0 else
      c * D.dscale * ph.pscale * Shape.dsphereEnvelope r ph.spdiameter / (if 0 < shapeEnv ph r then shapeEnv ph r else 1)),
    mul (.sratio ip)]

/-- A selected phase with its column of `calc`. -/
abbrev Calced := PPhase × Sel × (ℤ → ℝ)

/-- The columns of `calc` (pdf.cc 363-386). -/
noncomputable def calcs (D : Data) : List (Option (PPhase × Sel)) → Res (List (Option Calced))
  | [] => .ok []
  | none :: l => do
    let r ← calcs D l
    .ok (none :: r)
  | some x :: l => do
    let p ← ppp D x.1 x.2
    let r ← calcs D l
    .ok (some (x.1, x.2, calcAt D x.1 x.2 p) :: r)

/-- Assignments of the loop over the phases for the grid point `i` (fit.cc 387-509). -/
noncomputable def phasesStmts (D : Data) (i : ℤ) : List (Option Calced) → ℕ → List (RVar × (ℝ → ℝ))
  | [], _ => []
  | none :: l, ip => phasesStmts D i l (ip + 1)
  | some x :: l, ip => phaseStmts D x.1 x.2.1 ip (D.r i) (x.2.2 i) ++ phasesStmts D i l (ip + 1)

/-- The value of the variable `fac` after the loop over the phases: that of the last selected phase. -/
noncomputable def lastFac (D : Data) (i : ℤ) (l : List (Option Calced)) : ℝ :=
  l.foldl (fun f x => match x with
    | none => f
    | some y => fac D y.1 (D.r i)) 0

/-- `pdftot[i]` before the termination filter (pdf.cc 178, 389). -/
noncomputable def totAt (D : Data) (i : ℤ) (l : List (Option Calced)) : ℝ :=
  l.foldl (fun t x => match x with
    | none => t
    | some y => t + D.dscale * y.1.pscale * y.2.2 i) 0

/-- All assignments for the grid point `i` in their order (fit.cc 373-537). -/
noncomputable def stmts (D : Data) (is : ℕ) (i : ℤ) (l : List (Option Calced)) : List (RVar × (ℝ → ℝ)) :=
  phasesStmts D i l 0 ++
  [(.dscale is, fun _ => totAt D i l / D.dscale),
    (.qdamp is, fun _ => if 0 < D.qdamp then -(D.r i * D.r i) * D.qdamp * totAt D i l else 0),
    (.qbroad is, fun x => x * lastFac D i l)]

/-- The value of the column of `v` after assignments. -/
def runOn (v : RVar) (l : List (RVar × (ℝ → ℝ))) (x : ℝ) : ℝ := l.foldl (fun x st => if st.1 = v then st.2 x else x) x

/-- The assignments for `v` divide by zero: an occupancy or the scale factor of the data (pdf.cc 626-634, fit.cc 519-520). Other divisors are
covered by `Det.Bad`: the width of a peak contains `sratio`, the volume the edges of the cell. -/
def Div0 (D : Data) (is : ℕ) (v : RVar) (psel : List (Option (PPhase × Sel))) : Prop :=
  (v = .dscale is ∧ D.dscale = 0) ∨ ∃ ip ia ph s, v = .occ ip ia ∧ psel[ip]? = some (some (ph, s)) ∧ (ph.atm ia).occ = 0

open Classical in
/-- The column of `fit_a` for the variable `v` and data set `is` after `determine(true, ...)`: rows `ncmin..ncmax`. -/
noncomputable def fitA (D : Data) (is : ℕ) (v : RVar) (psel : List (Option (PPhase × Sel))) : Res (Option (ℤ → ℝ)) := do
  let t ← total D psel
  let p ← raw D is v psel
  let l ← calcs D psel
  match t with
  | none => .ok none
  | some _ =>
    if Div0 D is v psel then .ok none
    else
      let col : ℤ → ℝ := fun i => runOn v (stmts D is i l) (p.getD i.toNat 0)
      if 0 < D.qmax then
        match Qmax.applyQmaxCutoff D.deltar D.qmax (nclen D) (fun n => col (D.ncmin + n)) with
        | none => .ub
        | some y => .ok (some fun i => y (i - D.ncmin).toNat)
      else .ok (some col)

/-! ## The variables of a data set and its phases -/

/-- Change of atom `ia` of a phase. -/
def onAtom (ph : PPhase) (ia : ℕ) (f : PAtom → PAtom) : PPhase := { ph with atom := ph.atom.modify ia f }

/-- The phase `ip` with the variable `v` set to `t`. -/
def updPhase (v : RVar) (t : ℝ) (ip : ℕ) (ph : PPhase) : PPhase :=
  match v with
  | .a0 q k => if q = ip then { ph with cell := { ph.cell with a0 := Function.update ph.cell.a0 k t } } else ph
  | .win q k => if q = ip then { ph with cell := { ph.cell with win := Function.update ph.cell.win k t } } else ph
  | .delta2 q => if q = ip then { ph with delta2 := t } else ph
  | .delta1 q => if q = ip then { ph with delta1 := t } else ph
  | .pscale q => if q = ip then { ph with pscale := t } else ph
  | .spdiameter q => if q = ip then { ph with spdiameter := t } else ph
  | .sratio q => if q = ip then { ph with sratio := t } else ph
  | .pos q ia k => if q = ip then onAtom ph ia fun a => { a with pos := Function.update a.pos k t } else ph
  | .u q ia k => if q = ip then onAtom ph ia fun a => { a with u := Function.update a.u k t } else ph
  | .occ q ia => if q = ip then onAtom ph ia fun a => { a with occ := t } else ph
  | _ => ph

/-- The data set `is` with the variable `v` set to `t`. -/
def updData (v : RVar) (t : ℝ) (is : ℕ) (D : Data) : Data :=
  match v with
  | .dscale q => if q = is then { D with dscale := t } else D
  | .qdamp q => if q = is then { D with qdamp := t } else D
  | .qbroad q => if q = is then { D with qbroad := t } else D
  | _ => D

/-- The phases with the variable `v` set to `t`. -/
def updSel (v : RVar) (t : ℝ) (psel : List (Option (PPhase × Sel))) : List (Option (PPhase × Sel)) :=
  psel.mapIdx fun ip x => x.map fun y => (updPhase v t ip y.1, y.2)

/-- Value of a variable of phase `ph`. -/
def getPhase (v : RVar) (ph : PPhase) : ℝ :=
  match v with
  | .a0 _ k => ph.cell.a0 k
  | .win _ k => ph.cell.win k
  | .delta2 _ => ph.delta2
  | .delta1 _ => ph.delta1
  | .pscale _ => ph.pscale
  | .spdiameter _ => ph.spdiameter
  | .sratio _ => ph.sratio
  | .pos _ ia k => (ph.atm ia).pos k
  | .u _ ia k => (ph.atm ia).u k
  | .occ _ ia => (ph.atm ia).occ
  | _ => 0

/-- Phase that owns a variable. -/
def owner : RVar → Option ℕ
  | .a0 q _ => some q
  | .win q _ => some q
  | .delta2 q => some q
  | .delta1 q => some q
  | .pscale q => some q
  | .spdiameter q => some q
  | .sratio q => some q
  | .pos q _ _ => some q
  | .u q _ _ => some q
  | .occ q _ => some q
  | _ => none

/-- Current value of a variable that the data set `is` can depend on; 0 for other variables. -/
def value (D : Data) (is : ℕ) (psel : List (Option (PPhase × Sel))) (v : RVar) : ℝ :=
  match owner v with
  | some q =>
    match psel[q]? with
    | some (some x) => getPhase v x.1
    | _ => 0
  | none =>
    match v with
    | .dscale q => if q = is then D.dscale else 0
    | .qdamp q => if q = is then D.qdamp else 0
    | .qbroad q => if q = is then D.qbroad else 0
    | _ => 0

end Pdffit.Deriv
