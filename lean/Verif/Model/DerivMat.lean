import Verif.Model.Deriv
import Verif.Model.Matrix

/-!
# The matrices `fit_a` and `fit_b` (pdf.cc 182-186, 350-355, 421-770; fit.cc 361-560; pdflsmin.cc 269-280)

`Model/Deriv.lean` computes the column of one variable. Here the two matrices are addressed as in the code: the column of
an entry is `fit.refvar` at an offset that `fit_setup` stored in the atom, the phase or the data set. An access outside
`refvar` or outside the block of the matrix is `Res.ub`; so is the use of an offset that `fit_setup` has not stored.

The values that are added or assigned, and their order, are those of `Model/Deriv.lean`. The positions of one pass are collected before
they are used.
-/

namespace Pdffit.DMat
open Det Deriv Layout

/-- What `fit_setup` leaves behind: `phase.offset`, `atom.offset`, `ds.offset`, `fit.refvar` (fit.cc 191-263). -/
structure Lay where
  phaseOff : List ℕ
  atomOff : List (List ℕ)
  setOff : List ℕ
  refvar : List (Option ℕ)

namespace Lay
variable (L : Lay)

/-- `atom.offset` -/
def atom (ip ia : ℕ) : Res ℕ := Res.at? L.atomOff ip >>= fun a => Res.at? a ia
/-- `phase.offset` -/
def phase (ip : ℕ) : Res ℕ := Res.at? L.phaseOff ip
/-- `ds.offset` -/
def set (is : ℕ) : Res ℕ := Res.at? L.setOff is

end Lay

/-- After `fit_setup` (fit.cc 174-285) with the constraints `cons`. -/
def layOf {F : Type} (addr : RVar → ℕ) (cons : List (Constr F)) (natoms : List ℕ) (nset : ℕ) : Lay where
  phaseOff := (setup natoms nset).phaseOff
  atomOff := (setup natoms nset).atomOff
  setOff := (setup natoms nset).setOff
  refvar := Layout.refvar addr cons natoms nset

/-- A statement `if ((ipar=fit.refvar[slot]) != -1) fit_a[row][ipar] = f(fit_a[row][ipar])`. -/
structure Op where
  row : ℤ
  slot : ℕ
  f : ℝ → ℝ

/-- `A[i][c]` with an `int` row. -/
def getZ (A : Mat ℝ) (i : ℤ) (c : ℕ) : Res ℝ := if 0 ≤ i then A.get i.toNat c else .ub
/-- `A[i][c] = x` -/
def setZ (A : Mat ℝ) (i : ℤ) (c : ℕ) (x : ℝ) : Res (Mat ℝ) := if 0 ≤ i then A.set i.toNat c x else .ub

def exec1 (rv : List (Option ℕ)) (op : Op) (A : Mat ℝ) : Res (Mat ℝ) :=
  Res.at? rv op.slot >>= fun r =>
    match r with
    | none => .ok A
    | some c => getZ A op.row c >>= fun x => setZ A op.row c (op.f x)

def execAll (rv : List (Option ℕ)) : List Op → Mat ℝ → Res (Mat ℝ)
  | [], A => .ok A
  | op :: l, A => exec1 rv op A >>= execAll rv l

/-- Results of a function on the elements of a list, one after the other. -/
def collect {α β : Type} (f : α → Res (List β)) : List α → Res (List β)
  | [] => .ok []
  | a :: l => do
    let x ← f a
    let y ← collect f l
    .ok (x ++ y)

/-- The positions in `refvar` used by `pdf_derivative` in the order of `Pk.adds` (pdf.cc 484-768); `oi`, `oj`, `op`, `os` are the
offsets of the two atoms, of the phase and of the data set. -/
def derivSlots (oi oj op os : ℕ) : List ℕ :=
  [oi, oj, oi + 1, oj + 1, oi + 2, oj + 2, oi + 3, oj + 3, oi + 4, oj + 4, oi + 5, oj + 5, oi + 6, oj + 6, oi + 7, oj + 7,
    oi + 8, oj + 8, oi + 9, oj + 9,
    op, op + 1, op + 2, op + 3, op + 4, op + 5, op + 6, op + 7, op + 10, os + 2]

/-- The calls of `pdf_derivative` for one pair and lattice point (pdf.cc 341-356). -/
noncomputable def pairOps (L : Lay) (D : Data) (ph : PPhase) (is ip : ℕ) (x : (ℕ × ℕ) × (ℤ × ℤ × ℤ)) : Res (List Op) :=
  match eventOf D ph x with
  | .peak dist sig => collect (fun ig => do
      let oi ← L.atom ip x.1.1
      let oj ← L.atom ip x.1.2
      let op ← L.phase ip
      let os ← L.set is
      .ok (((derivSlots oi oj op os).zip (((pk D ph x dist sig ig).adds is ip x.1.1 x.1.2).map Prod.snd)).map
        fun y => ⟨ig, y.1, (· + y.2)⟩)) (grid (ib D dist sig) (ie D ph dist sig))
  | _ => .ok []

/-- All phases (pdf.cc 190-358). -/
noncomputable def rawOps (L : Lay) (D : Data) (is : ℕ) : List (Option (PPhase × Sel)) → ℕ → Res (List Op)
  | [], _ => .ok []
  | none :: l, ip => rawOps L D is l (ip + 1)
  | some x :: l, ip => do
    let a ← collect (pairOps L D x.1 is ip) (visited D x.1 x.2)
    let b ← rawOps L D is l (ip + 1)
    .ok (a ++ b)

/-- Positions used for the variables of a phase with `n` atoms, in the order of `phaseStmts` (fit.cc 406-508). -/
def phaseSlots (L : Lay) (ip n : ℕ) : Res (List ℕ) := do
  let a ← collect (fun ia => do
    let o ← L.atom ip ia
    .ok [o, o + 1, o + 2, o + 3, o + 4, o + 5, o + 6, o + 7, o + 8, o + 9]) (List.range n)
  let o ← L.phase ip
  .ok (a ++ [o, o + 1, o + 2, o + 3, o + 4, o + 5, o + 6, o + 7, o + 8, o + 9, o + 10])

/-- Positions used in the loop over the phases, in the order of `phasesStmts` (fit.cc 387-509). -/
def phasesSlots (L : Lay) : List (Option Calced) → ℕ → Res (List ℕ)
  | [], _ => .ok []
  | none :: l, ip => phasesSlots L l (ip + 1)
  | some x :: l, ip => do
    let a ← phaseSlots L ip x.1.atom.length
    let b ← phasesSlots L l (ip + 1)
    .ok (a ++ b)

/-- The statements for the grid point `i` (fit.cc 373-537). -/
noncomputable def pointOps (L : Lay) (D : Data) (is : ℕ) (l : List (Option Calced)) (i : ℤ) : Res (List Op) := do
  let a ← phasesSlots L l 0
  let o ← L.set is
  .ok (((a ++ [o, o + 1, o + 2]).zip ((stmts D is i l).map Prod.snd)).map fun y => ⟨i, y.1, y.2⟩)

/-- The termination filter on one column (fit.cc 550-552). -/
noncomputable def filterCol (D : Data) (c : ℕ) (A : Mat ℝ) : Res (Mat ℝ) := do
  let y ← collect (fun n : ℕ => getZ A (D.ncmin + n) c >>= fun x => .ok [x]) (List.range (nclen D))
  match Qmax.applyQmaxCutoff D.deltar D.qmax (nclen D) (fun n => y.getD n 0) with
  | none => .ub
  | some z => Res.forN (nclen D) (fun n A => setZ A (D.ncmin + n) c (z n)) A

/-- The termination filter on the columns of refinable variables (fit.cc 541-554). -/
noncomputable def filterCols (D : Data) (vref : List Bool) (A : Mat ℝ) : Res (Mat ℝ) :=
  if 0 < D.qmax then Res.forN vref.length (fun c A => do
    let b ← Res.at? vref c
    if b then filterCol D c A else .ok A) A
  else .ok A

/-- `fit_a` after `determine(true, ...)` of data set `is`; `old` is the matrix before, `vref` has one entry per constraint
(pdf.cc 182-186, 350-355, 399; fit.cc 361-554). -/
noncomputable def fitAMat (L : Lay) (vref : List Bool) (old : Mat ℝ) (D : Data) (is : ℕ) (psel : List (Option (PPhase × Sel))) :
    Res (Mat ℝ) := do
  let A ← old.resize (D.ncmax + 1).toNat vref.length 0
  let ops ← rawOps L D is psel 0
  let A ← execAll L.refvar ops (A.fill 0)
  let l ← calcs D psel
  let ops ← collect (pointOps L D is l) (grid D.ncmin D.ncmax)
  let A ← execAll L.refvar ops A
  filterCols D vref A

/-- `fit_b` (fit.cc 558). -/
noncomputable def fitBMat (L : Lay) (vref : List Bool) (old dvdp : Mat ℝ) (D : Data) (is : ℕ) (psel : List (Option (PPhase × Sel))) :
    Res (Mat ℝ) := do
  let A ← fitAMat L vref old D is psel
  A.mul dvdp

/-- The rows `dyda` of the sum over the data (pdflsmin.cc 269-277), `ma` entries each. -/
noncomputable def dyda (B : Mat ℝ) (ma : ℕ) (D : Data) : Res (List (List ℝ)) :=
  collect (fun i => do
    let r ← collect (fun j => getZ B i j >>= fun x => .ok [x]) (List.range ma)
    .ok [r]) (grid D.nfmin D.nfmax)

end Pdffit.DMat
