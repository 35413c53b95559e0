import Verif.Model.FullFit
import Verif.Model.ListArg

/-!
# `calc()` and the quantities that are read afterwards (fit.cc 288-342, misc.cc 347-370, pdf.cc 154-168, 1124-1149)

`calc()` evaluates the constraints, wraps the coordinates, computes the cells of all phases and then the PDF of every data set. Here
with the state of the object that the getters show, also for calls that raise.

Simplified: of a data set that has been calculated before, the old `calc`, `fit_a`, `fit_b` are left out (they are not read);
`lattice()` computes derived quantities of the phases, which are recalculated by every use and left out; messages are left out.
-/

namespace Pdffit.Calc
open Geom Det Full _root_.Pdffit.Parser

/-- `pdftot`: empty before the first calculation; not a number somewhere; values. -/
inductive Curve where
  | empty
  | nan
  | vals (l : List ℝ)

/-- What calculations and refinements store in a data set: `nfmin`, `nfmax`, `pdftot`, `cumchisq`. -/
structure SetSt where
  nfmin : ℤ
  nfmax : ℤ
  pdftot : Curve
  cum : List ℝ

/-- A `PdfFit` object: phases and data sets, parameters, variables, constraints with the derivative matrix, what is stored in the data
sets, `fit.wnorm`, `fit.ntot`, `fit.fit_rw`. -/
structure St where
  I : Input
  par : ParStore ℝ
  vars : ℕ → ℝ
  cons : List (Constr (List Char))
  dvdp : Mat ℝ
  sets : List SetSt
  wnorm : ℝ
  ntot : ℤ
  rw : ℝ

/-- `pdftot` after `determine`: zero below `ncmin` (pdf.cc 177-178). -/
noncomputable def toCurve (D : Data) : Option (ℤ → ℝ) → Curve
  | none => .nan
  | some f => .vals ((List.range (D.ncmax + 1).toNat).map fun n : ℕ => if (n : ℤ) < D.ncmin then 0 else f n)

/-- `DataSet::weighedSquareObs` (pdf.cc 1141-1149) -/
noncomputable def wsq (s : SetIn) : Res ℝ :=
  (grid s.d.D.nfmin s.d.D.nfmax).foldlM (fun a i => do
    let w ← readAt s.d.wic i
    let o ← readAt s.d.obs i
    .ok (a + w * o * o)) 0

/-- `determine` of one data set with the sums that follow (fit.cc 333-340). -/
noncomputable def calcSet (I : Input) (v : ℕ → ℝ) (is : ℕ) (s : SetIn) (o : SetSt) : Res (SetSt × ℝ × ℤ) := do
  let t ← determine (I.dat v is s) (I.sel v s)
  let w ← wsq s
  .ok ({ o with nfmin := s.d.D.nfmin, nfmax := s.d.D.nfmax, pdftot := toCurve (I.dat v is s) t }, w, s.d.D.nfmax - s.d.D.nfmin + 1)

/-- The loop over the data sets (fit.cc 327-341), from number `is` on, with the sums so far. -/
noncomputable def calcSets (I : Input) (v : ℕ → ℝ) : ℕ → List SetIn → List SetSt → ℝ → ℤ → Res Unit × List SetSt × ℝ × ℤ
  | is, s :: l, o :: c, wn, nt =>
    match calcSet I v is s o with
    | .ok r =>
      let x := calcSets I v (is + 1) l c (wn + r.2.1) (nt + r.2.2)
      (x.1, r.1 :: x.2.1, x.2.2)
    | .err e => (.err e, o :: c, wn, nt)
    | .ub => (.ub, o :: c, wn, nt)
  | _, _, c, wn, nt => (.ok (), c, wn, nt)

open Classical in
/-- `PdfFit::calc` (fit.cc 288-297) with `fit_theory(false, true)` (303-342). -/
noncomputable def calculate (s : St) : Res Unit × St :=
  if s.I.sets = [] then (.err .unassigned, s)
  else
    let r := fillVariables (fparse builtinTab) s.par s.cons s.vars s.dvdp
    let s1 := { s with cons := r.1, vars := r.2.1, dvdp := r.2.2.1 }
    match r.2.2.2 with
    | some (.exc e) => (.err e, s1)
    | some .ub => (.ub, s1)
    | none =>
      let s2 := { s1 with vars := wrapVars s.I.icc s1.vars }
      if ∃ ip, ip < s.I.phases.length ∧
          ∀ m, lattice ⟨fun k => s.I.val s2.vars (.a0 ip k), fun k => s.I.val s2.vars (.win ip k)⟩ ≠ .ok m then (.err .structure, s2)
      else
        let x := calcSets s.I s2.vars 0 s.I.sets s2.sets 0 0
        (x.1, { s2 with sets := x.2.1, wnorm := x.2.2.1, ntot := x.2.2.2 })

/-- The handlers of the binding (misc.cc 353-367); an exception without a handler ends the process. -/
def handle : Res Unit → ListArg.End
  | .ok _ => .returns
  | .err .calculation => .raises .calculation
  | .err .unassigned => .raises .unassigned
  | .err .parse => .raises .constraint
  | .err _ => .dies
  | .ub => .ub

/-- `getpdf_fit` (misc.cc 944-947) of data set `o`: elements `nfmin..nfmax` of `pdftot`; `none` if it is not a list of numbers
or shorter. -/
def getpdf_fit (o : SetSt) : Option (List ℝ) :=
  match o.pdftot with
  | .vals l => if 0 ≤ o.nfmin ∧ o.nfmax < l.length then some ((grid o.nfmin o.nfmax).map fun i => l.getD i.toNat 0) else none
  | _ => none

/-- `getcrw` (pdf.cc 1124-1138) of data set `o`. -/
noncomputable def getcrw (s : St) (o : SetSt) : List ℝ :=
  o.cum.map fun x => √(x * if 0 < s.wnorm then 1 / s.wnorm else 1)

/-- `getR` (misc.cc 897-914) of data set `d` when more than one grid point is stored as fit range. -/
noncomputable def getR (d : SetIn) (o : SetSt) : List ℝ := (grid o.nfmin o.nfmax).map fun i : ℤ => (i : ℝ) * d.d.D.deltar + d.d.D.rmin

end Pdffit.Calc
