import Verif.Model.Calc

/-!
# The quality of fit between refinements (pdffit.h 283-286, pdf.cc 1124-1138, 1566-1571, 1640-1652)

What the calls between two refinements do to the object of `Model/Calc.lean`. A call that raises without an effect leaves the object
as it is.
-/

namespace Pdffit.Calc
open Geom Det Full _root_.Pdffit.Parser

/-- `setpar`, `setvar` (of the variable at an address), `constrain`, `fixpar`/`freepar` (any new flags), `pdfrange` of one data set, `read_data` of a
data set, `calc` (`compute`). -/
inductive Op where
  | setpar (i : ℕ) (x : ℝ)
  | setvar (a : ℕ) (x : ℝ)
  | constrain (a : ℕ) (f : Option (List Char)) (i : ℤ) (t : FCon)
  | flags (ip : List Bool)
  | pdfrange (is : ℕ) (lo hi : ℝ)
  | read (d : SetIn)
  | compute

/-- `DataSet::range` (pdf.cc 1640-1652) of data set `is`, counted from 0. -/
noncomputable def range (l : List SetIn) (is : ℕ) (lo hi : ℝ) : List SetIn :=
  l.mapIdx fun k s => if k = is then
    match s.d.range lo hi with
    | .ok d => { s with d := d }
    | _ => s
  else s

/-- One call. After reading, the fit range stored is the whole data set and nothing is calculated (pdf.cc 1568-1569). -/
noncomputable def exec (s : St) : Op → St
  | .setpar i x => { s with par := s.par.setpar i x }
  | .setvar a x => { s with vars := upd s.vars a x }
  | .constrain a f i t => { s with cons := constrainRaw s.cons a f i t }
  | .flags ip => { s with par := { s.par with ip := ip } }
  | .pdfrange is lo hi => { s with I := { s.I with sets := range s.I.sets is lo hi } }
  | .read d => { s with I := { s.I with sets := s.I.sets ++ [d] }, sets := s.sets ++ [⟨0, d.d.bin - 1, .empty, []⟩] }
  | .compute => (calculate s).2

noncomputable def run (s : St) (ops : List Op) : St := ops.foldl exec s

/-- The residual of what the getters show: the sums over all data sets of the weighted squares of `getpdf_diff` and of `getpdf_obs`, divided, and the
root. -/
noncomputable def shown (s : St) : ℝ :=
  let pick (f : SetIn → ℤ → ℝ → ℝ) : ℝ := ((s.I.sets.zip s.sets).map fun x =>
    (List.zipWith (fun i y => x.1.d.wic.getD i.toNat 0 * f x.1 i y) (grid x.2.nfmin x.2.nfmax) ((getpdf_fit x.2).getD [])).sum).sum
  √(pick (fun d i y => (d.d.obs.getD i.toNat 0 - y) ^ 2) / pick (fun d i _ => d.d.obs.getD i.toNat 0 ^ 2))

end Pdffit.Calc
