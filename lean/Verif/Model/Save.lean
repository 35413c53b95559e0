import Verif.Model.Lists
import Verif.Model.Stru

/-!
# Saving of the calculated curve and of the difference (pdf.cc 971-1088)

A value is a real number or, as `none`, infinity or "not a number" (`1/sqrt(0)`). How a value is printed (`%#g`) is a parameter.
-/

namespace Pdffit.Save
open Det Lists

/-- The columns of one line of `build_pdf_file` (pdf.cc 1018-1024). -/
noncomputable def pdfRow (s : LSet) (i : ℤ) : Res (List (Option ℝ)) := do
  let f ← readAt s.pdftot i
  let w ← readAt s.d.wic i
  let o ← readAt s.d.obs i
  .ok [some ((i : ℝ) * s.d.D.deltar + s.d.D.rmin), some f, some 0, if 0 < w then some (1 / √w) else none, some (o - f)]

/-- The columns of one line of `build_dif_file` (pdf.cc 1081-1085). -/
noncomputable def difRow (s : LSet) (i : ℤ) : Res (List (Option ℝ)) := do
  let o ← readAt s.d.obs i
  let f ← readAt s.pdftot i
  .ok [some ((i : ℝ) * s.d.D.deltar + s.d.D.rmin), some (o - f)]

/-- The loop over the lines. -/
def collect {α β : Type} (f : α → Res β) : List α → Res (List β)
  | [] => .ok []
  | i :: l => do
    let x ← f i
    let r ← collect f l
    .ok (x :: r)

/-- The columns of `build_pdf_file` (pdf.cc 1012-1027). -/
noncomputable def pdfRows (s : LSet) : Res (List (List (Option ℝ))) := collect (pdfRow s) (grid s.nfmin s.nfmax)

/-- The columns of `build_dif_file` (pdf.cc 1075-1088). -/
noncomputable def difRows (s : LSet) : Res (List (List (Option ℝ))) := collect (difRow s) (grid s.nfmin s.nfmax)

/-- A line: `setw(12)` and four blanks between columns. -/
def line (prt : Option ℝ → List Char) : List (Option ℝ) → List Char
  | [] => []
  | [x] => Stru.pad 12 (prt x)
  | x :: y :: l => Stru.pad 12 (prt x) ++ List.replicate 4 ' ' ++ line prt (y :: l)

/-- The text of the file. -/
def file (prt : Option ℝ → List Char) (rows : List (List (Option ℝ))) : List Char := rows.flatMap fun r => line prt r ++ ['\n']

/-- `PdfFit::save_pdf` (pdf.cc 971-1004) and `PdfFit::save_dif` (pdf.cc 1037-1070). `fname`: whether a file name is given and, if so, whether the
file can be created. -/
def save (rows : LSet → Res (List (List (Option ℝ)))) (prt : Option ℝ → List Char) (sets : List LSet) (iset : ℤ)
    (fname : Option Bool) : Res (List Char) :=
  if iset < 1 ∨ (sets.length : ℤ) < iset then .err .unassigned
  else if fname = some false then .err .io
  else Res.at? sets (iset - 1).toNat >>= fun s => rows s >>= fun r => .ok (file prt r)

end Pdffit.Save
