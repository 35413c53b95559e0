import Verif.Model.Lists

/-!
# Plots of the interactive session (`EasyPDFPlotting`, ipy_ext.py 24-96)

* Values are real numbers; `math.floor` of NaN or infinity, which raises, is not part of the model.
* numpy and matplotlib: what is used of them is stated at `sub` and `line`.
-/

namespace Pdffit.Plot
open Lists

/-- Python exceptions of a plot command. -/
inductive Bad where
  /-- An exception of the library -/
  | lib (e : Exc)
  /-- `ValueError` of numpy, matplotlib or `min` -/
  | value
  /-- `IndexError` -/
  | index
  /-- Undefined behaviour in the library -/
  | ub

/-- Result of a getter. -/
def lift {α : Type} : Res α → Except Bad α
  | .ok a => .ok a
  | .err e => .error (.lib e)
  | .ub => .error .ub

/-- numpy's difference of two arrays of dimension one: an array with one element is subtracted from (or minuend for) all elements. -/
def sub (a b : List ℝ) : Except Bad (List ℝ) :=
  if a.length = b.length then .ok (List.zipWith (fun x y => x - y) a b)
  else match a, b with
    | _, [y] => .ok (a.map fun x => x - y)
    | [x], _ => .ok (b.map fun y => x - y)
    | _, _ => .error .value

/-- A line in a plot. -/
structure Line where
  xs : List ℝ
  ys : List ℝ

/-- One pair of arguments of `ax.plot`: the arrays must have the same length. -/
def line (xs ys : List ℝ) : Except Bad Line := if xs.length = ys.length then .ok ⟨xs, ys⟩ else .error .value

/-- `min` and `max` of a sequence. -/
noncomputable def least (l : List ℝ) : Except Bad ℝ :=
  match l with
  | [] => .error .value
  | x :: t => .ok (t.foldl min x)

@[inherit_doc least] noncomputable def greatest (l : List ℝ) : Except Bad ℝ :=
  match l with
  | [] => .error .value
  | x :: t => .ok (t.foldl max x)

/-- `Gdiff` (ipy_ext.py 46-48) -/
def gdiff (s : LSet) : Except Bad (List ℝ) := do
  let o ← lift (getObs s)
  let c ← lift (getFit s)
  sub o c

/-- `showfit` (ipy_ext.py 50-74): the three lines. -/
noncomputable def showfit (s : LSet) (offset : Option ℝ) : Except Bad (List Line) := do
  let r := getR s
  let o ← lift (getObs s)
  let c ← lift (getFit s)
  let d ← gdiff s
  let z ← match offset with
    | some z => Except.ok z
    | none => do
      let a ← least o
      let b ← least c
      let m ← greatest d
      .ok ((⌊min a b - m⌋ : ℤ) : ℝ)
  let l1 ← line r o
  let l2 ← line r c
  let l3 ← line r (d.map fun x => x + z)
  .ok [l1, l2, l3]

/-- `showRw` (ipy_ext.py 76-86): the line and the number in the title; `crw` is what `getcrw` returns. -/
noncomputable def showRw (s : LSet) (crw : List ℝ) : Except Bad (Line × ℝ) := do
  let l ← line (getR s) crw
  match crw.getLast? with
  | some x => .ok (l, x)
  | none => .error .index

end Pdffit.Plot
