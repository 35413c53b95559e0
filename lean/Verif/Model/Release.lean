import Mathlib.Data.List.Basic

/-!
# Release date looked up while the package is imported

`src/diffpy/pdffit2/version.py` 24-57, evaluated by `import diffpy.pdffit2`
(`__init__.py` 26).  The text file is the source file of the module itself, as
Python reads it (newlines already translated).  The outside world (network,
permissions, disk) is an argument of every call.
-/

namespace Pdffit.Release

/-- `"# Release date:"`, version.py 31 and 47. -/
def mark : List Char :=
  ['#', ' ', 'R', 'e', 'l', 'e', 'a', 's', 'e', ' ', 'd', 'a', 't', 'e', ':']

/-- `f.readlines()`, version.py 29, without the line ends (which `strip` of
line 32 removes anyway). -/
def lines : List Char → List (List Char)
  | [] => []
  | c :: cs =>
    if c = '\n' then [] :: lines cs
    else match lines cs with
      | [] => [[c]]
      | l :: ls => (c :: l) :: ls

/-- Blanks removed by `str.strip`.  Simplified: the ASCII ones. -/
def blank (c : Char) : Bool :=
  c = ' ' || c = '\t' || c = '\n' || c = '\r' || c = '\x0b' || c = '\x0c'

/-- `str.strip`, version.py 32. -/
def strip (l : List Char) : List Char :=
  ((l.dropWhile blank).reverse.dropWhile blank).reverse

/-- `line.split(":", 1)[1]`, version.py 32. -/
def after (l : List Char) : List Char := (l.dropWhile (· ≠ ':')).tail

/-- Loop over the reversed lines, version.py 30-32. -/
def stored (file : List Char) : Option (List Char) :=
  ((lines file).reverse.find? (fun l => mark.isPrefixOf l)).map
    (fun l => strip (after l))

/-- `datetime.date`. -/
structure Date where
  year : ℕ
  month : ℕ
  day : ℕ

/-- Decimal digit of weight `10 ^ k`. -/
def digit (n k : ℕ) : Char := Char.ofNat (48 + n / 10 ^ k % 10)

/-- `str` of a date, version.py 47 and 53: `YYYY-MM-DD`. -/
def Date.text (d : Date) : List Char :=
  [digit d.year 3, digit d.year 2, digit d.year 1, digit d.year 0, '-',
    digit d.month 1, digit d.month 0, '-', digit d.day 1, digit d.day 0]

/-- Text written by version.py 47. -/
def note (d : Date) : List Char := '\n' :: (mark ++ ' ' :: d.text)

/-- What version.py 34-44 ends in.  `other` stands for the exceptions which
are neither `ValueError` nor `OSError`: `http.client.IncompleteRead` of line 36,
`KeyError` and `TypeError` of lines 39 and 43 for replies of another shape. -/
inductive Net
  | osError
  | valueError
  | other
  | release (d : Date)

/-- What version.py 46-47 ends in: everything is written, or `OSError` after
the first `k` characters have reached the file (`k = 0` when the file can not be
opened for writing). -/
inductive Wr
  | done
  | fails (k : ℕ)

/-- The world in which the package is imported.  `readable` is false when
version.py 28-29 raises `OSError`; `ctime` is the text of version.py 51, `none`
when `stat` raises. -/
structure Env where
  readable : Bool
  net : Net
  wr : Wr
  ctime : Option (List Char)

/-- Result of the import. -/
inductive Out
  | date (text : List Char)
  | raises
  deriving DecidableEq

/-- The handler of version.py 49-51 followed by line 53. -/
def handler (e : Env) (file : List Char) : Out × List Char :=
  match e.ctime with
  | some t => (.date t, file)
  | none => (.raises, file)

/-- `get_pypi_release_date`, version.py 24-53: the result and the file left. -/
def getDate (e : Env) (file : List Char) : Out × List Char :=
  if e.readable then
    match stored file with
    | some t => (.date t, file)
    | none =>
      match e.net with
      | .osError => handler e file
      | .valueError => handler e file
      | .other => (.raises, file)
      | .release d =>
        match e.wr with
        | .done => (.date d.text, file ++ note d)
        | .fails k => handler e (file ++ (note d).take k)
  else handler e file

/-- Imports by one process after another. -/
def imports : List Env → List Char → List Out × List Char
  | [], file => ([], file)
  | e :: es, file =>
    ((getDate e file).1 :: (imports es (getDate e file).2).1,
      (imports es (getDate e file).2).2)

end Pdffit.Release
