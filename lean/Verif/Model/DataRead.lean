import Mathlib.Algebra.Order.Field.Basic
import Mathlib.Algebra.Order.Group.Abs
import Mathlib.Data.Real.Sqrt
import Verif.Basic

/-!
# Reading of observed data (pdf.cc 1291-1612)

Texts are lists of characters. A stream is `good` with the characters that remain, or at its end (`eof`: only `eofbit` is set),
or `failed` (`eofbit` and `failbit`); no other states occur. The extraction of a number from a line is a parameter `Scan`: the only
thing used about it is that a successful extraction consumes at least one character. Once an extraction from a line has
failed all later ones fail, because the flag stays set.

Numbers are elements of an ordered field. The scanner does not produce NaN (`num_get` does not read it).
-/

namespace Pdffit.DataRead

/-- State of the input stream. -/
inductive IS where
  | good (rest : List Char)
  | eof
  | failed
  deriving DecidableEq

/-- Characters up to the end of the line, and the remaining text if there was an end of line. -/
def cut : List Char → List Char × Option (List Char)
  | [] => ([], none)
  | c :: l => if c = '\n' then ([], some l) else (c :: (cut l).1, (cut l).2)

/-- The state after the extraction of a line. -/
def afterCut : List Char × Option (List Char) → IS × List Char
  | (a, some b) => (.good b, a)
  | ([], none) => (.failed, [])
  | (c :: a, none) => (.eof, c :: a)

/-- `std::getline(stream, line)`. At the end of the stream the sentry fails and the line keeps its value. -/
def getline : IS → List Char → IS × List Char
  | .good rest, _ => afterCut (cut rest)
  | .eof, line => (.failed, line)
  | .failed, line => (.failed, line)

/-- `fdata.eof()` -/
def IS.isEof : IS → Bool
  | .good _ => false
  | _ => true

def IS.size : IS → ℕ
  | .good rest => rest.length + 2
  | .eof => 1
  | .failed => 0

theorem cut_lt (l : List Char) : ∀ b, (cut l).2 = some b → b.length < l.length := by
  induction l with
  | nil => intro b h; simp [cut] at h
  | cons c l ih =>
    intro b h
    unfold cut at h
    split_ifs at h
    · injection h with h; subst h; simp
    · have := ih b h; simp; omega

theorem getline_lt (st : IS) (line : List Char) (h : st ≠ .failed) : (getline st line).1.size < st.size := by
  cases st with
  | good rest =>
    have := cut_lt rest
    change (afterCut (cut rest)).1.size < _
    rcases hx : cut rest with ⟨a, _ | b⟩
    · cases a <;> simp [afterCut, IS.size]
    · have := this b (by rw [hx])
      simp [afterCut, IS.size, this]
  | eof => simp [getline, IS.size]
  | failed => exact absurd rfl h

/-- `isspace` -/
def isSpace (c : Char) : Bool := c = ' ' || c = '\t' || c = '\n' || c = '\x0b' || c = '\x0c' || c = '\r'

/-- First word (maybe empty, if the text begins with a blank) and the others. -/
def wordsAux : List Char → List Char × List (List Char)
  | [] => ([], [])
  | c :: l =>
    if isSpace c then ([], if (wordsAux l).1 = [] then (wordsAux l).2 else (wordsAux l).1 :: (wordsAux l).2)
    else (c :: (wordsAux l).1, (wordsAux l).2)

/-- The words extracted by `stream >> string`. -/
def words (l : List Char) : List (List Char) :=
  if (wordsAux l).1 = [] then (wordsAux l).2 else (wordsAux l).1 :: (wordsAux l).2

/-- `line[0] == '#'`; for an empty string `line[0]` is the null character. -/
def hashLine (line : List Char) : Bool := line.head? = some '#'

/-- The end of the header of a "History" file (pdf.cc 1478-1483). -/
def startData (line : List Char) : Bool :=
  hashLine line &&
    match words line with
    | w0 :: w1 :: w2 :: _ => w0.all (· = '#') && w1 = "start".toList && w2 = "data".toList
    | _ => false

/-- The loop over the header of a "History" file (pdf.cc 1475-1484). -/
def history (st : IS) (line : List Char) : IS × List Char :=
  if st.isEof then (st, line)
  else if startData line then (st, line)
  else history (getline st line).1 (getline st line).2
termination_by st.size
decreasing_by exact getline_lt _ _ (by rintro rfl; simp_all [IS.isEof])

/-- `while (line[0] == '#') getline(fdata,line)` (pdf.cc 1487) with at most `n` tests of the condition; `none` if the loop has
not ended by then. -/
def skipHash : ℕ → IS → List Char → Option (IS × List Char)
  | 0, _, _ => none
  | n + 1, st, line => if hashLine line then skipHash n (getline st line).1 (getline st line).2 else some (st, line)

/-- The header (pdf.cc 1472-1487): stream and first data line. -/
def header (n : ℕ) (text : List Char) : Option (IS × List Char) :=
  let x := getline (.good text) []
  let y := if "History".toList.isPrefixOf x.2 then history x.1 x.2 else x
  skipHash n y.1 y.2

section
variable {K : Type} [Field K] [LinearOrder K]

/-- Extraction of a number from a line: the number and the remaining characters. -/
structure Scan (K : Type) where
  f : List Char → Option (K × List Char)
  lt : ∀ s x r, f s = some (x, r) → r.length < s.length

/-- The numbers of a line up to the first failure. -/
def nums (S : Scan K) (s : List Char) : List K :=
  match _h : S.f s with
  | none => []
  | some x => x.1 :: nums S x.2
termination_by s.length
decreasing_by exact S.lt _ _ _ _h

/-- The lines read by the data loop (pdf.cc 1503-1546): the loop ends with a line that has less than two numbers or
with the end of the stream. -/
def rows (S : Scan K) (st : IS) (line : List Char) : List (List K) :=
  if (nums S line).length < 2 then []
  else nums S line :: (if (getline st line).1 = .failed then [] else rows S (getline st line).1 (getline st line).2)
termination_by st.size
decreasing_by exact getline_lt _ _ (by rintro rfl; simp_all [getline])

/-- The weight of one line (pdf.cc 1514-1538); `none` where `lwei` is cleared. -/
def weight (ncol : ℕ) (row : List K) : Option K :=
  if ncol = 3 then
    match row[2]? with
    | some v => if 0 < v then some (1 / (v * v)) else none
    | none => none
  else if ncol = 4 then
    match row[3]? with
    | some v => if 0 < v then some (1 / (v * v)) else none
    | none => none
  else some 1

/-- `lwei` at the end of the loop (pdf.cc 1501, 1524, 1535). -/
def lwei (ncol : ℕ) (tab : List (List K)) : Bool := decide (2 < ncol) && tab.all fun r => (weight ncol r).isSome

/-- `wic` (pdf.cc 1543, 1550-1553). -/
def wics (ncol : ℕ) (tab : List (List K)) : List K :=
  if lwei ncol tab then tab.map fun r => (weight ncol r).getD 1 else tab.map fun _ => 1

/-- Differences of neighbours. -/
def steps : List K → List K
  | a :: b :: l => (b - a) :: steps (b :: l)
  | _ => []

/-- `deltar_tol` (MathUtils.h 31) -/
def tol : K := 1 / 1000

/-- `(*(last-1) - *first) / (last - first - 1)` for a nonempty list. -/
def meanStep (r : List K) : K := (r.getLast?.getD 0 - r.head?.getD 0) / ((r.length : K) - 1)

/-- `isRegular` (pdf.cc 1374-1383) -/
def isRegular (r : List K) : Bool :=
  if r.length < 2 then true else (steps r).all fun d => |d - meanStep r| ≤ tol

/-- The members of the data set set by the readers. `none` in place of a number: NaN or infinity. -/
structure Loaded (K : Type) where
  rmin : K
  rmax : K
  deltar : Option K
  bin : ℕ
  obs : List K
  wic : List (Option K)
  nfmin : ℤ
  nfmax : ℤ

/-- The part of `read_data_stream` after the header (pdf.cc 1489-1581). `read_data` and `read_data_string` call
`read_data_stream` on a file or string stream. -/
def readRows (ncol : ℕ) (tab : List (List K)) : Res (Loaded K) :=
  let r := tab.map fun x => x.getD 0 0
  let obs := tab.map fun x => x.getD 1 0
  if isRegular r then
    if obs.length < 2 then .err .data
    else .ok ⟨r.head?.getD 0, r.getLast?.getD 0, some ((r.getLast?.getD 0 - r.head?.getD 0) / ((obs.length : K) - 1)),
      obs.length, obs, (wics ncol tab).map some, 0, (obs.length : ℤ) - 1⟩
  else .err .data

/-- `DataSet::read_data_stream` (pdf.cc 1455-1581) with at most `n` rounds of the loop over `#` lines; `none` if that loop
has not ended by then. -/
def readStream (S : Scan K) (n : ℕ) (text : List Char) : Option (Res (Loaded K)) :=
  match header n text with
  | none => none
  | some x => some (readRows (nums S x.2).length (rows S x.1 x.2))

end

/-- The weights of `read_data_arrays` (pdf.cc 1411-1431). `dG = none` is Python's `None`. -/
noncomputable def wicArrays (G : List ℝ) : Option (List ℝ) → List (Option ℝ)
  | none => G.map fun _ => some 1
  | some d => d.map fun x => if 0 < x then some (1 / √x) else none

open Classical in
/-- `read_data_arrays` (pdf.cc 1392-1453) after the check of the lengths in the binding (misc.cc 235-247). `r_data[0]` is read
also for empty arrays. The step of one point is `0/0`. `nfmin` and `nfmax` keep the values of the constructor
(pdffit.h 389). -/
noncomputable def readArrays (r G : List ℝ) (dG : Option (List ℝ)) : Res (Loaded ℝ) :=
  if r.length ≠ G.length ∨ (∃ d, dG = some d ∧ d.length ≠ G.length) then .err .value
  else
    match r.head?, r.getLast? with
    | some a, some b =>
      if isRegular r then
        .ok ⟨a, b, if r.length = 1 then none else some ((b - a) / ((r.length : ℝ) - 1)), r.length, G, wicArrays G dG, 0, 0⟩
      else .err .data
    | _, _ => .ub

end Pdffit.DataRead
