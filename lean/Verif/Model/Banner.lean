import Mathlib.Data.List.Basic

/-!
# Banner printed by `intro()`

`src/diffpy/pdffit2/pdffit.py` 84-100 and 147-162.  Simplified: the text is a list
of lines, without the empty line before it; version and date are single lines.
-/

namespace Pdffit.Banner

/-- Lines 85-99 of pdffit.py with the three values inserted, line 155. -/
def template (version date year : List Char) : List (List Char) :=
  ["******************************************************************************".toList,
   "*                      P D F F I T   Version   ".toList ++ version ++ "                   *".toList,
   "*                                              ".toList ++ date ++ "                      *".toList,
   "* -------------------------------------------------------------------------- *".toList,
   "* (c) 1998-2007 Trustees of the Michigan State University.                   *".toList,
   "* (c) 2008-".toList ++ year ++ " Trustees of the Columbia University                      *".toList,
   "*               in the city of New York.                                     *".toList,
   "*                                                                            *".toList,
   "* Authors:                                                                   *".toList,
   "*     Thomas Proffen        -   Email: tproffen@lanl.gov                     *".toList,
   "*     Jacques Bloch         -   Email: bloch@pa.msu.edu                      *".toList,
   "*     Christopher Farrow    -   Email: clf2121@columbia.edu                  *".toList,
   "*     Pavol Juhas           -   Email: pjuhas@bnl.gov                        *".toList,
   "*     Simon Billinge        -   Email: sb2896@columbia.edu                   *".toList,
   "******************************************************************************".toList]

/-- Characters removed by `rstrip(" *")`, pdffit.py 158. -/
def edge (c : Char) : Bool := c = ' ' || c = '*'

/-- `rstrip(" *")`, pdffit.py 158. -/
def rstrip (l : List Char) : List Char := (l.reverse.dropWhile edge).reverse

/-- `ljust`, pdffit.py 158. -/
def ljust (n : ℕ) (l : List Char) : List Char := l ++ List.replicate (n - l.length) ' '

/-- `filler` applied by `re.sub` to the lines of 1 to 77 and of 79 or more
characters, pdffit.py 157-160. -/
def fill (l : List Char) : List Char :=
  if 1 ≤ l.length ∧ l.length ≤ 77 ∨ 79 ≤ l.length then ljust 77 (rstrip l) ++ ['*'] else l

/-- `intro()`, pdffit.py 147-162, for the values of `__version__` and
`__date__`. -/
def intro (version date : List Char) : List (List Char) :=
  (template version (date.take 10)
    (if (date.take 10).take 4 = [] then "2019".toList else (date.take 10).take 4)).map fill

end Pdffit.Banner
