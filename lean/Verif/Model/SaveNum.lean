import Verif.Model.Save
import Verif.Model.ReportText
import Mathlib.Data.Real.Archimedean

/-!
# Numbers in a saved curve (pdf.cc 1015-1024, 1078-1085) and their reading

* The stream has the default precision of six digits and `setf(ios::showpoint)`: the format is `%#g`, that is six digits, with the point and the zeros
  at the end; with exponent if that of the first digit is below -4 or above 5.
* A value is a real number; the printed digits are the correctly rounded ones, ties to even.
* `none` is infinity; it is printed as `inf`, which `stream >> double` does not read.
-/

namespace Pdffit.SaveNum
open Stru RText

/-- Closest integer, ties to even. -/
noncomputable def near (q : ℝ) : ℕ :=
  if q - ⌊q⌋ < 1 / 2 then ⌊q⌋.toNat else if 1 / 2 < q - ⌊q⌋ then ⌊q⌋.toNat + 1
  else if ⌊q⌋.toNat % 2 = 0 then ⌊q⌋.toNat else ⌊q⌋.toNat + 1

/-- Six digits of a number that is not negative, as an integer, and the decimal exponent of the first one. -/
noncomputable def dig (q : ℝ) : ℕ × ℤ :=
  if q = 0 then (0, 0)
  else
    let n := near (q * 10 ^ (5 - Int.log 10 q))
    if n = 10 ^ 6 then (10 ^ 5, Int.log 10 q + 1) else (n, Int.log 10 q)

/-- `%#g` of the digits `x.1` and the exponent `x.2`. -/
def ptText (x : ℕ × ℤ) : List Char :=
  if -4 ≤ x.2 ∧ x.2 < 6 then
    let d := (5 - x.2).toNat
    natStr (x.1 / 10 ^ d) ++ '.' :: fracStr d (x.1 % 10 ^ d)
  else natStr (x.1 / 10 ^ 5) ++ '.' :: fracStr 5 (x.1 % 10 ^ 5) ++ expText x.2

open Classical in
/-- `stream << x` (pdf.cc 1020-1023, 1083). -/
noncomputable def prt : Option ℝ → List Char
  | some x => sign (x < 0) ++ ptText (dig |x|)
  | none => "inf".toList

/-- The printed number. -/
noncomputable def rnd (x : ℝ) : ℝ := (if x < 0 then -1 else 1) * ((dig |x|).1 * 10 ^ ((dig |x|).2 - 5))

theorem scanExp_le {s r : List Char} {e : ℤ} (h : scanExp s = some (e, r)) : r.length ≤ s.length := by
  unfold scanExp at h
  split at h
  · rename_i t
    simp only at h
    split_ifs at h
    all_goals
      simp only [Option.some.injEq, Prod.mk.injEq] at h
      obtain ⟨-, rfl⟩ := h
      have h1 := drop_le isDig (getSign t).2
      have h2 := getSign_le t
      simp only [List.length_cons]
      omega
  · simp only [Option.some.injEq, Prod.mk.injEq] at h
    rw [h.2]

/-- `stream >> double` for decimal numbers with or without exponent (used in pdf.cc 1489-1540). -/
noncomputable def scan : DataRead.Scan ℝ where
  f s := (scanG s).map fun y => (((if y.1.neg then -y.1.mag else y.1.mag : ℚ) : ℝ), y.2)
  lt := by
    intro s x r h
    unfold scanG at h
    rcases h1 : scanNum s with _ | y
    · rw [h1] at h; simp at h
    rw [h1] at h
    rcases h2 : scanExp y.2 with _ | z
    · simp [h2] at h
    simp only [Option.bind_eq_bind, Option.bind_some, h2, Option.map_some, Option.some.injEq, Prod.mk.injEq] at h
    obtain ⟨-, rfl⟩ := h
    have l1 := scanNumS.lt s y.1 y.2 h1
    have l2 := scanExp_le (e := z.1) (r := z.2) (by rw [h2])
    omega

end Pdffit.SaveNum
