import Verif.Model.DerivMat

/-!
# The calculation with the type `int` (pdf.cc 106-413, 821-838, PointsInSphere.cc 115-192, MathUtils.h 47-50)

`Model/Determine.lean`, `Model/Qmax.lean` and `Model/Sphere.lean` use unbounded integers. Here every number that the code
converts to `int` or computes with `int` is checked: outside of `-2^31 … 2^31-1` the behaviour is undefined. `size_t` has 64 bits; a `size_t` that is
stored in an `int` is reduced modulo `2^32`. Memory is unlimited. The real numbers are exact, as elsewhere.
-/

namespace Pdffit.CInt
open Geom Bonds Det DMat Sphere

/-- The values of `int`. -/
def InInt (n : ℤ) : Prop := -2 ^ 31 ≤ n ∧ n ≤ 2 ^ 31 - 1

instance (n : ℤ) : Decidable (InInt n) := by unfold InInt; infer_instance

/-- A number that becomes an `int`. -/
def check (n : ℤ) : Res ℤ := if InInt n then .ok n else .ub

/-- `nint` (MathUtils.h 47-50). -/
noncomputable def nintC (x : ℝ) : Res ℤ := check (nint x)

/-! ## Sequencer -/

/-- All members of type `int` (PointsInSphere.h 115-120). -/
def StOk (s : Sphere.St) : Prop := InInt s.m ∧ InInt s.n ∧ InInt s.o ∧ InInt s.hiN ∧ InInt s.hiO ∧ InInt s.outO

instance (s : Sphere.St) : Decidable (StOk s) := by unfold StOk; infer_instance

section
variable (k : Cst)

/-- `next_m` (PointsInSphere.cc 178-192). -/
noncomputable def nextMC (s : Sphere.St) : Res Sphere.St := if StOk (nextM k s) then .ok (nextM k s) else .ub

/-- `hole_o` (PointsInSphere.cc 168); evaluated only when `oExclHalfSpan` is not zero. -/
noncomputable def holeO (s : Sphere.St) : ℤ := if s.excl ≠ 0 then ⌈s.o0line - s.excl⌉ else 0

/-- The body of `next_n` for a valid `n` (PointsInSphere.cc 157-171). -/
noncomputable def setLineC (s : Sphere.St) : Res Sphere.St :=
  if StOk (setLine k s (s.n + 1)) ∧ InInt (holeO (setLine k s (s.n + 1))) then .ok (setLine k s (s.n + 1)) else .ub

/-- `next_n` (PointsInSphere.cc 150-176). -/
noncomputable def nextNC (s : Sphere.St) : Res Sphere.St :=
  if InInt (s.n + 1) then
    if s.n + 1 < s.hiN then setLineC k s
    else
      if StOk (nextM k { s with n := s.n + 1 }) then
        if (nextM k { s with n := s.n + 1 }).m < k.hiM then nextNC (nextM k { s with n := s.n + 1 })
        else .ok (nextM k { s with n := s.n + 1 })
      else .ub
  else .ub
termination_by (k.hiM - s.m).toNat
decreasing_by
  have := nextM_m k { s with n := s.n + 1 }
  dsimp only at this
  omega

theorem nextNC_ok {s t : Sphere.St} (h : nextNC k s = .ok t) : t = nextN k s := by
  induction s using nextNC.induct k with
  | case1 s h1 h2 =>
    rw [nextNC, if_pos h1, if_pos h2] at h
    unfold setLineC at h
    split at h
    · cases h; rw [nextN, if_pos h2]
    · cases h
  | case2 s h1 h2 h3 h4 ih =>
    rw [nextNC, if_pos h1, if_neg h2, if_pos h3, if_pos h4] at h
    rw [nextN, if_neg h2, if_pos h4]
    exact ih h
  | case3 s h1 h2 h3 h4 =>
    rw [nextNC, if_pos h1, if_neg h2, if_pos h3, if_neg h4] at h
    cases h
    rw [nextN, if_neg h2, if_neg h4]
  | case4 s h1 h2 h3 => rw [nextNC, if_pos h1, if_neg h2, if_neg h3] at h; cases h
  | case5 s h1 => rw [nextNC, if_neg h1] at h; cases h

/-- `next_o` (PointsInSphere.cc 130-148). -/
noncomputable def nextOC (s : Sphere.St) : Res Sphere.St :=
  if InInt (s.o + 1) then
    if s.o + 1 < s.hiO then .ok { s with o := s.o + 1 }
    else if s.hiO ≠ s.outO then
      if InInt ⌈s.o0line + s.excl⌉ ∧ InInt (⌈s.o0line + s.excl⌉ - 1) then
        if s.m < k.hiM then nextOC { s with hiO := s.outO, o := ⌈s.o0line + s.excl⌉ - 1 }
        else .ok { s with hiO := s.outO, o := ⌈s.o0line + s.excl⌉ - 1 }
      else .ub
    else
      match nextNC k { s with o := s.o + 1 } with
      | .ok _ =>
        if (nextN k { s with o := s.o + 1 }).m < k.hiM then nextOC (nextN k { s with o := s.o + 1 })
        else .ok (nextN k { s with o := s.o + 1 })
      | .err e => .err e
      | .ub => .ub
  else .ub
termination_by ((k.hiM - s.m).toNat, (s.hiN - s.n).toNat, if s.hiO ≠ s.outO then 1 else 0)
decreasing_by
  · rename_i h _ _
    simp [h, Prod.lex_def]
  · have := nextN_lex k { s with o := s.o + 1 }
    dsimp only at this
    simp only [Prod.lex_def]
    omega

theorem nextOC_ok {s t : Sphere.St} (h : nextOC k s = .ok t) : t = nextO k s := by
  induction s using nextOC.induct k with
  | case1 s h1 h2 =>
    rw [nextOC, if_pos h1, if_pos h2] at h
    cases h
    rw [nextO, if_pos h2]
  | case2 s h1 h2 h3 h4 h5 ih =>
    rw [nextOC, if_pos h1, if_neg h2, if_pos h3, if_pos h4, if_pos h5] at h
    rw [nextO, if_neg h2, if_pos h3, if_pos h5]
    exact ih h
  | case3 s h1 h2 h3 h4 h5 =>
    rw [nextOC, if_pos h1, if_neg h2, if_pos h3, if_pos h4, if_neg h5] at h
    cases h
    rw [nextO, if_neg h2, if_pos h3, if_neg h5]
  | case4 s h1 h2 h3 h4 => rw [nextOC, if_pos h1, if_neg h2, if_pos h3, if_neg h4] at h; cases h
  | case5 s h1 h2 h3 t' h4 h5 ih =>
    rw [nextOC, if_pos h1, if_neg h2, if_neg h3, h4] at h
    dsimp only at h
    rw [if_pos h5] at h
    rw [nextO, if_neg h2, if_neg h3, if_pos h5]
    exact ih h
  | case6 s h1 h2 h3 t' h4 h5 =>
    rw [nextOC, if_pos h1, if_neg h2, if_neg h3, h4] at h
    dsimp only at h
    rw [if_neg h5] at h
    cases h
    rw [nextO, if_neg h2, if_neg h3, if_neg h5]
  | case7 s h1 h2 h3 e h4 => rw [nextOC, if_pos h1, if_neg h2, if_neg h3, h4] at h; cases h
  | case8 s h1 h2 h3 h4 => rw [nextOC, if_pos h1, if_neg h2, if_neg h3, h4] at h; cases h
  | case9 s h1 => rw [nextOC, if_neg h1] at h; cases h

/-- The loop `for (...; !sph.finished(); sph.next())` from a state on. -/
noncomputable def visitsC (s : Sphere.St) : Res (List (ℤ × ℤ × ℤ)) :=
  if s.m < k.hiM then
    match nextOC k s with
    | .ok _ => visitsC (nextO k s) >>= fun l => .ok ((s.m, s.n, s.o) :: l)
    | .err e => .err e
    | .ub => .ub
  else .ok []
termination_by ((k.hiM - s.m).toNat, (s.hiN - s.n).toNat, (if s.hiO ≠ s.outO then 1 else 0), (s.hiO - s.o).toNat)
decreasing_by
  have := nextO_lex k s
  simp only [Prod.lex_def]
  split <;> split <;> omega

/-- `rewind` (PointsInSphere.cc 115-127) and the loop. -/
noncomputable def pointsC : Res (List (ℤ × ℤ × ℤ)) :=
  if InInt k.hiM ∧ InInt (-k.hiM) then nextOC k (start k) >>= visitsC k else .ub

end

/-! ## Grid -/

/-- `nfmin`, `nfmax`, `ncmin`, `ncmax` (pdf.cc 166-171, 821-838) and the size of the arrays `ncmax+1` (pdf.cc 177). -/
noncomputable def ranges (D : Data) : Res (ℤ × ℤ × ℤ × ℤ) := do
  let nfmin ← nintC ((D.rfmin - D.rmin) / D.deltar)
  let nfmax ← nintC ((D.rfmax - D.rmin) / D.deltar)
  let ncmin ← nintC ((D.rfmin - D.rmin) / D.deltar)
  let ncmax ← nintC ((D.rfmax - D.rmin) / D.deltar)
  if 0 < D.qmax then do
    let ncmin ← nintC ((D.rcmin - D.rmin) / D.deltar)
    let ncmax ← nintC ((D.rcmax - D.rmin) / D.deltar)
    let _ ← check (ncmax + 1)
    .ok (nfmin, nfmax, ncmin, ncmax)
  else do
    let _ ← check (ncmax + 1)
    .ok (nfmin, nfmax, ncmin, ncmax)

/-- The additions to `ppp` for one pair and lattice point (pdf.cc 331-347). -/
noncomputable def incsC (D : Data) (ph : PPhase) (i j : ℕ) : Ev → Res (List (ℤ × ℝ))
  | .peak dist sig => do
    let b ← nintC ((max D.rcmin (dist - 5 * sig) - D.rmin) / D.deltar)
    let e ← nintC (((if 0 < ph.stepcut then min (min D.rcmax (dist + 5 * sig)) ph.stepcut else min D.rcmax (dist + 5 * sig)) -
      D.rmin) / D.deltar)
    if b ≤ e ∧ ¬InInt (e + 1) then .ub
    else .ok ((grid b e).map fun ig =>
      (ig, (if i ≠ j then ampl ph i j + ampl ph i j else ampl ph i j) * gaus D dist sig ig))
  | _ => .ok []

/-- `ppp` after the loops (pdf.cc 232-358). The sequencer is restarted for every pair; this gives the same points each time. -/
noncomputable def pppC (D : Data) (ph : PPhase) (s : Sel) : Res (List ℝ) := do
  let v ← collect (fun x => pointsC (sphere D ph) >>= fun l => .ok (l.map fun T => (x, T)))
    ((halfPairs ph.atom.length).filter fun x => !skip s x.1 x.2)
  let a ← collect (fun x => incsC D ph x.1.1 x.1.2 (eventOf D ph x)) v
  addAll a (List.replicate (D.ncmax + 1).toNat 0)

open Classical in
/-- The column of `calc` of one phase (pdf.cc 194-390). -/
noncomputable def phaseCalcC (D : Data) (ph : PPhase) (s : Sel) : Res (Option (ℤ → ℝ)) := do
  let p ← pppC D ph s
  if D.ncmin < 0 ∧ D.ncmin ≤ D.ncmax then .ub
  else .ok (if Bad D ph s then none else some (calcAt D ph s p))

/-- `pdftot` before the termination filter (pdf.cc 178, 190-194, 389). -/
noncomputable def totalC (D : Data) : List (Option (PPhase × Sel)) → Res (Option (ℤ → ℝ))
  | [] => .ok (some fun _ => 0)
  | none :: l => totalC D l
  | some x :: l => do
    let c ← phaseCalcC D x.1 x.2
    let t ← totalC D l
    .ok (c.bind fun c => t.map fun t i => D.dscale * x.1.pscale * c i + t i)

/-- `hiQidx` (pdf.cc 131): `padlen` is a `size_t`, so is the right side. -/
def hiQC (padlen : ℕ) (lo : ℤ) : ℤ := Int.bmod (padlen + 1 - lo) (2 ^ 32)

/-- The limits of the termination filter (pdf.cc 127-131). -/
noncomputable def limits (deltar qmax : ℝ) (len : ℕ) : Res (ℤ × ℤ) := do
  let lo ← check ⌈qmax / Qmax.dQ deltar len⌉
  .ok (lo, hiQC (Qmax.padlen len) lo)

/-- `DataSet::applyQmaxCutoff` (pdf.cc 106-145). -/
noncomputable def applyC (deltar qmax : ℝ) (len : ℕ) (y : ℕ → ℝ) : Res (ℕ → ℝ) := do
  let l ← limits deltar qmax len
  match Qmax.zeroed (Qmax.padlen len) l.1 l.2 (Qmax.dft (Qmax.padlen len) (Qmax.pad len y)) with
  | none => .ub
  | some x => .ok fun n => if n < len then (Qmax.idft (Qmax.padlen len) x n).re else y n

/-- `DataSet::determine` (pdf.cc 154-413). The limits of the filter do not depend on the curve, so they are computed also when it is
not a number. -/
noncomputable def determineC (D : Data) (psel : List (Option (PPhase × Sel))) : Res (Option (ℤ → ℝ)) := do
  let _ ← ranges D
  let t ← totalC D psel
  if 0 < D.qmax then
    match t with
    | none => do
      let _ ← limits D.deltar D.qmax (nclen D)
      .ok none
    | some t => do
      let y ← applyC D.deltar D.qmax (nclen D) (fun n => t (D.ncmin + n))
      .ok (some fun i => y (i - D.ncmin).toNat)
  else .ok t

end Pdffit.CInt
