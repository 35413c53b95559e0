import Verif.Model.Determine

/-!
# Another choice of axes for the same structure

Not a model of code: the other descriptions of a structure that C90 speaks about. The edges of the cell get other names, and
the directions of some of them are reversed.
-/

namespace Pdffit
open Geom Det Bonds

/-- New axis `k` is the old axis `σ k`, or its opposite if `ε k = -1`. -/
structure Axes where
  σ : Equiv.Perm (Fin 3)
  ε : Fin 3 → ℤˣ

namespace Axes
variable (A : Axes)

/-- The sign of an axis. -/
def sg (k : Fin 3) : ℝ := ((A.ε k : ℤ) : ℝ)

/-- Coordinates. -/
def vec (x : Fin 3 → ℝ) : Fin 3 → ℝ := fun k => A.sg k * x (A.σ k)

/-- Translations. -/
def shift (T : ℤ × ℤ × ℤ) : ℤ × ℤ × ℤ :=
  let f := fun k => (A.ε k : ℤ) * ![T.1, T.2.1, T.2.2] (A.σ k)
  (f 0, f 1, f 2)

/-- Angles: the angle between two axes becomes its supplement when one of them is reversed. -/
noncomputable def win (w : Fin 3 → ℝ) : Fin 3 → ℝ := fun k => if A.ε (k + 1) = A.ε (k + 2) then w (A.σ k) else 180 - w (A.σ k)

noncomputable def cell (c : Cell) : Cell := ⟨c.a0 ∘ A.σ, A.win c.win⟩

/-- The index of a displacement parameter: 11, 22, 33, 12, 13, 23. -/
def uix (i j : Fin 3) : Fin 6 := ![![0, 3, 4], ![3, 1, 5], ![4, 5, 2]] i j

/-- Displacement parameters. -/
def u (x : Fin 6 → ℝ) : Fin 6 → ℝ := fun m =>
  let i := (![0, 1, 2, 0, 0, 1] : Fin 6 → Fin 3) m
  let j := (![0, 1, 2, 1, 2, 2] : Fin 6 → Fin 3) m
  A.sg i * A.sg j * x (uix (A.σ i) (A.σ j))

def atom (a : PAtom) : PAtom := { a with pos := A.vec a.pos, u := A.u a.u }

noncomputable def phase (ph : PPhase) : PPhase := { ph with cell := A.cell ph.cell, icc := ph.icc ∘ A.σ, atom := ph.atom.map A.atom }

/-- A phase as the functions for bonds see it; standard deviations have no sign. -/
noncomputable def phs (p : Phs) : Phs :=
  { cell := A.cell p.cell, dcell := ⟨p.dcell.a0 ∘ A.σ, p.dcell.win ∘ A.σ⟩, icc := p.icc ∘ A.σ
    atom := p.atom.map fun a => { a with pos := A.vec a.pos, dpos := a.dpos ∘ A.σ } }

end Axes
end Pdffit
