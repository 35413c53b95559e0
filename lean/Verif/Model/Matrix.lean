import Verif.Basic

/-!
# Class template `matrix` (matrix.h 31-187)

Row-major storage `mdata` of `msize` elements; `msize` is the length of `data` in the model.
An access outside the allocated block is undefined behaviour; an access with a column index beyond
`mcols` that stays inside the block silently reads another element, as in C++.
-/

namespace Pdffit

structure Mat (K : Type) where
  rows : Nat
  cols : Nat
  data : List K

namespace Mat
variable {K : Type}

/-- `matrix()` (matrix.h 44-46) and the state after `clear` (matrix.h 100-105). -/
def empty : Mat K := ⟨0, 0, []⟩

/-- `matrix(m, n)` (matrix.h 53-58). -/
def zeros [Zero K] (m n : Nat) : Mat K := ⟨m, n, List.replicate (m * n) 0⟩

/-- `operator()(i, j)` as a value (matrix.h 131-134). -/
def get (a : Mat K) (i j : Nat) : Res K := Res.at? a.data (i * a.cols + j)

/-- `operator()(i, j) = v` (matrix.h 131-134) and `a[i][j] = v` (matrix.h 127-130). -/
def set (a : Mat K) (i j : Nat) (v : K) : Res (Mat K) :=
  Res.wr a.data (i * a.cols + j) v >>= fun d => .ok { a with data := d }

/-- `operator=(T value)` (matrix.h 76-80). -/
def fill (a : Mat K) (v : K) : Mat K := { a with data := a.data.map fun _ => v }

/-- `resize(m, n, value)` (matrix.h 81-99). -/
def resize (a : Mat K) (m n : Nat) (v : K) : Res (Mat K) :=
  if m = a.rows ∧ n = a.cols then .ok a
  else do
    let d ← Res.forN (min m a.rows) (fun i d =>
      Res.forN (min n a.cols) (fun j d => do
        let x ← a.get i j
        Res.wr d (i * n + j) x) d) (List.replicate (m * n) v)
    .ok ⟨m, n, d⟩

/-- `rowVector(i)` (matrix.h 106-109): elements `mcols*i ..< mcols*(i+1)`. -/
def rowVector (a : Mat K) (i : Nat) : Res (List K) :=
  Res.forN a.cols (fun j l => do
    let x ← Res.at? a.data (a.cols * i + j)
    .ok (l ++ [x])) []

/-- `colVector(j)` (matrix.h 110-118): pointer starts at `j` and advances by `mcols`. -/
def colVector (a : Mat K) (j : Nat) : Res (List K) := do
  let r ← Res.forN a.rows (fun _ s => do
    let x ← Res.at? a.data s.2
    .ok (s.1 ++ [x], s.2 + a.cols)) (([], j) : List K × Nat)
  .ok r.1

/-- `transposed()` (matrix.h 135-147), with the running pointer `pt`. -/
def transposed [Zero K] (a : Mat K) : Res (Mat K) := do
  let r ← Res.forN a.cols (fun j s =>
    Res.forN a.rows (fun i s => do
      let x ← a.get i j
      let d ← Res.wr s.1 s.2 x
      .ok (d, s.2 + 1)) s) ((zeros a.cols a.rows).data, 0)
  .ok ⟨a.cols, a.rows, r.1⟩

/-- `operator*` (matrix.h 165-187). -/
def mul [Zero K] [Add K] [Mul K] (a b : Mat K) : Res (Mat K) :=
  if a.cols ≠ b.rows then .err .other
  else do
    let d ← Res.forN a.rows (fun i d =>
      Res.forN b.cols (fun j d => do
        let c ← Res.forN a.cols (fun k c => do
          let x ← a.get i k
          let y ← b.get k j
          .ok (c + x * y)) 0
        Res.wr d (i * b.cols + j) c) d) (zeros a.rows b.cols).data
    .ok ⟨a.rows, b.cols, d⟩

/-- Loop of `sd` (matrix.h 159-162): `pii` runs over the diagonal, `vii` over the result. -/
def sdLoop (sqrt : K → K) (a : Mat K) : Nat → Nat → Nat → List K → Res (List K)
  | 0, _, _, v => .ok v
  | fuel + 1, pii, vii, v =>
    if pii < a.data.length then do
      let x ← Res.at? a.data pii
      let v ← Res.wr v vii (sqrt x)
      sdLoop sqrt a fuel (pii + a.cols + 1) (vii + 1) v
    else .ok v

/-- `sd()` (matrix.h 149-164); the loop ends after at most `msize` rounds, because `pii` grows. -/
def sd [Zero K] (sqrt : K → K) (a : Mat K) : Res (List K) :=
  if a.cols ≠ a.rows then .err .other
  else sdLoop sqrt a (a.data.length + 1) 0 0 (List.replicate a.cols 0)

/-- The class invariant `msize = mrows * mcols`. -/
def WF (a : Mat K) : Prop := a.data.length = a.rows * a.cols

end Mat
end Pdffit
