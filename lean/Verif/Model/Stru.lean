import Verif.Model.DataRead

/-!
# Reading and saving of structures (stru.cc 44-107, 187-417, 479-586; Atom.cc 53-101)

Texts are lists of characters and streams are those of `DataRead`. `Env` contains what is not modelled here: extraction and printing of
numbers, the lookup of atom labels (C38), the computation of the lattice (C45). A stream made from a line is represented by its
remaining characters: on an empty remainder every extraction fails, whether or not the fail bit is already set, and `getline`
and `>>` leave strings unchanged.

Simplified: the numbers of the cell and of an atom are lists in the order of the file; the standard deviations of scale and sharpening,
which the header sets to zero and `save_struct` does not print, are left out; products of integers do not overflow.
-/

namespace Pdffit.Stru
open DataRead

/-- What the reader and writer use: extraction of a `double` and an `int`, printing with `fixed` and a precision, printing of an integer,
lookup of a label, symbol of an entry, 0, 1, `fac*B` (Atom.cc 57), the test `> 0`. -/
structure Env (α σ : Type) where
  S : Scan α
  I : Scan ℤ
  fix : ℕ → α → List Char
  int : ℤ → List Char
  look : List Char → Option σ
  symb : σ → List Char
  zero : α
  one : α
  ofB : α → α
  pos : α → Bool

/-- The members of `Phase` that the header sets. `sharp`: delta2, delta1, sratio, rcut. `cell`: a0, win. `ncell`: icc, ncatoms. -/
structure Hdr (α : Type) where
  name : List Char
  spcgr : List Char
  pscale : α
  sharp : List α
  spdiameter : α
  stepcut : α
  cell : List α
  dcell : List α
  ncell : List ℤ
  discus : Bool

/-- Header and atoms. The numbers of an atom in the order of the file: pos, occ, dpos, docc, u[0..2], du[0..2], u[3..5], du[3..5]. -/
structure Stru (α σ : Type) where
  hdr : Hdr α
  atoms : List (σ × List α)

/-- `stream >> string`: the word, empty if there is none, and the remaining characters. -/
def word (s : List Char) : List Char × List Char :=
  ((s.dropWhile isSpace).takeWhile fun c => !isSpace c, (s.dropWhile isSpace).dropWhile fun c => !isSpace c)

/-- `lstrip` (stru.cc 100-107) -/
def lstrip (s : List Char) : List Char := s.dropWhile fun c => c = ' ' || c = '\t'

/-- The optional delimiter in `vget` (stru.cc 63-74). -/
def skipDelim (s : List Char) : List Char :=
  match s.dropWhile isSpace with
  | [] => []
  | c :: t => if c = ',' then t else c :: t

/-- `vget(fin, ',')` (stru.cc 47-77); `none`: `vgetException`. -/
def vget {α : Type} (S : Scan α) (s : List Char) : Option (α × List Char) := (S.f s).map fun x => (x.1, skipDelim x.2)

/-- `n` calls of `vget`. -/
def vgets {α : Type} (S : Scan α) : ℕ → List Char → Option (List α × List Char)
  | 0, s => some ([], s)
  | n + 1, s => (vget S s).bind fun x => (vgets S n x.2).map fun y => (x.1 :: y.1, y.2)

/-- `vgetException` is turned into `structureError` (stru.cc 395). -/
def orErr {α : Type} : Option α → Res α
  | some x => .ok x
  | none => .err .structure

section
variable {α σ : Type} (E : Env α σ)

/-- `Phase::Phase` (pdffit.h 534-548) and `ldiscus = true` (stru.cc 244). -/
def Hdr.init : Hdr α :=
  { name := "UNNAMED".toList, spcgr := "P1".toList, pscale := E.one, sharp := [E.zero, E.zero, E.one, E.zero],
    spdiameter := E.zero, stepcut := E.zero, cell := List.replicate 6 E.zero, dcell := List.replicate 6 E.zero,
    ncell := [0, 0, 0, 0], discus := true }

/-- `sharp` (stru.cc 284-311): new format with four, old format with three numbers. -/
def readSharp (s : List Char) : Option (List α) :=
  (vgets E.S 3 s).map fun x =>
    match vget E.S x.2 with
    | some y => x.1 ++ [y.1]
    | none => [x.1.getD 0 E.zero, E.zero, x.1.getD 1 E.zero, x.1.getD 2 E.zero]

/-- `shape` (stru.cc 319-343) -/
def readShape (h : Hdr α) (rest : List Char) : Res (Hdr α) :=
  let x := word (rest.map fun c => if c = ',' then ' ' else c)
  if x.1 = "sphere".toList then orErr ((vget E.S x.2).map fun v => { h with spdiameter := v.1 })
  else if x.1 = "stepcut".toList then orErr ((vget E.S x.2).map fun v => { h with stepcut := v.1 })
  else .err .structure

/-- The command `c` with the remaining characters of its line (stru.cc 258-392); `atoms` is treated in `header`. -/
def exec (h : Hdr α) (c rest : List Char) : Res (Hdr α) :=
  if c.head? = some '#' then .ok h
  else if c = "format".toList then .ok { h with discus := decide ((word rest).1 ≠ "pdffit".toList) }
  else if c = "scale".toList then orErr ((vget E.S rest).map fun v => { h with pscale := v.1 })
  else if c = "sharp".toList then orErr ((readSharp E rest).map fun v => { h with sharp := v })
  else if c = "spcgr".toList then .ok { h with spcgr := if (word rest).1 = [] then h.spcgr else (word rest).1 }
  else if c = "shape".toList then readShape E h rest
  else if c = "title".toList then .ok { h with name := lstrip (if rest = [] then h.name else rest) }
  else if c = "cell".toList then orErr ((vgets E.S 6 rest).map fun v => { h with cell := v.1 })
  else if c = "dcell".toList then orErr ((vgets E.S 6 rest).map fun v => { h with dcell := v.1 })
  else if c = "ncell".toList then orErr ((vgets E.I 4 rest).map fun v => { h with ncell := v.1 })
  else .ok h

/-- The command of a line: that of the previous line if the line is blank (stru.cc 240, 256), and the remaining characters. -/
def command (b line : List Char) : List Char × List Char := if (word line).1 = [] then (b, []) else word line

/-- `Phase::read_header` (stru.cc 237-397): loop over the lines; `b` is `befehl`. The stream afterwards is returned. -/
def header (h : Hdr α) (b : List Char) (st : IS) (line : List Char) : Res (Hdr α × IS) :=
  if hf : (getline st line).1 = .failed then .ok (h, .failed)
  else
    let x := command b (getline st line).2
    if x.1 = "atoms".toList then .ok (h, (getline st line).1)
    else exec E h x.1 x.2 >>= fun h' => header h' x.1 (getline st line).1 (getline st line).2
termination_by st.size
decreasing_by exact getline_lt _ _ (by rintro rfl; simp [getline] at hf)

/-- `n` numbers extracted by `>>`. -/
def numsN (S : Scan α) : ℕ → List Char → Option (List α × List Char)
  | 0, s => some ([], s)
  | n + 1, s => (S.f s).bind fun x => (numsN S n x.2).map fun y => (x.1 :: y.1, y.2)

theorem numsN_le (S : Scan α) (n : ℕ) (s : List Char) : ∀ x, numsN S n s = some x → x.2.length ≤ s.length := by
  induction n generalizing s with
  | zero => intro x h; simp only [numsN, Option.some.injEq] at h; subst h; exact Nat.le_refl _
  | succ n ih =>
    intro x h
    simp only [numsN, Option.bind_eq_some_iff, Option.map_eq_some_iff] at h
    obtain ⟨a, h1, b, h2, rfl⟩ := h
    have := ih _ _ h2
    have := S.lt _ _ _ h1
    simp only
    omega

theorem word_lt (s : List Char) (h : (word s).1 ≠ []) : (word s).2.length < s.length := by
  unfold word at h ⊢
  have h1 := congrArg List.length (List.takeWhile_append_dropWhile (p := fun c => !isSpace c) (l := s.dropWhile isSpace))
  have h2 := (List.dropWhile_suffix (p := isSpace) (l := s)).length_le
  have h3 : 0 < ((s.dropWhile isSpace).takeWhile fun c => !isSpace c).length := List.length_pos_iff.2 h
  simp only [List.length_append] at h1
  simp only
  omega

/-- The members of an atom from the numbers in the file (Atom.cc 53-87). -/
def atomVals (discus : Bool) (v : List α) : List α :=
  if discus then
    v.take 3 ++ [E.one] ++ List.replicate 4 E.zero ++ List.replicate 3 (E.ofB (v.getD 3 E.zero)) ++ List.replicate 9 E.zero
  else v

/-- `Phase::read_atoms` (stru.cc 399-409): stops without error where the text is not an atom; an unknown label throws `ValueError`. -/
def readAtoms (discus : Bool) (s : List Char) : Res (List (σ × List α)) :=
  if hw : (word s).1 = [] then .ok []
  else
    match hn : numsN E.S (if discus then 4 else 20) (word s).2 with
    | none => .ok []
    | some x =>
      match E.look (word s).1 with
      | none => .err .value
      | some e => readAtoms discus x.2 >>= fun l => .ok ((e, atomVals E discus x.1) :: l)
termination_by s.length
decreasing_by
  have := numsN_le _ _ _ _ hn
  have := word_lt s hw
  omega

/-- The text that remains in a stream. -/
def rest : IS → List Char
  | .good r => r
  | _ => []

/-- `tot` (stru.cc 221) -/
def total (l : List ℤ) : ℤ := l.prod

/-- `Phase::read_struct_stream` (stru.cc 187-227). `lat`: the outcome of `lattice()`. -/
def read (lat : Hdr α → Res Unit) (text : List Char) : Res (Stru α σ) := do
  let x ← header E (Hdr.init E) [] (.good text) []
  let l ← readAtoms E x.1.discus (rest x.2)
  lat x.1
  if total x.1.ncell ≠ (l.length : ℤ) then .err .structure else .ok ⟨x.1, l⟩

/-- `setw(n)` -/
def pad (n : ℕ) (s : List Char) : List Char := List.replicate (n - s.length) ' ' ++ s

/-- `setw(n) << left` -/
def padr (n : ℕ) (s : List Char) : List Char := s ++ List.replicate (n - s.length) ' '

/-- Texts separated by ", ". -/
def commas : List (List Char) → List Char
  | [] => []
  | [x] => x
  | x :: y :: l => x ++ ',' :: ' ' :: commas (y :: l)

/-- Numbers of the header with `setw(9)`, precision 6. -/
def row (l : List α) : List Char := commas (l.map fun x => pad 9 (E.fix 6 x))

/-- Separator, width and precision of each number of an atom (stru.cc 556-582). -/
def layout : List (List Char × ℕ × ℕ) :=
  let b : List Char := [' ']
  let n : List Char := "\n     ".toList
  [(b, 17, 8), (b, 17, 8), (b, 17, 8), (b, 12, 4), (n, 17, 8), (b, 17, 8), (b, 17, 8), (b, 12, 4),
    (n, 17, 8), (b, 17, 8), (b, 17, 8), (n, 17, 8), (b, 17, 8), (b, 17, 8),
    (n, 17, 8), (b, 17, 8), (b, 17, 8), (n, 17, 8), (b, 17, 8), (b, 17, 8)]

/-- The numbers of an atom. -/
def cells : List (List Char × ℕ × ℕ) → List α → List Char
  | f :: fs, v :: vs => f.1 ++ pad f.2.1 (E.fix f.2.2 v) ++ cells fs vs
  | _, _ => []

def atomText (a : σ × List α) : List Char := padr 4 (E.symb a.1) ++ cells E layout a.2 ++ ['\n']

/-- The lines before the atoms (stru.cc 490-544), without "title". -/
def headLines (h : Hdr α) : List (List Char) :=
  ["format pdffit".toList, "scale  ".toList ++ pad 9 (E.fix 6 h.pscale), "sharp  ".toList ++ row E h.sharp,
    "spcgr   ".toList ++ h.spcgr] ++
  (if E.pos h.spdiameter then ["shape   sphere, ".toList ++ E.fix 6 h.spdiameter] else []) ++
  (if E.pos h.stepcut then ["shape   stepcut, ".toList ++ E.fix 6 h.stepcut] else []) ++
  ["cell   ".toList ++ row E h.cell, "dcell  ".toList ++ row E h.dcell,
    "ncell  ".toList ++ commas (h.ncell.map fun x => pad 9 (E.int x))]

/-- `Phase::save_struct` (stru.cc 479-586) -/
def save (s : Stru α σ) : List Char :=
  ((("title  ".toList ++ s.hdr.name) :: headLines E s.hdr) ++ ["atoms".toList]).flatMap (fun l => l ++ ['\n']) ++
    s.atoms.flatMap (atomText E)

end
end Pdffit.Stru
