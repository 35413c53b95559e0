import Verif.Lemmas.StruSave

/-!
# C35: saving and re-reading a structure is lossless up to the printed precision

`read_save`: reading the saved text gives the structure with every number replaced by its printed value (`round`), and no other change; only the
computation of the lattice from the rounded cell may still fail. `save_again`: saving that structure gives the identical text, provided that
positive shape parameters are not printed as zero. `read_good`: every structure that has been read satisfies the hypotheses on names and lengths.

The theorems hold for every way of printing and extracting numbers that satisfies `Fmt`; `Lemmas/StruNum.lean` proves `Fmt` for decimal numbers.
The proviso is necessary (`C35.not_identical` in `Props/C35Num.lean`).
-/

namespace Pdffit.C35
open Stru DataRead

variable {α σ : Type}

/-- A structure as it is in memory: names as they are read, numbers of values, consistent number of atoms. -/
structure Good (s : Stru α σ) : Prop where
  nl : '\n' ∉ s.hdr.name
  strip : lstrip s.hdr.name = s.hdr.name
  spcgr : s.hdr.spcgr ≠ [] ∧ ∀ c ∈ s.hdr.spcgr, isSpace c = false
  sharp : s.hdr.sharp.length = 4
  cell : s.hdr.cell.length = 6
  dcell : s.hdr.dcell.length = 6
  ncell : s.hdr.ncell.length = 4
  vals : ∀ a ∈ s.atoms, a.2.length = 20
  tot : s.hdr.ncell.prod = (s.atoms.length : ℤ)

/-- The printed value of a shape parameter; only positive ones are printed. -/
def roundShape (E : Env α σ) (rnd : ℕ → α → α) (x : α) : α := if E.pos x then rnd 6 x else E.zero

/-- The precision of the 20 numbers of an atom: 4 decimals for the occupancy and its error, 8 for all others. -/
def precs : List ℕ := [8, 8, 8, 4, 8, 8, 8, 4, 8, 8, 8, 8, 8, 8, 8, 8, 8, 8, 8, 8]

/-- The structure with all numbers as printed. -/
def round (E : Env α σ) (rnd : ℕ → α → α) (s : Stru α σ) : Stru α σ where
  hdr := { name := s.hdr.name, spcgr := s.hdr.spcgr, pscale := rnd 6 s.hdr.pscale, sharp := s.hdr.sharp.map (rnd 6),
           spdiameter := roundShape E rnd s.hdr.spdiameter, stepcut := roundShape E rnd s.hdr.stepcut,
           cell := s.hdr.cell.map (rnd 6), dcell := s.hdr.dcell.map (rnd 6), ncell := s.hdr.ncell, discus := false }
  atoms := s.atoms.map fun a => (a.1, List.zipWith rnd precs a.2)

/-! ### The header -/

/-- Lines that turn one header into another. -/
def Runs (E : Env α σ) (h : Hdr α) (b : List Char) (ls : List (List Char)) (h' : Hdr α) : Prop :=
  HdrLines b ls ∧ runLines E h b ls = .ok h'

theorem Runs.cons {E : Env α σ} {h h' h'' : Hdr α} {b l c r : List Char} {ls : List (List Char)} (hl : '\n' ∉ l)
    (hc : word l = (c, r)) (hne : c ≠ []) (ha : c ≠ "atoms".toList) (he : exec E h c r = .ok h') (hr : Runs E h' c ls h'') :
    Runs E h b (l :: ls) h'' := by
  have hcmd : command b l = (c, r) := by
    unfold command
    rw [hc, if_neg hne]
  refine ⟨⟨hl, by rw [hcmd]; exact ha, by rw [hcmd]; exact hr.1⟩, ?_⟩
  simp only [runLines, hcmd, he, Res.bind_ok]
  exact hr.2

theorem Runs.nil {E : Env α σ} (h : Hdr α) (b : List Char) : Runs E h b [] h := ⟨trivial, rfl⟩

/-- A line that begins with a keyword. -/
theorem word_key (k t : List Char) (hk : k ≠ []) (hs : ∀ c ∈ k, isSpace c = false) (ht : ∀ c, t.head? = some c → isSpace c = true) :
    word (k ++ t) = (k, t) := by
  have := word_of [] k t (by simp) hk hs ht
  simpa using this

theorem fix_no_nl {E : Env α σ} {rnd : ℕ → α → α} (F : Fmt E rnd) (d : ℕ) (x : α) : '\n' ∉ E.fix d x := fun h => by
  have := (F.chars d x _ h).1
  rw [space_nl] at this
  exact absurd this (by decide)

theorem pad_no_nl {n : ℕ} {s : List Char} (h : '\n' ∉ s) : '\n' ∉ pad n s := fun hm => by
  rcases isSpace_of_mem_pad hm with h' | h'
  · exact absurd h' (by decide)
  · exact h h'

theorem row_no_nl {E : Env α σ} {rnd : ℕ → α → α} (F : Fmt E rnd) (l : List α) : '\n' ∉ row E l := by
  refine nl_commas _ fun x hx => ?_
  obtain ⟨y, _, rfl⟩ := List.mem_map.1 hx
  exact pad_no_nl (fix_no_nl F 6 y)

theorem ints_no_nl {E : Env α σ} {rnd : ℕ → α → α} (F : Fmt E rnd) (l : List ℤ) : '\n' ∉ commas (l.map fun x => pad 9 (E.int x)) := by
  refine nl_commas _ fun x hx => ?_
  obtain ⟨y, _, rfl⟩ := List.mem_map.1 hx
  refine pad_no_nl fun h => ?_
  have := (F.ints y _ h).1
  rw [space_nl] at this
  exact absurd this (by decide)

theorem vgets_row {E : Env α σ} {rnd : ℕ → α → α} (F : Fmt E rnd) (l : List α) (hl : l ≠ []) (w : List Char)
    (hw : ∀ c ∈ w, isSpace c = true) : vgets E.S l.length (w ++ row E l) = some (l.map (rnd 6), []) := by
  have := vgets_commas E.S (E.fix 6) (rnd 6) (fun x w t hw ht => F.num 6 x w t (by decide) hw ht) l w hw
  rw [if_neg hl] at this
  exact this

theorem vgets_ints {E : Env α σ} {rnd : ℕ → α → α} (F : Fmt E rnd) (l : List ℤ) (hl : l ≠ []) (w : List Char)
    (hw : ∀ c ∈ w, isSpace c = true) :
    vgets E.I l.length (w ++ commas (l.map fun x => pad 9 (E.int x))) = some (l, []) := by
  have := vgets_commas E.I E.int id (fun x w t hw ht => F.int x w t hw ht) l w hw
  rw [if_neg hl, List.map_id] at this
  exact this

theorem vgets_succ {β : Type} (S : Scan β) (n : ℕ) (s : List Char) :
    vgets S (n + 1) s = (vgets S n s).bind fun x => (vget S x.2).map fun y => (x.1 ++ [y.1], y.2) := by
  induction n generalizing s with
  | zero =>
    simp only [vgets, Option.bind_some]
    cases vget S s with
    | none => rfl
    | some x => simp
  | succ n ih =>
    rw [show vgets S (n + 1 + 1) s = (vget S s).bind fun x => (vgets S (n + 1) x.2).map fun y => (x.1 :: y.1, y.2) from rfl]
    cases hv : vget S s with
    | none => simp [vgets, hv]
    | some x =>
      simp only [Option.bind_some]
      rw [ih x.2, show vgets S (n + 1) s = (vget S s).bind fun x => (vgets S n x.2).map fun y => (x.1 :: y.1, y.2) from rfl, hv]
      simp only [Option.bind_some]
      cases vgets S n x.2 with
      | none => rfl
      | some y =>
        simp only [Option.bind_some, Option.map_some]
        cases vget S y.2 with
        | none => rfl
        | some z => rfl

theorem readSharp_row {E : Env α σ} {rnd : ℕ → α → α} (F : Fmt E rnd) (l : List α) (hl : l.length = 4) (w : List Char)
    (hw : ∀ c ∈ w, isSpace c = true) : readSharp E (w ++ row E l) = some (l.map (rnd 6)) := by
  have h := vgets_row F l (by rintro rfl; simp at hl) w hw
  rw [hl, vgets_succ] at h
  unfold readSharp
  cases h3 : vgets E.S 3 (w ++ row E l) with
  | none => rw [h3] at h; simp at h
  | some x =>
    rw [h3] at h
    simp only [Option.bind_some, Option.map_some] at h ⊢
    cases h4 : vget E.S x.2 with
    | none => rw [h4] at h; simp at h
    | some y =>
      rw [h4] at h
      simp only [Option.map_some, Option.some.injEq, Prod.mk.injEq] at h ⊢
      exact h.1

theorem spaces3 : ∀ c ∈ "   ".toList, isSpace c = true := by decide
theorem spaces2 : ∀ c ∈ "  ".toList, isSpace c = true := by decide

/-- A shape line. -/
theorem readShape_line {E : Env α σ} {rnd : ℕ → α → α} (F : Fmt E rnd) (k : List Char) (hk : k ≠ [])
    (hs : ∀ c ∈ k, isSpace c = false ∧ c ≠ ',') (x : α) :
    word (("   ".toList ++ (k ++ (", ".toList ++ E.fix 6 x))).map fun c => if c = ',' then ' ' else c) = (k, "  ".toList ++ E.fix 6 x) := by
  have hm : ∀ l : List Char, (∀ c ∈ l, c ≠ ',') → l.map (fun c => if c = ',' then ' ' else c) = l := by
    intro l hl
    conv_rhs => rw [← List.map_id l]
    exact List.map_congr_left fun c hc => by simp [hl c hc]
  rw [List.map_append, List.map_append, List.map_append, hm k fun c hc => (hs c hc).2, hm (E.fix 6 x) fun c hc => (F.chars 6 x c hc).2]
  have h1 : ("   ".toList.map fun c => if c = ',' then ' ' else c) = "   ".toList := by decide
  have h2 : (", ".toList.map fun c => if c = ',' then ' ' else c) = "  ".toList := by decide
  rw [h1, h2]
  refine word_of _ k _ spaces3 hk (fun c hc => (hs c hc).1) ?_
  intro c hc
  have : ("  ".toList ++ E.fix 6 x).head? = some ' ' := rfl
  rw [this] at hc
  injection hc with hc
  rw [← hc]
  exact space_blank

theorem vget_last {E : Env α σ} {rnd : ℕ → α → α} (F : Fmt E rnd) (w : List Char) (hw : ∀ c ∈ w, isSpace c = true) (x : α) :
    vget E.S (w ++ E.fix 6 x) = some (rnd 6 x, []) := by
  have := F.num 6 x w [] (by decide) hw ends_nil
  rw [List.append_nil] at this
  unfold vget
  rw [this]
  rfl

theorem head_space {t : List Char} (h : t.head? = some ' ') : ∀ c, t.head? = some c → isSpace c = true := by
  intro c hc
  rw [h] at hc
  injection hc with hc
  rw [← hc]
  exact space_blank

theorem not_nl_append {a b : List Char} (ha : '\n' ∉ a) (hb : '\n' ∉ b) : '\n' ∉ a ++ b := by
  simp [ha, hb]

/-! #### The commands -/

section
variable (E : Env α σ) (h : Hdr α) (r : List Char)

theorem exec_format : exec E h "format".toList r = .ok { h with discus := decide ((word r).1 ≠ "pdffit".toList) } := by
  unfold exec
  rw [if_neg (by decide), if_pos rfl]

theorem exec_scale : exec E h "scale".toList r = orErr ((vget E.S r).map fun v => { h with pscale := v.1 }) := by
  unfold exec
  rw [if_neg (by decide), if_neg (by decide), if_pos rfl]

theorem exec_sharp : exec E h "sharp".toList r = orErr ((readSharp E r).map fun v => { h with sharp := v }) := by
  unfold exec
  rw [if_neg (by decide), if_neg (by decide), if_neg (by decide), if_pos rfl]

theorem exec_spcgr : exec E h "spcgr".toList r = .ok { h with spcgr := if (word r).1 = [] then h.spcgr else (word r).1 } := by
  unfold exec
  rw [if_neg (by decide), if_neg (by decide), if_neg (by decide), if_neg (by decide), if_pos rfl]

theorem exec_shape : exec E h "shape".toList r = readShape E h r := by
  unfold exec
  rw [if_neg (by decide), if_neg (by decide), if_neg (by decide), if_neg (by decide), if_neg (by decide), if_pos rfl]

theorem exec_title : exec E h "title".toList r = .ok { h with name := lstrip (if r = [] then h.name else r) } := by
  unfold exec
  rw [if_neg (by decide), if_neg (by decide), if_neg (by decide), if_neg (by decide), if_neg (by decide), if_neg (by decide), if_pos rfl]

theorem exec_cell : exec E h "cell".toList r = orErr ((vgets E.S 6 r).map fun v => { h with cell := v.1 }) := by
  unfold exec
  rw [if_neg (by decide), if_neg (by decide), if_neg (by decide), if_neg (by decide), if_neg (by decide), if_neg (by decide),
    if_neg (by decide), if_pos rfl]

theorem exec_dcell : exec E h "dcell".toList r = orErr ((vgets E.S 6 r).map fun v => { h with dcell := v.1 }) := by
  unfold exec
  rw [if_neg (by decide), if_neg (by decide), if_neg (by decide), if_neg (by decide), if_neg (by decide), if_neg (by decide),
    if_neg (by decide), if_neg (by decide), if_pos rfl]

theorem exec_ncell : exec E h "ncell".toList r = orErr ((vgets E.I 4 r).map fun v => { h with ncell := v.1 }) := by
  unfold exec
  rw [if_neg (by decide), if_neg (by decide), if_neg (by decide), if_neg (by decide), if_neg (by decide), if_neg (by decide),
    if_neg (by decide), if_neg (by decide), if_neg (by decide), if_pos rfl]

end

section
variable {E : Env α σ} {rnd : ℕ → α → α}

/-- The lines after the shape. -/
theorem runs_end (F : Fmt E rnd) (s : Stru α σ) (hs : Good s) (h : Hdr α) (b : List Char) : Runs E h b
    ["cell   ".toList ++ row E s.hdr.cell, "dcell  ".toList ++ row E s.hdr.dcell,
      "ncell  ".toList ++ commas (s.hdr.ncell.map fun x => pad 9 (E.int x))]
    { h with cell := s.hdr.cell.map (rnd 6), dcell := s.hdr.dcell.map (rnd 6), ncell := s.hdr.ncell } := by
  have h1 := vgets_row F s.hdr.cell (by intro h; have := hs.cell; rw [h] at this; simp at this) _ spaces3
  have h2 := vgets_row F s.hdr.dcell (by intro h; have := hs.dcell; rw [h] at this; simp at this) _ spaces2
  have h3 := vgets_ints F s.hdr.ncell (by intro h; have := hs.ncell; rw [h] at this; simp at this) _ spaces2
  rw [hs.cell] at h1
  rw [hs.dcell] at h2
  rw [hs.ncell] at h3
  refine Runs.cons (c := "cell".toList) (r := "   ".toList ++ row E s.hdr.cell)
    (h' := { h with cell := s.hdr.cell.map (rnd 6) })
    (not_nl_append (by decide) (row_no_nl F _)) (word_key "cell".toList _ (by decide) (by decide) (head_space rfl))
    (by decide) (by decide) (by rw [exec_cell, h1]; rfl) ?_
  refine Runs.cons (c := "dcell".toList) (r := "  ".toList ++ row E s.hdr.dcell)
    (h' := { h with cell := s.hdr.cell.map (rnd 6), dcell := s.hdr.dcell.map (rnd 6) })
    (not_nl_append (by decide) (row_no_nl F _)) (word_key "dcell".toList _ (by decide) (by decide) (head_space rfl))
    (by decide) (by decide) (by rw [exec_dcell, h2]; rfl) ?_
  exact Runs.cons (c := "ncell".toList) (r := "  ".toList ++ commas (s.hdr.ncell.map fun x => pad 9 (E.int x)))
    (not_nl_append (by decide) (ints_no_nl F _)) (word_key "ncell".toList _ (by decide) (by decide) (head_space rfl))
    (by decide) (by decide) (by rw [exec_ncell, h3]; rfl) (Runs.nil _ _)

theorem exec_stepcut (F : Fmt E rnd) (h : Hdr α) (x : α) :
    exec E h "shape".toList ("   ".toList ++ ("stepcut".toList ++ (", ".toList ++ E.fix 6 x))) = .ok { h with stepcut := rnd 6 x } := by
  rw [exec_shape]
  unfold readShape
  simp only [readShape_line F "stepcut".toList (by decide) (by decide), vget_last F _ spaces2]
  rw [if_neg (by decide), if_pos trivial]
  rfl

theorem exec_sphere (F : Fmt E rnd) (h : Hdr α) (x : α) :
    exec E h "shape".toList ("   ".toList ++ ("sphere".toList ++ (", ".toList ++ E.fix 6 x))) = .ok { h with spdiameter := rnd 6 x } := by
  rw [exec_shape]
  unfold readShape
  simp only [readShape_line F "sphere".toList (by decide) (by decide), vget_last F _ spaces2]
  rw [if_pos trivial]
  rfl

/-- The line `shape   stepcut` or nothing, and the lines after it. -/
theorem runs_cut (F : Fmt E rnd) (x : α) (h h' : Hdr α) (b : List Char) (ls : List (List Char)) (hz : h.stepcut = E.zero)
    (hr : ∀ b, Runs E { h with stepcut := roundShape E rnd x } b ls h') :
    Runs E h b ((if E.pos x then ["shape   stepcut, ".toList ++ E.fix 6 x] else []) ++ ls) h' := by
  by_cases hp : E.pos x = true
  · have hq : roundShape E rnd x = rnd 6 x := by unfold roundShape; rw [if_pos hp]
    rw [if_pos hp]
    rw [hq] at hr
    exact Runs.cons (c := "shape".toList) (r := "   ".toList ++ ("stepcut".toList ++ (", ".toList ++ E.fix 6 x)))
      (not_nl_append (by decide) (fix_no_nl F _ _))
      (word_key "shape".toList ("   ".toList ++ ("stepcut".toList ++ (", ".toList ++ E.fix 6 x))) (by decide) (by decide) (head_space rfl))
      (by decide) (by decide) (exec_stepcut F h x) (hr _)
  · have hq : roundShape E rnd x = h.stepcut := by unfold roundShape; rw [if_neg hp, hz]
    rw [if_neg hp]
    rw [hq] at hr
    exact hr b

/-- The line `shape   sphere` or nothing, and the lines after it. -/
theorem runs_sphere (F : Fmt E rnd) (x : α) (h h' : Hdr α) (b : List Char) (ls : List (List Char)) (hz : h.spdiameter = E.zero)
    (hr : ∀ b, Runs E { h with spdiameter := roundShape E rnd x } b ls h') :
    Runs E h b ((if E.pos x then ["shape   sphere, ".toList ++ E.fix 6 x] else []) ++ ls) h' := by
  by_cases hp : E.pos x = true
  · have hq : roundShape E rnd x = rnd 6 x := by unfold roundShape; rw [if_pos hp]
    rw [if_pos hp]
    rw [hq] at hr
    exact Runs.cons (c := "shape".toList) (r := "   ".toList ++ ("sphere".toList ++ (", ".toList ++ E.fix 6 x)))
      (not_nl_append (by decide) (fix_no_nl F _ _))
      (word_key "shape".toList ("   ".toList ++ ("sphere".toList ++ (", ".toList ++ E.fix 6 x))) (by decide) (by decide) (head_space rfl))
      (by decide) (by decide) (exec_sphere F h x) (hr _)
  · have hq : roundShape E rnd x = h.spdiameter := by unfold roundShape; rw [if_neg hp, hz]
    rw [if_neg hp]
    rw [hq] at hr
    exact hr b

/-- The line `title`. -/
theorem exec_title_line (s : Stru α σ) (hs : Good s) (h : Hdr α) :
    exec E h "title".toList ("  ".toList ++ s.hdr.name) = .ok { h with name := s.hdr.name } := by
  have hn : lstrip ("  ".toList ++ s.hdr.name) = s.hdr.name := by
    conv_rhs => rw [← hs.strip]
    unfold lstrip
    rw [List.dropWhile_append_of_pos (by decide)]
  have hne : "  ".toList ++ s.hdr.name ≠ [] := by
    intro h
    have := congrArg List.length h
    simp at this
  rw [exec_title, if_neg hne, hn]

/-- The line `scale`. -/
theorem exec_scale_line (F : Fmt E rnd) (x : α) (h : Hdr α) :
    exec E h "scale".toList ("  ".toList ++ pad 9 (E.fix 6 x)) = .ok { h with pscale := rnd 6 x } := by
  have hv : vget E.S ("  ".toList ++ pad 9 (E.fix 6 x)) = some (rnd 6 x, []) := by
    obtain ⟨w, hw, hws⟩ := pad_spaces 9 (E.fix 6 x)
    rw [hw, ← List.append_assoc]
    refine vget_last F _ ?_ _
    intro c hc
    rcases List.mem_append.1 hc with h | h
    · exact spaces2 c h
    · rw [hws c h]; exact space_blank
  rw [exec_scale, hv]
  rfl

/-- The line `spcgr`. -/
theorem exec_spcgr_line (s : Stru α σ) (hs : Good s) (h : Hdr α) :
    exec E h "spcgr".toList ("   ".toList ++ s.hdr.spcgr) = .ok { h with spcgr := s.hdr.spcgr } := by
  have hw : word ("   ".toList ++ s.hdr.spcgr) = (s.hdr.spcgr, []) := by
    have := word_of "   ".toList s.hdr.spcgr [] spaces3 hs.spcgr.1 hs.spcgr.2 (by simp)
    rwa [List.append_nil] at this
  rw [exec_spcgr, hw, if_neg hs.spcgr.1]

/-- The lines before the atoms. -/
theorem header_runs (F : Fmt E rnd) (s : Stru α σ) (hs : Good s) :
    Runs E (Hdr.init E) [] (("title  ".toList ++ s.hdr.name) :: headLines E s.hdr) (round E rnd s).hdr := by
  have nospc : '\n' ∉ s.hdr.spcgr := fun h => by
    have := hs.spcgr.2 _ h
    rw [space_nl] at this
    exact absurd this (by decide)
  refine Runs.cons (c := "title".toList) (r := "  ".toList ++ s.hdr.name)
    (not_nl_append (by decide) hs.nl) (word_key "title".toList ("  ".toList ++ s.hdr.name) (by decide) (by decide) (head_space rfl))
    (by decide) (by decide) (exec_title_line s hs _) ?_
  unfold headLines
  simp only [List.append_assoc]
  rw [List.cons_append, List.cons_append, List.cons_append, List.cons_append, List.nil_append]
  refine Runs.cons (c := "format".toList) (r := " pdffit".toList) (by decide) (by decide) (by decide) (by decide) (exec_format _ _ _) ?_
  refine Runs.cons (c := "scale".toList) (r := "  ".toList ++ pad 9 (E.fix 6 s.hdr.pscale))
    (not_nl_append (by decide) (pad_no_nl (fix_no_nl F _ _))) (word_key "scale".toList _ (by decide) (by decide) (head_space rfl))
    (by decide) (by decide) (exec_scale_line F _ _) ?_
  have hsh := readSharp_row F s.hdr.sharp hs.sharp _ spaces2
  refine Runs.cons (c := "sharp".toList) (r := "  ".toList ++ row E s.hdr.sharp)
    (not_nl_append (by decide) (row_no_nl F _)) (word_key "sharp".toList _ (by decide) (by decide) (head_space rfl))
    (by decide) (by decide) (by rw [exec_sharp, hsh]; rfl) ?_
  refine Runs.cons (c := "spcgr".toList) (r := "   ".toList ++ s.hdr.spcgr)
    (not_nl_append (by decide) nospc) (word_key "spcgr".toList _ (by decide) (by decide) (head_space rfl))
    (by decide) (by decide) (exec_spcgr_line s hs _) ?_
  refine runs_sphere F _ _ _ _ _ rfl fun b => ?_
  refine runs_cut F _ _ _ _ _ rfl fun b => ?_
  exact runs_end F s hs _ _

end

/-! ### The atoms -/

theorem numsN_cells {E : Env α σ} {rnd : ℕ → α → α} (F : Fmt E rnd) (t : List Char) (ht : Ends t) :
    ∀ (fs : List (List Char × ℕ × ℕ)) (vs : List α) (w : List Char), fs.length = vs.length →
      (∀ f ∈ fs, (∃ c l, f.1 = c :: l ∧ isSpace c = true) ∧ (∀ c ∈ f.1, isSpace c = true) ∧ 0 < f.2.2) → (∀ c ∈ w, isSpace c = true) →
      numsN E.S vs.length (w ++ (cells E fs vs ++ t)) =
        some (List.zipWith rnd (fs.map fun f => f.2.2) vs, if vs = [] then w ++ t else t) := by
  intro fs
  induction fs with
  | nil =>
    intro vs w hl _ _
    obtain rfl : vs = [] := List.length_eq_zero_iff.1 (by simpa using hl.symm)
    simp [numsN, cells]
  | cons f fs ih =>
    intro vs w hl hf hw
    cases vs with
    | nil => simp at hl
    | cons v vs =>
      obtain ⟨p, hp, hps⟩ := pad_spaces f.2.1 (E.fix f.2.2 v)
      obtain ⟨_, hf2, hf3⟩ := hf f (by simp)
      have hfs : ∀ g ∈ fs, (∃ c l, g.1 = c :: l ∧ isSpace c = true) ∧ (∀ c ∈ g.1, isSpace c = true) ∧ 0 < g.2.2 := fun g hg => hf g (by simp [hg])
      have hends : Ends (cells E fs vs ++ t) := by
        cases fs with
        | nil => simpa [cells] using ht
        | cons g gs =>
          cases vs with
          | nil => simp at hl
          | cons u us =>
            obtain ⟨⟨c, l, hc, hcs⟩, _⟩ := hfs g (by simp)
            simp only [cells, hc, List.cons_append]
            exact ends_space _ _ hcs
      have hpre : ∀ c ∈ w ++ f.1 ++ p, isSpace c = true := by
        intro c hc
        rcases List.mem_append.1 hc with h | h
        · rcases List.mem_append.1 h with h | h
          · exact hw c h
          · exact hf2 c h
        · rw [hps c h]; exact space_blank
      have hn := F.num f.2.2 v (w ++ f.1 ++ p) (cells E fs vs ++ t) hf3 hpre hends
      have hi := ih vs [] (by simpa using hl) hfs (by simp)
      rw [List.length_cons, numsN]
      simp only [cells, hp]
      rw [show w ++ (f.1 ++ (p ++ E.fix f.2.2 v) ++ cells E fs vs ++ t) = w ++ f.1 ++ p ++ (E.fix f.2.2 v ++ (cells E fs vs ++ t)) by simp,
        hn]
      simp only [Option.bind_some]
      rw [List.nil_append] at hi
      rw [hi]
      simp

theorem layout_ok : ∀ f ∈ layout, (∃ c l, f.1 = c :: l ∧ isSpace c = true) ∧ (∀ c ∈ f.1, isSpace c = true) ∧ 0 < f.2.2 := by
  have h : ∀ f ∈ layout, (f.1 = [' '] ∨ f.1 = "\n     ".toList) ∧ 0 < f.2.2 := by decide
  intro f hf
  obtain ⟨h1, h2⟩ := h f hf
  rcases h1 with h1 | h1
  · rw [h1]; exact ⟨⟨' ', [], rfl, by decide⟩, by decide, h2⟩
  · rw [h1]; exact ⟨⟨'\n', "     ".toList, rfl, by decide⟩, by decide, h2⟩

theorem readAtoms_text {E : Env α σ} {rnd : ℕ → α → α} (F : Fmt E rnd) : ∀ (as : List (σ × List α)) (w : List Char),
    (∀ a ∈ as, a.2.length = 20) → (∀ c ∈ w, isSpace c = true) →
    readAtoms E false (w ++ as.flatMap (atomText E)) = .ok (as.map fun a => (a.1, List.zipWith rnd precs a.2)) := by
  intro as
  induction as with
  | nil =>
    intro w _ hw
    rw [readAtoms, dif_pos]
    · rfl
    · simpa using blank_word w hw
  | cons a as ih =>
    intro w ha hw
    have h20 := ha a (by simp)
    have htext : w ++ (a :: as).flatMap (atomText E) = w ++ (E.symb a.1 ++
        (List.replicate (4 - (E.symb a.1).length) ' ' ++ (cells E layout a.2 ++ (['\n'] ++ as.flatMap (atomText E))))) := by
      simp [atomText, padr]
    have hcells : ∃ u, cells E layout a.2 = ' ' :: u := by
      cases h : a.2 with
      | nil => rw [h] at h20; simp at h20
      | cons v vs => exact ⟨_, rfl⟩
    obtain ⟨u, hu⟩ := hcells
    have hsp : ∀ c ∈ List.replicate (4 - (E.symb a.1).length) ' ', isSpace c = true :=
      fun c hc => by rw [List.eq_of_mem_replicate hc]; exact space_blank
    have hword := word_of w (E.symb a.1)
      (List.replicate (4 - (E.symb a.1).length) ' ' ++ (cells E layout a.2 ++ (['\n'] ++ as.flatMap (atomText E)))) hw
      (F.symb a.1).1 (F.symb a.1).2 (by
        apply head_space
        rw [hu]
        cases 4 - (E.symb a.1).length with
        | zero => rfl
        | succ n => rfl)
    have hnum := numsN_cells F (['\n'] ++ as.flatMap (atomText E)) (ends_space _ _ space_nl) layout a.2 _
      (by rw [h20]; rfl) layout_ok hsp
    rw [h20, if_neg (by intro h; rw [h] at h20; simp at h20)] at hnum
    have hprec : (layout.map fun f => f.2.2) = precs := by decide
    rw [hprec] at hnum
    rw [htext, readAtoms, dif_neg (by rw [hword]; exact (F.symb a.1).1)]
    rw [hword]
    have h20' : (if false = true then 4 else 20) = 20 := rfl
    have hi := ih ['\n'] (fun b hb => ha b (by simp [hb])) (by simp [space_nl])
    split
    · rename_i hn
      simp only [h20'] at hn
      rw [hnum] at hn
      simp at hn
    · rename_i x hn
      simp only [h20'] at hn
      rw [hnum] at hn
      injection hn with hn
      subst hn
      simp only [F.look, hi, Res.bind_ok]
      rfl

/-- **C35**: reading the saved text gives the structure with the printed values. -/
theorem read_save {E : Env α σ} {rnd : ℕ → α → α} (F : Fmt E rnd) (lat : Hdr α → Res Unit) (s : Stru α σ) (hs : Good s) :
    Stru.read E lat (save E s) = (lat (round E rnd s).hdr >>= fun _ => .ok (round E rnd s)) := by
  obtain ⟨h1, h2⟩ := header_runs F s hs
  have hh : Stru.header E (Hdr.init E) [] (.good (save E s)) [] = .ok ((round E rnd s).hdr, .good (s.atoms.flatMap (atomText E))) := by
    have hsplit : save E s = unlines (("title  ".toList ++ s.hdr.name) :: headLines E s.hdr) ++
        ("atoms".toList ++ '\n' :: s.atoms.flatMap (atomText E)) := by
      unfold save unlines
      rw [List.flatMap_append, List.append_assoc]
      congr 1
    rw [hsplit, header_lines E _ _ _ _ _ h1, h2, Res.bind_ok]
    have hcmd : ∀ b, (command b "atoms".toList).1 = "atoms".toList := by
      intro b
      unfold command
      rw [if_neg (by decide)]
      decide
    rw [header_atoms E _ _ _ _ _ (by decide) (hcmd _)]
  have ha := readAtoms_text F s.atoms [] hs.vals (by simp)
  rw [List.nil_append] at ha
  unfold Stru.read
  rw [hh, Res.bind_ok]
  simp only [rest]
  have hd : (round E rnd s).hdr.discus = false := rfl
  rw [hd, ha, Res.bind_ok]
  congr 1
  funext _
  have ht : total (round E rnd s).hdr.ncell = ((s.atoms.map fun a => (a.1, List.zipWith rnd precs a.2)).length : ℤ) := by
    rw [List.length_map]
    exact hs.tot
  rw [if_neg (by rw [ht]; simp)]
  rfl

/-! ### Saving again -/

theorem row_round {E : Env α σ} {rnd : ℕ → α → α} (F : Fmt E rnd) (l : List α) : row E (l.map (rnd 6)) = row E l := by
  unfold row
  rw [List.map_map]
  congr 1
  exact List.map_congr_left fun x _ => by simp [F.again 6 x (by decide)]

theorem cells_round {E : Env α σ} {rnd : ℕ → α → α} (F : Fmt E rnd) : ∀ (fs : List (List Char × ℕ × ℕ)) (vs : List α),
    (∀ f ∈ fs, 0 < f.2.2) → cells E fs (List.zipWith rnd (fs.map fun f => f.2.2) vs) = cells E fs vs
  | [], _, _ => by simp [cells]
  | _ :: _, [], _ => by simp [cells]
  | f :: fs, v :: vs, h => by
    simp only [List.map_cons, List.zipWith_cons_cons, cells]
    rw [F.again _ _ (h f (by simp)), cells_round F fs vs fun g hg => h g (by simp [hg])]

/-- **C35**: saving the structure that has been read gives the identical text. -/
theorem save_again {E : Env α σ} {rnd : ℕ → α → α} (F : Fmt E rnd) (hz : E.pos E.zero = false) (s : Stru α σ)
    (h1 : E.pos s.hdr.spdiameter = true → E.pos (rnd 6 s.hdr.spdiameter) = true)
    (h2 : E.pos s.hdr.stepcut = true → E.pos (rnd 6 s.hdr.stepcut) = true) :
    save E (round E rnd s) = save E s := by
  have hshape : ∀ (x : α) (p : List Char), (E.pos x = true → E.pos (rnd 6 x) = true) →
      (if E.pos (roundShape E rnd x) then [p ++ E.fix 6 (roundShape E rnd x)] else []) = if E.pos x then [p ++ E.fix 6 x] else [] := by
    intro x p hx
    unfold roundShape
    by_cases h : E.pos x = true
    · simp only [if_pos h, if_pos (hx h), F.again 6 x (by decide)]
    · simp only [if_neg h, hz, Bool.false_eq_true, if_false]
  have hh : headLines E (round E rnd s).hdr = headLines E s.hdr := by
    unfold headLines round
    simp only [row_round F, hshape _ _ h1, hshape _ _ h2, F.again 6 _ (by decide : 0 < 6)]
  have ha : (round E rnd s).atoms.flatMap (atomText E) = s.atoms.flatMap (atomText E) := by
    have hprec : (layout.map fun f => f.2.2) = precs := by decide
    unfold round
    simp only [List.flatMap_map]
    refine congrArg (fun f => s.atoms.flatMap f) ?_
    funext a
    have hc := cells_round F layout a.2 fun f hf => (layout_ok f hf).2.2
    rw [hprec] at hc
    unfold atomText
    rw [hc]
  unfold save
  rw [hh, ha]
  rfl

/-! ### Structures that have been read -/

theorem word_space (s : List Char) : ∀ c ∈ (word s).1, isSpace c = false := by
  intro c hc
  have := List.mem_takeWhile_imp hc
  simpa using this

/-- What the header keeps. -/
structure GoodHdr (h : Hdr α) : Prop where
  nl : '\n' ∉ h.name
  strip : lstrip h.name = h.name
  spcgr : h.spcgr ≠ [] ∧ ∀ c ∈ h.spcgr, isSpace c = false
  sharp : h.sharp.length = 4
  cell : h.cell.length = 6
  dcell : h.dcell.length = 6
  ncell : h.ncell.length = 4

theorem vgets_length {β : Type} (S : Scan β) (n : ℕ) : ∀ (s : List Char) x, vgets S n s = some x → x.1.length = n := by
  induction n with
  | zero => intro s x h; simp only [vgets, Option.some.injEq] at h; subst h; rfl
  | succ n ih =>
    intro s x h
    simp only [vgets, Option.bind_eq_some_iff, Option.map_eq_some_iff] at h
    obtain ⟨a, _, b, h2, rfl⟩ := h
    simp [ih _ _ h2]

theorem numsN_length {β : Type} (S : Scan β) (n : ℕ) : ∀ (s : List Char) x, numsN S n s = some x → x.1.length = n := by
  induction n with
  | zero => intro s x h; simp only [numsN, Option.some.injEq] at h; subst h; rfl
  | succ n ih =>
    intro s x h
    simp only [numsN, Option.bind_eq_some_iff, Option.map_eq_some_iff] at h
    obtain ⟨a, _, b, h2, rfl⟩ := h
    simp [ih _ _ h2]

theorem orErr_ok {β γ : Type} {o : Option β} {f : β → γ} {y : γ} (h : orErr (o.map f) = .ok y) : ∃ x, o = some x ∧ y = f x := by
  cases o with
  | none => simp [orErr] at h
  | some x => simp only [Option.map_some, orErr, Res.ok.injEq] at h; exact ⟨x, rfl, h.symm⟩

theorem exec_good (E : Env α σ) {h h' : Hdr α} {c r : List Char} (hg : GoodHdr h) (hr : '\n' ∉ r) (he : exec E h c r = .ok h') :
    GoodHdr h' := by
  have hl : ∀ s, '\n' ∉ s → '\n' ∉ lstrip s := fun s hs hm => hs ((List.dropWhile_sublist _).subset hm)
  have hsame : ∀ {x : Hdr α}, x.name = h.name → x.spcgr = h.spcgr → x.sharp = h.sharp → x.cell = h.cell → x.dcell = h.dcell →
      x.ncell = h.ncell → GoodHdr x := by
    intro x e1 e2 e3 e4 e5 e6
    exact ⟨by rw [e1]; exact hg.nl, by rw [e1]; exact hg.strip, by rw [e2]; exact hg.spcgr, by rw [e3]; exact hg.sharp,
      by rw [e4]; exact hg.cell, by rw [e5]; exact hg.dcell, by rw [e6]; exact hg.ncell⟩
  by_cases c1 : c.head? = some '#'
  · unfold exec at he
    rw [if_pos c1] at he
    injection he with he; subst he; exact hg
  by_cases c2 : c = "format".toList
  · rw [c2, exec_format] at he
    injection he with he; subst he; exact hsame rfl rfl rfl rfl rfl rfl
  by_cases c3 : c = "scale".toList
  · rw [c3, exec_scale] at he
    obtain ⟨x, _, rfl⟩ := orErr_ok he; exact hsame rfl rfl rfl rfl rfl rfl
  by_cases c4 : c = "sharp".toList
  · rw [c4, exec_sharp] at he
    obtain ⟨x, hx, rfl⟩ := orErr_ok he
    refine ⟨hg.nl, hg.strip, hg.spcgr, ?_, hg.cell, hg.dcell, hg.ncell⟩
    unfold readSharp at hx
    rw [Option.map_eq_some_iff] at hx
    obtain ⟨y, hy, rfl⟩ := hx
    have := vgets_length _ _ _ _ hy
    cases vget E.S y.2 with
    | none => rfl
    | some z => simp [this]
  by_cases c5 : c = "spcgr".toList
  · rw [c5, exec_spcgr] at he
    injection he with he; subst he
    refine ⟨hg.nl, hg.strip, ?_, hg.sharp, hg.cell, hg.dcell, hg.ncell⟩
    by_cases hw : (word r).1 = []
    · simp only [if_pos hw]; exact hg.spcgr
    · simp only [if_neg hw]; exact ⟨hw, word_space r⟩
  by_cases c6 : c = "shape".toList
  · rw [c6, exec_shape] at he
    unfold readShape at he
    simp only at he
    generalize word (r.map fun c => if c = ',' then ' ' else c) = w at he
    by_cases k1 : w.1 = "sphere".toList
    · rw [if_pos k1] at he
      obtain ⟨x, _, rfl⟩ := orErr_ok he; exact hsame rfl rfl rfl rfl rfl rfl
    rw [if_neg k1] at he
    by_cases k2 : w.1 = "stepcut".toList
    · rw [if_pos k2] at he
      obtain ⟨x, _, rfl⟩ := orErr_ok he; exact hsame rfl rfl rfl rfl rfl rfl
    rw [if_neg k2] at he
    simp at he
  by_cases c7 : c = "title".toList
  · rw [c7, exec_title] at he
    injection he with he; subst he
    refine ⟨hl _ ?_, lstrip_idem _, hg.spcgr, hg.sharp, hg.cell, hg.dcell, hg.ncell⟩
    by_cases hw : r = []
    · simp only [if_pos hw]; exact hg.nl
    · simp only [if_neg hw]; exact hr
  by_cases c8 : c = "cell".toList
  · rw [c8, exec_cell] at he
    obtain ⟨x, hx, rfl⟩ := orErr_ok he
    exact ⟨hg.nl, hg.strip, hg.spcgr, hg.sharp, vgets_length _ _ _ _ hx, hg.dcell, hg.ncell⟩
  by_cases c9 : c = "dcell".toList
  · rw [c9, exec_dcell] at he
    obtain ⟨x, hx, rfl⟩ := orErr_ok he
    exact ⟨hg.nl, hg.strip, hg.spcgr, hg.sharp, hg.cell, vgets_length _ _ _ _ hx, hg.ncell⟩
  by_cases c10 : c = "ncell".toList
  · rw [c10, exec_ncell] at he
    obtain ⟨x, hx, rfl⟩ := orErr_ok he
    exact ⟨hg.nl, hg.strip, hg.spcgr, hg.sharp, hg.cell, hg.dcell, vgets_length _ _ _ _ hx⟩
  unfold exec at he
  rw [if_neg c1, if_neg c2, if_neg c3, if_neg c4, if_neg c5, if_neg c6, if_neg c7, if_neg c8, if_neg c9, if_neg c10] at he
  injection he with he; subst he; exact hg

theorem cut_no_nl (l : List Char) : '\n' ∉ (cut l).1 := by
  induction l with
  | nil => simp [cut]
  | cons c l ih =>
    unfold cut
    split_ifs with h
    · simp
    · simp only [List.mem_cons, not_or]
      exact ⟨fun h' => h h'.symm, ih⟩

theorem getline_no_nl (st : IS) (line : List Char) (hl : '\n' ∉ line) : '\n' ∉ (getline st line).2 := by
  cases st with
  | good r =>
    have := cut_no_nl r
    simp only [getline]
    rcases hx : cut r with ⟨a, _ | b⟩
    · rw [hx] at this
      cases a with
      | nil => simp [afterCut]
      | cons c a => simpa [afterCut] using this
    · rw [hx] at this
      simpa [afterCut] using this
  | eof => exact hl
  | failed => exact hl

theorem command_no_nl (b line : List Char) (hl : '\n' ∉ line) : '\n' ∉ (command b line).2 := by
  unfold command
  split_ifs
  · simp
  · intro h
    exact hl ((List.dropWhile_sublist _).subset ((List.dropWhile_sublist _).subset h))

theorem header_good (E : Env α σ) (h : Hdr α) (b : List Char) (st : IS) (line : List Char) :
    GoodHdr h → '\n' ∉ line → ∀ x, Stru.header E h b st line = .ok x → GoodHdr x.1 := by
  fun_induction Stru.header E h b st line with
  | case1 h b st line hf =>
    intro hg _ x hx
    injection hx with hx
    subst hx
    exact hg
  | case2 h b st line hf y ha =>
    intro hg _ x hx
    injection hx with hx
    subst hx
    exact hg
  | case3 h b st line hf y ha ih =>
    intro hg hl x hx
    rw [Res.bind_eq_ok] at hx
    obtain ⟨h', he, hx⟩ := hx
    have hn := getline_no_nl st line hl
    exact ih h' (exec_good E hg (command_no_nl b _ hn) he) hn x hx

theorem readAtoms_good (E : Env α σ) (d : Bool) (s : List Char) : ∀ l, readAtoms E d s = .ok l → ∀ a ∈ l, a.2.length = 20 := by
  fun_induction readAtoms E d s with
  | case1 s hw => intro l hl; injection hl with hl; subst hl; simp
  | case2 s hw hn => intro l hl; injection hl with hl; subst hl; simp
  | case3 s hw x hn hlook => intro l hl; simp at hl
  | case4 s hw x hn e hlook ih =>
    intro l hl
    rw [Res.bind_eq_ok] at hl
    obtain ⟨l', h1, h2⟩ := hl
    injection h2 with h2
    subst h2
    intro a ha
    rcases List.mem_cons.1 ha with rfl | ha
    · have := numsN_length _ _ _ _ hn
      unfold atomVals
      cases d with
      | false => simpa using this
      | true => simp at this; simp [this]
    · exact ih l' h1 a ha

/-- Every structure that has been read satisfies the hypotheses. -/
theorem read_good (E : Env α σ) (lat : Hdr α → Res Unit) (text : List Char) (s : Stru α σ) (h : Stru.read E lat text = .ok s) : Good s := by
  have hi : GoodHdr (Hdr.init E) :=
    ⟨(by decide : '\n' ∉ "UNNAMED".toList), (by decide : lstrip "UNNAMED".toList = "UNNAMED".toList),
      (by decide : "P1".toList ≠ [] ∧ ∀ c ∈ "P1".toList, isSpace c = false), rfl, rfl, rfl, rfl⟩
  unfold Stru.read at h
  simp only [Res.bind_eq_ok] at h
  obtain ⟨x, h1, l, h2, _, _, h3⟩ := h
  split_ifs at h3 with ht
  injection h3 with h3
  subst h3
  have hg := header_good E _ _ _ _ hi (by simp) x h1
  exact ⟨hg.nl, hg.strip, hg.spcgr, hg.sharp, hg.cell, hg.dcell, hg.ncell, readAtoms_good E _ _ l h2, not_not.1 ht⟩

end Pdffit.C35
