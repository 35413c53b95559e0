import Verif.Lemmas.Stru
import Verif.Model.StruNum

/-!
# C51: old structure files mean the same as their modern form

`same`: a file without `format` line (DISCUS), whose atoms are a label, three coordinates and B, gives the same structure as the file
with the line `format pdffit` and atoms with occupancy one, U11 = U22 = U33 = B/(8π²), other displacement parameters and all deviations
zero. `sharp_new`, `sharp_old`, `sharp_error`: four numbers after `sharp` are delta2, delta1, sratio and rcut, three numbers are delta2, sratio
and rcut with delta1 = 0, and less than three are an error.
-/

namespace Pdffit.C51
open Stru DataRead

variable {α σ : Type}

/-- Numbers one after the other. -/
inductive Numbers (S : Scan α) : List Char → List α → List Char → Prop
  | nil (s : List Char) : Numbers S s [] s
  | cons {s t r : List Char} {x : α} {v : List α} (hx : S.f s = some (x, t)) (hv : Numbers S t v r) : Numbers S s (x :: v) r

theorem numbers_read {S : Scan α} {s r : List Char} {v : List α} (h : Numbers S s v r) : numsN S v.length s = some (v, r) := by
  induction h with
  | nil s => rfl
  | cons hx _ ih => simp [numsN, hx, ih]

/-- The text of atoms: blanks, a label, a blank, numbers (`n` for each atom); blanks at the end. -/
inductive Atoms (E : Env α σ) (n : ℕ) : List Char → List (σ × List α) → Prop
  | nil (b : List Char) (hb : ∀ c ∈ b, isSpace c = true) : Atoms E n b []
  | cons {b lab t r : List Char} {c : Char} {e : σ} {v : List α} {as : List (σ × List α)} (hb : ∀ c ∈ b, isSpace c = true)
      (hl : lab ≠ []) (hs : ∀ c ∈ lab, isSpace c = false) (hc : isSpace c = true) (he : E.look lab = some e) (hn : v.length = n)
      (hv : Numbers E.S (c :: t) v r) (has : Atoms E n r as) : Atoms E n (b ++ (lab ++ c :: t)) ((e, v) :: as)

theorem word_label {b lab t : List Char} {c : Char} (hb : ∀ c ∈ b, isSpace c = true) (hl : lab ≠ [])
    (hs : ∀ c ∈ lab, isSpace c = false) (hc : isSpace c = true) : word (b ++ (lab ++ c :: t)) = (lab, c :: t) := by
  obtain ⟨d, l, rfl⟩ := List.exists_cons_of_ne_nil hl
  have h1 : (b ++ (d :: l ++ c :: t)).dropWhile isSpace = d :: l ++ c :: t := by
    rw [List.dropWhile_append_of_pos hb, List.cons_append, List.dropWhile_cons_of_neg (by simp [hs d (by simp)])]
  have h2 : ∀ x ∈ d :: l, (!isSpace x) = true := fun x hx => by simp [hs x hx]
  unfold word
  rw [h1, List.takeWhile_append_of_pos h2, List.dropWhile_append_of_pos h2, List.takeWhile_cons_of_neg (by simp [hc]),
    List.dropWhile_cons_of_neg (by simp [hc]), List.append_nil]

theorem atoms_read {E : Env α σ} {d : Bool} {s : List Char} {as : List (σ × List α)} (h : Atoms E (if d then 4 else 20) s as) :
    readAtoms E d s = .ok (as.map fun a => (a.1, atomVals E d a.2)) := by
  induction h with
  | nil b hb =>
    rw [readAtoms, dif_pos (blank_word b hb)]
    rfl
  | @cons b lab t r c e v as hb hl hs hc he hn hv _ ih =>
    have hw := word_label (t := t) hb hl hs hc
    have hnum := numbers_read hv
    rw [hn] at hnum
    rw [readAtoms, dif_neg (by rw [hw]; exact hl)]
    split
    · rename_i h0
      rw [hw, hnum] at h0
      cases h0
    · rename_i x h0
      rw [hw, hnum] at h0
      injection h0 with h0
      subst h0
      rw [hw]
      simp only [he, ih, Res.bind_ok]
      rfl

/-- The PDFFIT numbers of a DISCUS atom: pos, occ, dpos, docc, u[0..2], du[0..2], u[3..5], du[3..5]. -/
def expand (E : Env α σ) : List α → List α
  | [x, y, z, B] => [x, y, z, E.one, E.zero, E.zero, E.zero, E.zero, E.ofB B, E.ofB B, E.ofB B, E.zero, E.zero, E.zero, E.zero, E.zero,
      E.zero, E.zero, E.zero, E.zero]
  | v => v

/-- Commands other than `format` leave the format alone. -/
theorem exec_discus {E : Env α σ} {h h' : Hdr α} {c r : List Char} (hc : c ≠ "format".toList) (he : exec E h c r = .ok h') :
    h'.discus = h.discus := by
  have key : ∀ {β : Type} (o : Option β) (f : β → Hdr α), (∀ v, (f v).discus = h.discus) → orErr (o.map f) = .ok h' →
      h'.discus = h.discus := by
    intro β o f hf ho
    cases o with
    | none => simp [orErr] at ho
    | some v =>
      simp only [orErr, Option.map_some, Res.ok.injEq] at ho
      rw [← ho]
      exact hf v
  unfold exec at he
  split_ifs at he
  all_goals first
    | (injection he with he; rw [← he]; done)
    | (refine key _ _ ?_ he; intro v; rfl)
    | (unfold readShape at he
       dsimp only at he
       split_ifs at he
       all_goals (refine key _ _ ?_ he; intro v; rfl))

theorem run_discus {E : Env α σ} (ls : List (List Char)) : ∀ (h h' : Hdr α) (b : List Char), b ≠ "format".toList →
    (∀ l ∈ ls, (word l).1 ≠ "format".toList) → runLines E h b ls = .ok h' → h'.discus = h.discus := by
  induction ls with
  | nil => intro h h' b _ _ hr; injection hr with hr; rw [hr]
  | cons l ls ih =>
    intro h h' b hb hl hr
    simp only [runLines, Res.bind_eq_ok] at hr
    obtain ⟨h2, he, hr⟩ := hr
    have hc : (command b l).1 ≠ "format".toList := by
      unfold command
      split_ifs
      · exact hb
      · exact hl l (by simp)
    rw [ih h2 h' _ hc (fun x hx => hl x (by simp [hx])) hr, exec_discus hc he]

/-- The header of a text that ends with the line "atoms". -/
theorem header_text (E : Env α σ) (pre : List (List Char)) (hp : HdrLines [] pre) (t : List Char) :
    header E (Hdr.init E) [] (.good (unlines (pre ++ ["atoms".toList]) ++ t)) [] =
      runLines E (Hdr.init E) [] pre >>= fun h => .ok (h, .good t) := by
  rw [unlines_append, List.append_assoc, header_lines E pre _ [] _ [] hp]
  congr 1
  funext h
  have : unlines ["atoms".toList] ++ t = "atoms".toList ++ '\n' :: t := by simp [unlines]
  rw [this, header_atoms E h _ "atoms".toList t [] (by decide)]
  unfold command
  rw [if_neg (by decide)]
  decide

theorem read_text (E : Env α σ) (lat : Hdr α → Res Unit) (pre : List (List Char)) (hp : HdrLines [] pre) (d : Bool)
    (hd : ∀ h, runLines E (Hdr.init E) [] pre = .ok h → h.discus = d) (t : List Char) (as : List (σ × List α))
    (ha : Atoms E (if d then 4 else 20) t as) : Stru.read E lat (unlines (pre ++ ["atoms".toList]) ++ t) =
      runLines E (Hdr.init E) [] pre >>= fun h => lat h >>= fun _ =>
        if h.ncell.prod ≠ (as.length : ℤ) then .err .structure else .ok ⟨h, as.map fun a => (a.1, atomVals E d a.2)⟩ := by
  unfold Stru.read
  rw [header_text E pre hp]
  cases hr : runLines E (Hdr.init E) [] pre with
  | err e => rfl
  | ub => rfl
  | ok h =>
    simp only [Res.bind_ok, rest]
    rw [hd h hr, atoms_read ha, Res.bind_ok]
    congr 1
    funext _
    simp [total]

/-- **C51**: a DISCUS file and the PDFFIT file with the expanded atoms give the same outcome, apart from the format itself. -/
theorem same (E : Env α σ) (lat : Hdr α → Res Unit) (hlat : ∀ h, lat { h with discus := false } = lat h) (pre : List (List Char))
    (hp : HdrLines [] pre) (hf : ∀ l ∈ pre, (word l).1 ≠ "format".toList) (s t : List Char) (as : List (σ × List α))
    (hs : Atoms E 4 s as) (ht : Atoms E 20 t (as.map fun a => (a.1, expand E a.2))) :
    Stru.read E lat (unlines (pre ++ ["format pdffit".toList] ++ ["atoms".toList]) ++ t) =
      Stru.read E lat (unlines (pre ++ ["atoms".toList]) ++ s) >>= fun r => .ok { r with hdr := { r.hdr with discus := false } } := by
  have hcmd : ∀ b, command b "format pdffit".toList = ("format".toList, " pdffit".toList) := by
    intro b
    unfold command
    rw [if_neg (by decide)]
    decide
  have hp2 : HdrLines [] (pre ++ ["format pdffit".toList]) := by
    rw [hdrLines_append]
    refine ⟨hp, by decide, by rw [hcmd]; decide, trivial⟩
  have hrun : runLines E (Hdr.init E) [] (pre ++ ["format pdffit".toList]) =
      runLines E (Hdr.init E) [] pre >>= fun h => .ok { h with discus := false } := by
    rw [runLines_append]
    congr 1
  rw [read_text E lat _ hp2 false ?_ t _ ht, read_text E lat pre hp true ?_ s as hs, hrun]
  · cases hr : runLines E (Hdr.init E) [] pre with
    | err e => rfl
    | ub => rfl
    | ok h =>
      simp only [Res.bind_ok, hlat]
      cases lat h with
      | err e => rfl
      | ub => rfl
      | ok _ =>
        simp only [Res.bind_ok, List.length_map, List.map_map]
        split_ifs
        · rfl
        · simp only [Res.bind_ok, Res.ok.injEq, Stru.mk.injEq, true_and]
          refine List.map_congr_left fun a ha => ?_
          have h4 : a.2.length = 4 := by
            clear * - hs ha
            induction hs with
            | nil => simp at ha
            | cons _ _ _ _ _ hn _ _ ih =>
              rcases List.mem_cons.1 ha with rfl | ha
              · exact hn
              · exact ih ha
          obtain ⟨e, v⟩ := a
          match v, h4 with
          | [x, y, z, B], _ => simp [expand, atomVals, List.replicate]
  · intro h hr
    exact (run_discus pre _ h [] (by decide) hf hr).trans rfl
  · intro h hr
    rw [hrun, Res.bind_eq_ok] at hr
    obtain ⟨h0, -, hr⟩ := hr
    injection hr with hr
    rw [← hr]

/-! ### Sharpening -/

/-- Numbers separated by blanks and at most one comma each. -/
inductive Listed (S : Scan α) : List Char → List α → List Char → Prop
  | nil (s : List Char) : Listed S s [] s
  | cons {s t b u r : List Char} {x : α} {v : List α} (hx : S.f s = some (x, t)) (hb : ∀ c ∈ b, isSpace c = true)
      (ht : t = b ∧ u = [] ∨ t = b ++ ',' :: u ∨ t = b ++ u ∧ ∃ c u', u = c :: u' ∧ isSpace c = false ∧ c ≠ ',')
      (hv : Listed S u v r) : Listed S s (x :: v) r

theorem skipDelim_of {t b u : List Char} (hb : ∀ c ∈ b, isSpace c = true)
    (ht : t = b ∧ u = [] ∨ t = b ++ ',' :: u ∨ t = b ++ u ∧ ∃ c u', u = c :: u' ∧ isSpace c = false ∧ c ≠ ',') :
    skipDelim t = u := by
  unfold skipDelim
  rcases ht with ⟨rfl, rfl⟩ | rfl | ⟨rfl, c, u', rfl, h1, h2⟩
  · rw [List.dropWhile_eq_nil_iff.2 hb]
  · rw [List.dropWhile_append_of_pos hb, List.dropWhile_cons_of_neg (by decide)]
    simp
  · rw [List.dropWhile_append_of_pos hb, List.dropWhile_cons_of_neg (by simp [h1])]
    simp [h2]

theorem listed_read {S : Scan α} {s r : List Char} {v : List α} (h : Listed S s v r) : vgets S v.length s = some (v, r) := by
  induction h with
  | nil s => rfl
  | cons hx hb ht _ ih => simp [vgets, vget, hx, skipDelim_of hb ht, ih]

/-- **C51**, new form of the sharpening line. -/
theorem sharp_new (E : Env α σ) (h : Hdr α) (s r : List Char) (d2 d1 sr rc : α) (hs : Listed E.S s [d2, d1, sr, rc] r) :
    exec E h "sharp".toList s = .ok { h with sharp := [d2, d1, sr, rc] } := by
  cases hs with
  | cons hx0 hb0 ht0 hs =>
  cases hs with
  | cons hx1 hb1 ht1 hs =>
  cases hs with
  | cons hx2 hb2 ht2 hs =>
  cases hs with
  | cons hx3 hb3 ht3 hs =>
    have h3 := listed_read (.cons hx0 hb0 ht0 (.cons hx1 hb1 ht1 (.cons hx2 hb2 ht2 (.nil _))))
    change vgets E.S 3 s = _ at h3
    have : exec E h "sharp".toList s = orErr ((readSharp E s).map fun v => { h with sharp := v }) := rfl
    rw [this]
    unfold readSharp
    rw [h3]
    simp [vget, hx3, orErr]

/-- **C51**, old form of the sharpening line. -/
theorem sharp_old (E : Env α σ) (h : Hdr α) (s r : List Char) (d2 sr rc : α) (hs : Listed E.S s [d2, sr, rc] r) (hr : E.S.f r = none) :
    exec E h "sharp".toList s = .ok { h with sharp := [d2, E.zero, sr, rc] } := by
  have h3 := listed_read hs
  change vgets E.S 3 s = _ at h3
  have : exec E h "sharp".toList s = orErr ((readSharp E s).map fun v => { h with sharp := v }) := rfl
  rw [this]
  unfold readSharp
  rw [h3]
  simp [vget, hr, orErr]

/-- Less than three numbers are an error. -/
theorem sharp_error (E : Env α σ) (h : Hdr α) (s r : List Char) (v : List α) (hv : v.length < 3) (hs : Listed E.S s v r)
    (hr : E.S.f r = none) : exec E h "sharp".toList s = .err .structure := by
  have key : ∀ (s : List Char) (v : List α) (r : List Char), Listed E.S s v r → E.S.f r = none → ∀ n, v.length < n →
      vgets E.S n s = none := by
    intro s v r hs hr
    induction hs with
    | nil s =>
      intro n hn
      obtain ⟨n, rfl⟩ := Nat.exists_eq_add_one.2 (Nat.lt_of_le_of_lt (Nat.zero_le _) hn)
      simp [vgets, vget, hr]
    | cons hx hb ht _ ih =>
      intro n hn
      obtain ⟨n, rfl⟩ := Nat.exists_eq_add_one.2 (Nat.lt_of_le_of_lt (Nat.zero_le _) hn)
      simp only [vgets, vget, hx, Option.map_some, Option.bind_some, skipDelim_of hb ht]
      rw [ih hr n (by simpa using hn)]
      rfl
  have : exec E h "sharp".toList s = orErr ((readSharp E s).map fun v => { h with sharp := v }) := rfl
  rw [this]
  unfold readSharp
  rw [key s v r hs hr 3 hv]
  rfl

/-! ### Examples -/

/-- Numbers as in `StruNum`, one label. -/
def toy : Env Num Unit where
  S := scanNumS
  I := scanIntS
  fix := fixNum
  int := intStr
  look := fun s => if s = "Ni".toList then some () else none
  symb := fun _ => "Ni".toList
  zero := ⟨false, 0⟩
  one := ⟨false, 1⟩
  ofB := fun x => ⟨x.neg, x.mag / 79⟩
  pos := fun x => !x.neg && decide (0 < x.mag)

theorem toy_atoms : Atoms toy 4 " Ni 0.5 0 0 -7.9\n".toList [((), [⟨false, 1 / 2⟩, ⟨false, 0⟩, ⟨false, 0⟩, ⟨true, 79 / 10⟩])] := by
  have e : " Ni 0.5 0 0 -7.9\n".toList = [' '] ++ ("Ni".toList ++ ' ' :: "0.5 0 0 -7.9\n".toList) := by decide
  rw [e]
  refine .cons (by decide) (by decide) (by decide) (by decide) (by decide) rfl (r := ['\n']) ?_ (.nil _ (by decide))
  refine .cons (t := " 0 0 -7.9\n".toList) (by decide +kernel) (.cons (t := " 0 -7.9\n".toList) (by decide +kernel)
    (.cons (t := " -7.9\n".toList) (by decide +kernel) (.cons (t := "\n".toList) (by decide +kernel) (.nil _))))

/-- A DISCUS atom with B = -7.9. -/
example : readAtoms toy true " Ni 0.5 0 0 -7.9\n".toList = .ok [((), [⟨false, 1 / 2⟩, ⟨false, 0⟩, ⟨false, 0⟩, ⟨false, 1⟩,
    ⟨false, 0⟩, ⟨false, 0⟩, ⟨false, 0⟩, ⟨false, 0⟩, ⟨true, 1 / 10⟩, ⟨true, 1 / 10⟩, ⟨true, 1 / 10⟩,
    ⟨false, 0⟩, ⟨false, 0⟩, ⟨false, 0⟩, ⟨false, 0⟩, ⟨false, 0⟩, ⟨false, 0⟩, ⟨false, 0⟩, ⟨false, 0⟩, ⟨false, 0⟩])] := by
  rw [atoms_read (d := true) toy_atoms]
  decide +kernel

/-- The PDFFIT text of the same atom. -/
theorem toy_expanded : Atoms toy 20 "Ni 0.5 0 0 1 0 0 0 0 -0.1 -0.1 -0.1 0 0 0 0 0 0 0 0 0".toList
    ([((), [⟨false, 1 / 2⟩, ⟨false, 0⟩, ⟨false, 0⟩, ⟨true, 79 / 10⟩])].map fun a => (a.1, expand toy a.2)) := by
  have e : "Ni 0.5 0 0 1 0 0 0 0 -0.1 -0.1 -0.1 0 0 0 0 0 0 0 0 0".toList =
      [] ++ ("Ni".toList ++ ' ' :: "0.5 0 0 1 0 0 0 0 -0.1 -0.1 -0.1 0 0 0 0 0 0 0 0 0".toList) := by decide
  rw [e]
  refine .cons (by decide) (by decide) (by decide) (by decide) (by decide) rfl (r := []) ?_ (.nil _ (by decide))
  have num : ∀ (n : ℕ) (s : List Char) (v : List Num) (r : List Char), numsN scanNumS n s = some (v, r) → Numbers toy.S s v r := by
    intro n
    induction n with
    | zero => intro s v r h; injection h with h; injection h with h1 h2; subst h1 h2; exact .nil _
    | succ n ih =>
      intro s v r h
      simp only [numsN, Option.bind_eq_some_iff, Option.map_eq_some_iff, Prod.mk.injEq] at h
      obtain ⟨a, h1, b, h2, rfl, rfl⟩ := h
      exact .cons h1 (ih _ _ _ h2)
  exact num 20 _ _ _ (by decide +kernel)

/-- The two files of `same`. -/
example : ∃ r, Stru.read toy (fun _ => .ok ()) "ncell 1 1 1 1\nsharp 2, 3, 4\natoms\n Ni 0.5 0 0 -7.9\n".toList = .ok r ∧
    r.hdr.sharp = [⟨false, 2⟩, ⟨false, 0⟩, ⟨false, 3⟩, ⟨false, 4⟩] ∧
    Stru.read toy (fun _ => .ok ())
      "ncell 1 1 1 1\nsharp 2, 3, 4\nformat pdffit\natoms\nNi 0.5 0 0 1 0 0 0 0 -0.1 -0.1 -0.1 0 0 0 0 0 0 0 0 0".toList =
      .ok { r with hdr := { r.hdr with discus := false } } := by
  have hp : HdrLines [] ["ncell 1 1 1 1".toList, "sharp 2, 3, 4".toList] := ⟨by decide, by decide, by decide, by decide, trivial⟩
  have h := same toy (fun _ => .ok ()) (fun _ => rfl) ["ncell 1 1 1 1".toList, "sharp 2, 3, 4".toList] hp (by decide) _ _ _
    toy_atoms toy_expanded
  have e1 : "ncell 1 1 1 1\nsharp 2, 3, 4\natoms\n Ni 0.5 0 0 -7.9\n".toList =
    unlines (["ncell 1 1 1 1".toList, "sharp 2, 3, 4".toList] ++ ["atoms".toList]) ++ " Ni 0.5 0 0 -7.9\n".toList := by decide
  have e2 : "ncell 1 1 1 1\nsharp 2, 3, 4\nformat pdffit\natoms\nNi 0.5 0 0 1 0 0 0 0 -0.1 -0.1 -0.1 0 0 0 0 0 0 0 0 0".toList =
    unlines (["ncell 1 1 1 1".toList, "sharp 2, 3, 4".toList] ++ ["format pdffit".toList] ++ ["atoms".toList]) ++
      "Ni 0.5 0 0 1 0 0 0 0 -0.1 -0.1 -0.1 0 0 0 0 0 0 0 0 0".toList := by decide
  have hr : ∃ h1, runLines toy (Hdr.init toy) [] ["ncell 1 1 1 1".toList, "sharp 2, 3, 4".toList] = .ok h1 ∧ h1.ncell = [1, 1, 1, 1] ∧
      h1.sharp = [⟨false, 2⟩, ⟨false, 0⟩, ⟨false, 3⟩, ⟨false, 4⟩] := by
    refine ⟨_, rfl, ?_, ?_⟩ <;> decide +kernel
  obtain ⟨h1, hr, hnc, hsh⟩ := hr
  have h0 := read_text toy (fun _ => .ok ()) _ hp true (fun h hh => (run_discus _ _ h [] (by decide) (by decide) hh).trans rfl) _ _ toy_atoms
  rw [hr, Res.bind_ok, Res.bind_ok, hnc, if_neg (by decide)] at h0
  refine ⟨_, by rw [e1]; exact h0, hsh, ?_⟩
  rw [e2, h, h0]
  rfl

/-- Old and new form of the sharpening line. -/
example (h : Hdr Num) : exec toy h "sharp".toList " 1.5, 0.5 3".toList = .ok { h with sharp := [⟨false, 3 / 2⟩, ⟨false, 0⟩, ⟨false, 1 / 2⟩, ⟨false, 3⟩] } ∧
    exec toy h "sharp".toList "1,2,3,4".toList = .ok { h with sharp := [⟨false, 1⟩, ⟨false, 2⟩, ⟨false, 3⟩, ⟨false, 4⟩] } ∧
    exec toy h "sharp".toList "1 2".toList = .err .structure := by
  refine ⟨sharp_old toy h _ [] _ _ _ ?_ (by decide +kernel), sharp_new toy h _ [] _ _ _ _ ?_,
    sharp_error toy h _ [] [⟨false, 1⟩, ⟨false, 2⟩] (by decide) ?_ (by decide +kernel)⟩
  · exact .cons (t := ", 0.5 3".toList) (b := []) (u := " 0.5 3".toList) (by decide +kernel) (by decide) (.inr (.inl (by decide)))
      (.cons (t := " 3".toList) (b := [' ']) (u := ['3']) (by decide +kernel) (by decide) (.inr (.inr ⟨by decide, '3', [], by decide, by decide, by decide⟩))
      (.cons (t := []) (b := []) (u := []) (by decide +kernel) (by decide) (.inl ⟨rfl, rfl⟩) (.nil _)))
  · exact .cons (t := ",2,3,4".toList) (b := []) (u := "2,3,4".toList) (by decide +kernel) (by decide) (.inr (.inl (by decide)))
      (.cons (t := ",3,4".toList) (b := []) (u := "3,4".toList) (by decide +kernel) (by decide) (.inr (.inl (by decide)))
      (.cons (t := ",4".toList) (b := []) (u := "4".toList) (by decide +kernel) (by decide) (.inr (.inl (by decide)))
      (.cons (t := []) (b := []) (u := []) (by decide +kernel) (by decide) (.inl ⟨rfl, rfl⟩) (.nil _))))
  · exact .cons (t := " 2".toList) (b := [' ']) (u := "2".toList) (by decide +kernel) (by decide) (.inr (.inr ⟨by decide, '2', [], by decide, by decide, by decide⟩))
      (.cons (t := []) (b := []) (u := []) (by decide +kernel) (by decide) (.inl ⟨rfl, rfl⟩) (.nil _))

end Pdffit.C51
