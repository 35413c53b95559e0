import Verif.Lemmas.ReportText
import Verif.Props.C38
import Mathlib.Tactic.FinCases

/-!
# C64  A results report can be read back

* `value_read`: a printed number is a decimal number that differs from the value by at most half a unit of the last of `p` digits, with the same sign.
* `value_std_read`: a value printed with its standard deviation is read as the value (6 digits) and the standard deviation (2 digits), which is there exactly if
  it is larger than `1e-8` of the value, or not a number.
* `value_std_read_py`: the same for `_format_value_std` of `pdffit.py`, with 6 digits for both.
* `phase_read_partial`: the section of a phase (`Phase::output`) is read back with all values, standard deviations and atoms.
* `diameter_shown`, `stepcut_shown`, `corr_shown`, `off_shown`: which of the optional values are there; `symbol_found`: the symbols identify the elements.
* `pars_read`: the list of the parameters is read back.

Violations:

* `coarser`: the value is printed with 6 digits also if its standard deviation is smaller than the last of them; then the printed value differs from
  the value by many printed standard deviations.
* `deviation_lost`: standard deviations of the off-diagonal displacement parameters are not printed if the three values are zero.
-/

namespace Pdffit.C64
open RText Stru
open DataRead (isSpace)

/-- A printed number, followed by something that does not continue it, is a decimal number close to the value. -/
theorem value_read {p : ℕ} (hp : 0 < p) (x : Num) (hx : 0 ≤ x.mag) (t : List Char) (ht : Stop t) :
    ∃ y : Num, scanG (text p (.num x) ++ t) = some (y, t) ∧ y.neg = x.neg ∧ |y.mag - x.mag| ≤ x.mag * 10 ^ (1 - p : ℤ) / 2 := by
  refine ⟨rndG p x, ?_, rfl, gVal_rel hp hx⟩
  exact scanG_text hp x hx [] t (by simp) ht

/-- The printed value and the printed standard deviation. -/
def vs (x dx : Val) : Val × Option Val := (rnd 6 x, seen 2 x dx)

/-- A value with standard deviation. -/
theorem value_std_read (lead : Bool) (n : ℕ) (x dx : Val) (hx : Ok x) (hd : Ok dx) (t : List Char) (ht : After t) :
    ∃ w : List Char, (∀ c ∈ w, c = ' ') ∧ readCell (cell lead n x dx ++ t) = some (vs x dx, w ++ t) := by
  obtain ⟨k, hk⟩ := cell_form lead n x dx
  refine ⟨List.replicate k ' ', fun c hc => List.eq_of_mem_replicate hc, ?_⟩
  have := readCell_text (p := 6) (q := 2) (by norm_num) (by norm_num) x dx hx hd (if lead then [' '] else []) (List.replicate k ' ' ++ t)
    (by cases lead <;> decide) (after_blanks ht k)
  rw [hk]
  simpa [List.append_assoc, vs] using this

/-- The same for bond lengths and angles printed by `pdffit.py`, where also the standard deviation has 6 digits. -/
theorem value_std_read_py (x dx : Val) (hx : Ok x) (hd : Ok dx) (t : List Char) (ht : After t) :
    readCell (pyCell x dx ++ t) = some ((rnd 6 x, seen 6 x dx), t) := by
  have := readCell_text (p := 6) (q := 6) (by norm_num) (by norm_num) x dx hx hd [] t (by simp) ht
  simpa [pyCell, List.append_assoc] using this

/-- The standard deviation is printed if it is larger than `1e-8` of the value. -/
theorem std_shown (x d : Num) (hx : 0 ≤ x.mag) (hd : 0 ≤ d.mag) :
    (vs (.num x) (.num d)).2 = none ↔ (if d.neg then -d.mag else d.mag) ≤ x.mag / 10 ^ 8 := by
  have h8 : 0 ≤ x.mag / 10 ^ 8 := by positivity
  cases hn : d.neg with
  | true =>
    have : -d.mag ≤ x.mag / 10 ^ 8 := by linarith
    simp [vs, seen, shows, isNan, hn, this]
  | false => simp [vs, seen, shows, isNan, hn]

/-! ## Section of a phase -/

def atomS (a : AtomR) : AtomS where
  symb := upper a.symb
  pos := [vs (a.pos 0) (a.dpos 0), vs (a.pos 1) (a.dpos 1), vs (a.pos 2) (a.dpos 2), vs a.occ a.docc]
  u := [vs (a.u 0) (a.du 0), vs (a.u 1) (a.du 1), vs (a.u 2) (a.du 2)]
  v := if off a then some [vs (a.u 3) (a.du 3), vs (a.u 4) (a.du 4), vs (a.u 5) (a.du 5)] else none

/-- All values to 6 digits, all standard deviations to 2 digits. -/
def summary (p : PhaseR) : PhaseS where
  iphase := p.iphase
  name := p.name
  pscale := vs p.pscale p.dpscale
  spdiameter := if nonpos p.spdiameter then none else some (vs p.spdiameter p.dspdiameter)
  stepcut := if nonpos p.stepcut then none else some (vs p.stepcut zero)
  corrMax := if RText.pos p.corrMax then some (rnd 6 p.corrMax) else none
  delta2 := vs p.delta2 p.ddelta2
  delta1 := vs p.delta1 p.ddelta1
  sratio := vs p.sratio p.dsratio
  rcut := vs p.rcut zero
  a0 := [vs (p.a0 0) (p.da0 0), vs (p.a0 1) (p.da0 1), vs (p.a0 2) (p.da0 2)]
  win := [vs (p.win 0) (p.dwin 0), vs (p.win 1) (p.dwin 1), vs (p.win 2) (p.dwin 2)]
  atoms := p.atoms.map atomS

structure OkAtom (a : AtomR) : Prop where
  symb : ∃ e : Entry, a.symb = symbStr e
  pos : ∀ i, Ok (a.pos i) ∧ Ok (a.dpos i)
  occ : Ok a.occ ∧ Ok a.docc
  u : ∀ i, Ok (a.u i) ∧ Ok (a.du i)

structure OkPhase (p : PhaseR) : Prop where
  name : '\n' ∉ p.name
  pscale : Ok p.pscale ∧ Ok p.dpscale
  spdiameter : Ok p.spdiameter ∧ Ok p.dspdiameter
  stepcut : Ok p.stepcut
  corrMax : Ok p.corrMax
  delta2 : Ok p.delta2 ∧ Ok p.ddelta2
  delta1 : Ok p.delta1 ∧ Ok p.ddelta1
  sratio : Ok p.sratio ∧ Ok p.dsratio
  rcut : Ok p.rcut
  a0 : ∀ i, Ok (p.a0 i) ∧ Ok (p.da0 i)
  win : ∀ i, Ok (p.win i) ∧ Ok (p.dwin i)
  atoms : ∀ a ∈ p.atoms, OkAtom a

theorem upper_ascii : ∀ c < 127, 33 ≤ c → isSpace (Char.ofNat c).toUpper = false := by decide

theorem symb_ok (e : Entry) : upper (symbStr e) ≠ [] ∧ ∀ c ∈ upper (symbStr e), isSpace c = false := by
  have h := symbols_ascii e.1.symbol (List.mem_map_of_mem e.2)
  constructor
  · simpa [upper, symbStr] using h.1
  · intro c hc
    simp only [upper, symbStr, List.map_map, List.mem_map, Function.comp] at hc
    obtain ⟨n, hn, rfl⟩ := hc
    exact upper_ascii n (h.2 n hn).2 (h.2 n hn).1

theorem ok_zero : Ok RText.zero := le_rfl

/-- The symbol and the columns of an atom. -/
theorem readAtom_text (s : List Char) (hs : s ≠ [] ∧ ∀ c ∈ s, isSpace c = false) (l : List (ℕ × Val × Val)) (hne : l ≠ [])
    (hl : ∀ c ∈ l, Ok c.2.1 ∧ Ok c.2.2) :
    readAtom l.length ("   ".toList ++ padr 4 s ++ cellsText l) = some (s, l.map fun c => vs c.2.1 c.2.2) := by
  have hb : ∀ c ∈ List.replicate (4 - s.length) ' ', isSpace c = true := by
    intro c hc; rw [List.eq_of_mem_replicate hc]; decide
  have e : ("   ".toList ++ padr 4 s ++ cellsText l).drop 3 = s ++ (List.replicate (4 - s.length) ' ' ++ cellsText l) := by
    simp [padr, List.append_assoc]
  have hhead : ∃ t, List.replicate (4 - s.length) ' ' ++ cellsText l = ' ' :: t := by
    cases h : 4 - s.length with
    | zero =>
      obtain ⟨c, l', rfl⟩ := List.exists_cons_of_ne_nil hne
      obtain ⟨k, hk⟩ := cell_form true c.1 c.2.1 c.2.2
      simp only [cellsText, List.flatMap_cons, hk]
      exact ⟨_, rfl⟩
    | succ n => exact ⟨_, rfl⟩
  obtain ⟨t, ht⟩ := hhead
  have h1 : (s ++ (List.replicate (4 - s.length) ' ' ++ cellsText l)).takeWhile (fun c => !isSpace c) = s ∧
      (s ++ (List.replicate (4 - s.length) ' ' ++ cellsText l)).dropWhile (fun c => !isSpace c) =
        List.replicate (4 - s.length) ' ' ++ cellsText l := by
    have h2 : ∀ c ∈ s, (!isSpace c) = true := fun c hc => by rw [hs.2 c hc]; rfl
    rw [List.takeWhile_append_of_pos h2, List.dropWhile_append_of_pos h2, ht]
    have h3 : isSpace ' ' = true := by decide
    simp [h3]
  obtain ⟨w', -, h2⟩ := readCells_text l hl [] after_nil (List.replicate (4 - s.length) ' ') hb
  rw [List.append_nil] at h2
  unfold readAtom
  rw [e, h1.1, h1.2, h2]
  rfl

theorem three_cells (x dx : Fin 3 → Val) : three x dx = cellsText [(20, x 0, dx 0), (20, x 1, dx 1), (0, x 2, dx 2)] := by
  simp [three, cellsText, List.append_assoc]

theorem readThree (x dx : Fin 3 → Val) (h : ∀ i, Ok (x i) ∧ Ok (dx i)) (w : List Char) (hw : ∀ c ∈ w, isSpace c = true) :
    ∃ t, readCells 3 (w ++ three x dx) = some ([vs (x 0) (dx 0), vs (x 1) (dx 1), vs (x 2) (dx 2)], t) := by
  obtain ⟨w', -, h2⟩ := readCells_text [(20, x 0, dx 0), (20, x 1, dx 1), (0, x 2, dx 2)]
    (by intro c hc; simp only [List.mem_cons, List.not_mem_nil, or_false] at hc; rcases hc with rfl | rfl | rfl <;> exact h _)
    [] after_nil w hw
  rw [List.append_nil, ← three_cells] at h2
  exact ⟨_, h2⟩

theorem readPos_lines (l : List AtomR) (h : ∀ a ∈ l, OkAtom a) (t : List (List Char)) :
    readPos (l.map posLine ++ [] :: t) = some (l.map fun a => ((atomS a).symb, (atomS a).pos), t) := by
  induction l with
  | nil => rfl
  | cons a l ih =>
    have ha := h a (by simp)
    obtain ⟨e, he⟩ := ha.symb
    have h1 := readAtom_text (upper a.symb) (by rw [he]; exact symb_ok e)
      [(20, a.pos 0, a.dpos 0), (20, a.pos 1, a.dpos 1), (20, a.pos 2, a.dpos 2), (0, a.occ, a.docc)] (by simp)
      (by intro c hc; simp only [List.mem_cons, List.not_mem_nil, or_false] at hc
          rcases hc with rfl | rfl | rfl | rfl
          · exact ha.pos 0
          · exact ha.pos 1
          · exact ha.pos 2
          · exact ha.occ)
    have h2 : posLine a = "   ".toList ++ padr 4 (upper a.symb) ++
        cellsText [(20, a.pos 0, a.dpos 0), (20, a.pos 1, a.dpos 1), (20, a.pos 2, a.dpos 2), (0, a.occ, a.docc)] := by
      simp [posLine, cellsText, List.append_assoc]
    rw [List.map_cons, List.cons_append, readPos, if_neg (by rw [h2]; simp), h2]
    have h3 : readAtom 4 ("   ".toList ++ padr 4 (upper a.symb) ++
        cellsText [(20, a.pos 0, a.dpos 0), (20, a.pos 1, a.dpos 1), (20, a.pos 2, a.dpos 2), (0, a.occ, a.docc)]) =
        some (upper a.symb, (atomS a).pos) := h1
    rw [h3, ih fun b hb => h b (by simp [hb])]
    rfl

/-- The first line of an atom is not taken for a second one. -/
theorem not_off (s : List Char) (hs : s ≠ [] ∧ ∀ c ∈ s, isSpace c = false) (t : List Char) :
    isOff ("   ".toList ++ padr 4 s ++ t) = false := by
  obtain ⟨c, l, rfl⟩ := List.exists_cons_of_ne_nil hs.1
  have hc : c ≠ ' ' := by
    intro e
    have := hs.2 c (by simp)
    rw [e] at this
    exact absurd this (by decide)
  simp [isOff, padr, hc]

theorem readU_lines (l : List AtomR) (h : ∀ a ∈ l, OkAtom a) :
    readU (l.flatMap uLines) = some (l.map fun a => ((atomS a).u, (atomS a).v)) := by
  induction l with
  | nil => simp [readU]
  | cons a l ih =>
    have ih := ih fun b hb => h b (by simp [hb])
    have ha := h a (by simp)
    obtain ⟨e, he⟩ := ha.symb
    have hs := symb_ok e
    rw [← he] at hs
    have h1 := readAtom_text (upper a.symb) hs
      [(20, a.u 0, a.du 0), (20, a.u 1, a.du 1), (0, a.u 2, a.du 2)] (by simp)
      (by intro c hc; simp only [List.mem_cons, List.not_mem_nil, or_false] at hc
          rcases hc with rfl | rfl | rfl <;> exact ha.u _)
    have h2 : "   ".toList ++ padr 4 (upper a.symb) ++ three (fun i => a.u (Fin.castLE (by norm_num) i)) (fun i => a.du (Fin.castLE (by norm_num) i)) =
        "   ".toList ++ padr 4 (upper a.symb) ++ cellsText [(20, a.u 0, a.du 0), (20, a.u 1, a.du 1), (0, a.u 2, a.du 2)] := by
      rw [three_cells]
      rfl
    have h3 : readAtom 3 ("   ".toList ++ padr 4 (upper a.symb) ++ three (fun i => a.u (Fin.castLE (by norm_num) i))
        (fun i => a.du (Fin.castLE (by norm_num) i))) = some (upper a.symb, (atomS a).u) := by
      rw [h2]; exact h1
    have hu : uLines a = ("   ".toList ++ padr 4 (upper a.symb) ++ three (fun i => a.u (Fin.castLE (by norm_num) i))
        (fun i => a.du (Fin.castLE (by norm_num) i))) ::
        if off a then ["       ".toList ++ three ![a.u 3, a.u 4, a.u 5] ![a.du 3, a.du 4, a.du 5]] else [] := rfl
    rw [List.flatMap_cons, hu]
    by_cases ho : off a = true
    · rw [if_pos ho]
      obtain ⟨t, h4⟩ := readThree ![a.u 3, a.u 4, a.u 5] ![a.du 3, a.du 4, a.du 5]
        (by intro i; fin_cases i <;> exact ha.u _) "       ".toList (by decide)
      rw [List.cons_append, List.cons_append, List.nil_append, readU, h3]
      have h5 : isOff ("       ".toList ++ three ![a.u 3, a.u 4, a.u 5] ![a.du 3, a.du 4, a.du 5]) = true := by simp [isOff]
      simp only [Option.bind_eq_bind, Option.bind_some, h5, if_true, h4, ih]
      simp [atomS, ho]
    · rw [if_neg ho]
      have hv : (atomS a).v = none := by simp [atomS, ho]
      cases l with
      | nil =>
        simp only [List.flatMap_nil, List.append_nil, readU, h3]
        simp [hv]
      | cons b l =>
        obtain ⟨eb, heb⟩ := (h b (by simp)).symb
        have hsb := symb_ok eb
        rw [← heb] at hsb
        obtain ⟨m, ls, hm⟩ : ∃ m ls, (b :: l).flatMap uLines = m :: ls ∧ isOff m = false :=
          ⟨_, _, rfl, not_off _ hsb _⟩
        rw [hm.1] at ih ⊢
        rw [List.cons_append, List.nil_append, readU, h3]
        simp only [Option.bind_eq_bind, Option.bind_some, hm.2, ih]
        simp [hv]

theorem line_nl (p : PhaseR) (h : OkPhase p) : ∀ x ∈ phaseLines p, '\n' ∉ x := by
  have hsym : ∀ a ∈ p.atoms, '\n' ∉ padr 4 (upper a.symb) := by
    intro a ha hc
    obtain ⟨e, he⟩ := (h.atoms a ha).symb
    rw [he] at hc
    rcases List.mem_append.1 hc with hc | hc
    · have := (symb_ok e).2 _ hc
      exact absurd this (by decide)
    · exact absurd (List.eq_of_mem_replicate hc) (by decide)
  have h3 : ∀ x dx, '\n' ∉ three x dx := fun x dx => by rw [three_cells]; exact cells_nl _
  have ap : ∀ x dx, '\n' ∉ applied x dx := by
    intro x dx
    unfold applied
    split_ifs
    · decide
    · rw [List.mem_append, not_or]
      exact ⟨cell_nl _ _ _ _, by decide⟩
  have app : ∀ {a b : List Char}, '\n' ∉ a → '\n' ∉ b → '\n' ∉ a ++ b := by
    intro a b ha hb hc
    rcases List.mem_append.1 hc with hc | hc
    · exact ha hc
    · exact hb hc
  intro x hx
  unfold phaseLines at hx
  simp only [List.mem_append, List.mem_cons, List.not_mem_nil, or_false] at hx
  rcases hx with ((((hx | hx) | hx) | hx) | hx) | hx
  · rcases hx with rfl | rfl | rfl | rfl | rfl | rfl
    · decide
    · exact app (app (app (by decide) (dig_nl (natStr_dig _))) (by decide)) h.name
    · decide
    · exact app (by decide) (cell_nl _ _ _ _)
    · exact app (by decide) (ap _ _)
    · exact app (by decide) (ap _ _)
  · split_ifs at hx
    · rw [List.mem_singleton] at hx
      rw [hx]
      exact app (by decide) (text_nl _ _)
    · simp at hx
  · rcases hx with rfl | rfl | rfl | rfl | rfl | rfl | rfl | rfl
    · exact app (by decide) (cell_nl _ _ _ _)
    · exact app (by decide) (cell_nl _ _ _ _)
    · exact app (by decide) (cell_nl _ _ _ _)
    · exact app (by decide) (cell_nl _ _ _ _)
    · exact app (by decide) (h3 _ _)
    · exact app (by decide) (h3 _ _)
    · simp
    · decide
  · obtain ⟨a, ha, rfl⟩ := List.mem_map.1 hx
    unfold posLine
    exact app (app (app (app (app (by decide) (hsym a ha)) (cell_nl _ _ _ _)) (cell_nl _ _ _ _)) (cell_nl _ _ _ _)) (cell_nl _ _ _ _)
  · rcases hx with rfl | rfl
    · simp
    · decide
  · obtain ⟨a, ha, hx⟩ := List.mem_flatMap.1 hx
    unfold uLines at hx
    rw [List.mem_cons] at hx
    rcases hx with rfl | hx
    · exact app (app (by decide) (hsym a ha)) (h3 _ _)
    · split_ifs at hx
      · rw [List.mem_singleton] at hx
        rw [hx]
        exact app (by decide) (h3 _ _)
      · simp at hx

/-- A value without blank in front of it and nothing behind it. -/
theorem readField (x dx : Val) (hx : Ok x) (hd : Ok dx) (t : List Char) (ht : After t) :
    ∃ r, readCell (cell false 0 x dx ++ t) = some (vs x dx, r) := by
  obtain ⟨w, -, h⟩ := value_std_read false 0 x dx hx hd t ht
  exact ⟨_, h⟩

theorem readApplied_text (label : List Char) (hl : label.length = 26) (x dx : Val) (hx : Ok x) (hd : Ok dx) :
    readApplied (label ++ applied x dx) = some (if nonpos x then none else some (vs x dx)) := by
  have hf : field (label ++ applied x dx) = applied x dx := by
    unfold field
    rw [← hl, List.drop_left]
  unfold readApplied
  rw [hf]
  unfold applied
  by_cases h : nonpos x = true
  · simp [h]
  · simp only [h, Bool.false_eq_true, if_false]
    obtain ⟨r, hr⟩ := readField x dx hx hd " A".toList (by
      refine ⟨stop_blank _, by decide, by decide⟩)
    rw [if_neg, hr]
    · rfl
    · intro e
      obtain ⟨k, hk⟩ := cell_form false 0 x dx
      rw [hk] at e
      have hlast := congrArg List.getLast? e
      rw [List.getLast?_append] at hlast
      simp at hlast

theorem field_label (label : List Char) (hl : label.length = 26) (t : List Char) : field (label ++ t) = t := by
  unfold field
  rw [← hl, List.drop_left]

/-- (partial) The section of a phase is read back: every value with 6 digits, every standard deviation with 2 digits if it is printed, all atoms. -/
theorem phase_read_partial (p : PhaseR) (h : OkPhase p) : readPhase (phaseText p) = some (summary p) := by
  have hl := lines_unlines (phaseLines p) (line_nl p h)
  have rest : ∀ c, readRest c ([" Quad. corr. factor     : ".toList ++ cell false 0 p.delta2 p.ddelta2,
    " Lin. corr. factor      : ".toList ++ cell false 0 p.delta1 p.ddelta1,
    " Low r sigma ratio      : ".toList ++ cell false 0 p.sratio p.dsratio,
    " R cutoff [A]           : ".toList ++ cell false 0 p.rcut RText.zero,
    " Lattice parameters     :".toList ++ three p.a0 p.da0,
    "           & angles     :".toList ++ three p.win p.dwin, [],
    " Atom positions & occupancies :".toList] ++ (p.atoms.map posLine ++
      ([[], " Anisotropic temperature factors :".toList] ++ p.atoms.flatMap uLines))) =
      some fun s => { s with corrMax := c, delta2 := (summary p).delta2, delta1 := (summary p).delta1, sratio := (summary p).sratio,
                             rcut := (summary p).rcut, a0 := (summary p).a0, win := (summary p).win, atoms := (summary p).atoms } := by
    intro c
    obtain ⟨t1, e1⟩ := readField p.delta2 p.ddelta2 h.delta2.1 h.delta2.2 [] after_nil
    obtain ⟨t2, e2⟩ := readField p.delta1 p.ddelta1 h.delta1.1 h.delta1.2 [] after_nil
    obtain ⟨t3, e3⟩ := readField p.sratio p.dsratio h.sratio.1 h.sratio.2 [] after_nil
    obtain ⟨t4, e4⟩ := readField p.rcut RText.zero h.rcut ok_zero [] after_nil
    obtain ⟨t5, e5⟩ := readThree p.a0 p.da0 h.a0 [] (by simp)
    obtain ⟨t6, e6⟩ := readThree p.win p.dwin h.win [] (by simp)
    rw [List.append_nil] at e1 e2 e3 e4
    rw [List.nil_append] at e5 e6
    have e7 := readPos_lines p.atoms h.atoms (" Anisotropic temperature factors :".toList :: p.atoms.flatMap uLines)
    have e8 := readU_lines p.atoms h.atoms
    unfold readRest
    simp only [List.cons_append, List.nil_append]
    rw [field_label _ rfl, field_label _ rfl, field_label _ rfl, field_label _ rfl, e1, e2, e3, e4,
      show (" Lattice parameters     :".toList ++ three p.a0 p.da0).drop 25 = three p.a0 p.da0 from rfl,
      show ("           & angles     :".toList ++ three p.win p.dwin).drop 25 = three p.win p.dwin from rfl, e5, e6, e7]
    simp only [Option.bind_eq_bind, Option.bind_some, List.drop_succ_cons, List.drop_zero, e8]
    congr 1
    funext s
    have : List.zipWith (fun (p : List Char × List (Val × Option Val)) (u : List (Val × Option Val) × Option (List (Val × Option Val))) =>
        (⟨p.1, p.2, u.1, u.2⟩ : AtomS)) (p.atoms.map fun a => ((atomS a).symb, (atomS a).pos)) (p.atoms.map fun a => ((atomS a).u, (atomS a).v)) =
        p.atoms.map atomS := by
      rw [List.zipWith_map, List.zipWith_self]
    rw [this]
    rfl
  have hn : scanInt (natStr p.iphase ++ (" : ".toList ++ p.name)) = some ((p.iphase : ℤ), " : ".toList ++ p.name) := by
    have := scanInt_str (p.iphase : ℤ) [] (" : ".toList ++ p.name) (by simp) (by
      intro c hc
      simp at hc
      rw [← hc]
      exact Or.inl (by decide))
    have e : intStr (p.iphase : ℤ) = natStr p.iphase := by
      unfold intStr sign
      rw [if_neg (by simp)]
      rfl
    rwa [e, List.nil_append] at this
  obtain ⟨t1, e1⟩ := readField p.pscale p.dpscale h.pscale.1 h.pscale.2 [] after_nil
  rw [List.append_nil] at e1
  have e2 := readApplied_text "   Particle diameter    : ".toList rfl p.spdiameter p.dspdiameter h.spdiameter.1 h.spdiameter.2
  have e3 := readApplied_text "   Step cutoff          : ".toList rfl p.stepcut RText.zero h.stepcut ok_zero
  unfold readPhase phaseText
  rw [hl]
  by_cases hc : RText.pos p.corrMax = true
  · have e4 := readVal_text (p := 6) (by norm_num) p.corrMax h.corrMax [] [] (by simp) after_nil.1
    rw [List.nil_append, List.append_nil] at e4
    have e : phaseLines p = rule :: (" PHASE ".toList ++ natStr p.iphase ++ " : ".toList ++ p.name) :: rule ::
        (" Scale factor           : ".toList ++ cell false 0 p.pscale p.dpscale) ::
        ("   Particle diameter    : ".toList ++ applied p.spdiameter p.dspdiameter) ::
        ("   Step cutoff          : ".toList ++ applied p.stepcut RText.zero) ::
        (" Correlation limit [A]  : ".toList ++ text 6 p.corrMax) ::
        ([" Quad. corr. factor     : ".toList ++ cell false 0 p.delta2 p.ddelta2,
    " Lin. corr. factor      : ".toList ++ cell false 0 p.delta1 p.ddelta1,
    " Low r sigma ratio      : ".toList ++ cell false 0 p.sratio p.dsratio,
    " R cutoff [A]           : ".toList ++ cell false 0 p.rcut RText.zero,
    " Lattice parameters     :".toList ++ three p.a0 p.da0,
    "           & angles     :".toList ++ three p.win p.dwin, [],
    " Atom positions & occupancies :".toList] ++ (p.atoms.map posLine ++
      ([[], " Anisotropic temperature factors :".toList] ++ p.atoms.flatMap uLines))) := by
      unfold phaseLines
      rw [if_pos hc]
      simp only [List.append_assoc, List.cons_append, List.nil_append]
    rw [e]
    dsimp only
    rw [show (" PHASE ".toList ++ natStr p.iphase ++ " : ".toList ++ p.name).drop 7 = natStr p.iphase ++ (" : ".toList ++ p.name) by
      simp [List.append_assoc], hn, field_label _ rfl, e1, e2, e3]
    simp only [Option.bind_eq_bind, Option.bind_some]
    rw [if_pos (show (" Correlation limit [A]  : ".toList ++ text 6 p.corrMax).take 12 = " Correlation".toList from rfl), field_label _ rfl, e4]
    simp only [Option.bind_some, rest]
    simp [summary, hc]
  · have e : phaseLines p = rule :: (" PHASE ".toList ++ natStr p.iphase ++ " : ".toList ++ p.name) :: rule ::
        (" Scale factor           : ".toList ++ cell false 0 p.pscale p.dpscale) ::
        ("   Particle diameter    : ".toList ++ applied p.spdiameter p.dspdiameter) ::
        ("   Step cutoff          : ".toList ++ applied p.stepcut RText.zero) ::
        ([" Quad. corr. factor     : ".toList ++ cell false 0 p.delta2 p.ddelta2,
    " Lin. corr. factor      : ".toList ++ cell false 0 p.delta1 p.ddelta1,
    " Low r sigma ratio      : ".toList ++ cell false 0 p.sratio p.dsratio,
    " R cutoff [A]           : ".toList ++ cell false 0 p.rcut RText.zero,
    " Lattice parameters     :".toList ++ three p.a0 p.da0,
    "           & angles     :".toList ++ three p.win p.dwin, [],
    " Atom positions & occupancies :".toList] ++ (p.atoms.map posLine ++
      ([[], " Anisotropic temperature factors :".toList] ++ p.atoms.flatMap uLines))) := by
      unfold phaseLines
      rw [if_neg hc]
      simp only [List.append_assoc, List.cons_append, List.nil_append, List.append_nil]
    rw [e]
    have r := rest none
    rw [List.cons_append] at r ⊢
    dsimp only
    rw [show (" PHASE ".toList ++ natStr p.iphase ++ " : ".toList ++ p.name).drop 7 = natStr p.iphase ++ (" : ".toList ++ p.name) by
      simp [List.append_assoc], hn, field_label _ rfl, e1, e2, e3]
    simp only [Option.bind_eq_bind, Option.bind_some]
    rw [if_neg (show ¬ (" Quad. corr. factor     : ".toList ++ cell false 0 p.delta2 p.ddelta2).take 12 = " Correlation".toList by simp)]
    simp only [List.cons_append, List.nil_append, List.append_assoc] at r ⊢
    rw [r]
    simp only [Option.bind_eq_bind, Option.bind_some]
    simp [summary, hc]

theorem upper_lower : ∀ c < 127, Scat.lower (Char.ofNat c).toUpper.toNat = Scat.lower c := by decide

/-- The symbol of an atom that is read from the report is that of its entry in the table. -/
theorem symbol_found {p : Scat.PT} (hp : Scat.PT.init Scat.table = .ok p) (a : AtomR) (e : Entry) (ha : a.symb = symbStr e) :
    lookStr p (atomS a).symb = some e.1 := by
  have h := symbols_ascii e.1.symbol (List.mem_map_of_mem e.2)
  have hs : C38.SameLetters ((atomS a).symb.map Char.toNat) e.1.symbol := by
    unfold C38.SameLetters atomS upper
    rw [ha]
    simp only [symbStr, List.map_map]
    refine List.map_congr_left fun c hc => ?_
    exact upper_lower c (h.2 c hc).2
  unfold lookStr
  rw [C38.own_symbol hp e.2 hs]

/-- The diameter is given if it is positive. -/
theorem diameter_shown (p : PhaseR) (x : Num) (hx : 0 ≤ x.mag) (h : p.spdiameter = .num x) :
    ((summary p).spdiameter = none ↔ (if x.neg then -x.mag else x.mag) ≤ 0) ∧
      ∀ v, (summary p).spdiameter = some v → v = vs p.spdiameter p.dspdiameter := by
  constructor
  · cases hn : x.neg with
    | true => simp [summary, nonpos, h, hn, hx]
    | false =>
      simp only [summary, nonpos, h, hn, Bool.false_or, decide_eq_true_eq, ite_eq_left_iff, reduceCtorEq, imp_false, not_not, Bool.false_eq_true, if_false]
      exact ⟨fun e => e.le, fun e => le_antisymm e hx⟩
  · intro v
    unfold summary
    dsimp only
    split_ifs
    · simp
    · exact fun e => (Option.some.inj e).symm

/-- The step cutoff is given if it is positive. -/
theorem stepcut_shown (p : PhaseR) (x : Num) (hx : 0 ≤ x.mag) (h : p.stepcut = .num x) :
    (summary p).stepcut = none ↔ (if x.neg then -x.mag else x.mag) ≤ 0 := by
  cases hn : x.neg with
  | true => simp [summary, nonpos, h, hn, hx]
  | false =>
    simp only [summary, nonpos, h, hn, Bool.false_or, decide_eq_true_eq, ite_eq_left_iff, reduceCtorEq, imp_false, not_not, Bool.false_eq_true, if_false]
    exact ⟨fun e => e.le, fun e => le_antisymm e hx⟩

/-- The correlation limit is given if it is positive. -/
theorem corr_shown (p : PhaseR) (x : Num) (hx : 0 ≤ x.mag) (h : p.corrMax = .num x) :
    (summary p).corrMax = none ↔ (if x.neg then -x.mag else x.mag) ≤ 0 := by
  cases hn : x.neg with
  | true => simp [summary, RText.pos, h, hn, hx]
  | false =>
    simp only [summary, RText.pos, h, hn, Bool.not_false, Bool.true_and, ne_eq, decide_not, Bool.not_eq_true', decide_eq_false_iff_not, ite_eq_right_iff,
      reduceCtorEq, imp_false, not_not, Bool.false_eq_true, if_false]
    exact ⟨fun e => e.le, fun e => le_antisymm e hx⟩

/-- The off-diagonal displacement parameters are given unless they are all zero. -/
theorem off_shown (a : AtomR) : (atomS a).v = none ↔ ∀ i : Fin 6, 3 ≤ i.val → ∃ b, a.u i = .num ⟨b, 0⟩ := by
  have ht : ∀ x : Val, truth x = false ↔ ∃ b, x = .num ⟨b, 0⟩ := by
    intro x
    cases x with
    | num x =>
      obtain ⟨b, m⟩ := x
      simp [truth]
    | inf s => simp [truth]
    | nan s => simp [truth]
  have : (atomS a).v = none ↔ off a = false := by
    cases h : off a <;> simp [atomS, h]
  rw [this, off, Bool.or_eq_false_iff, Bool.or_eq_false_iff, ht, ht, ht]
  constructor
  · rintro ⟨⟨h3, h4⟩, h5⟩ i hi
    fin_cases i
    · simp at hi
    · simp at hi
    · simp at hi
    · exact h3
    · exact h4
    · exact h5
  · intro h
    exact ⟨⟨h 3 (by decide), h 4 (by decide)⟩, h 5 (by decide)⟩

/-! ## List of the parameters -/

theorem scanNat (n : ℕ) (w t : List Char) (hw : ∀ c ∈ w, isSpace c = true) (ht : ∀ c, t.head? = some c → isDig c = false) :
    scanInt (w ++ (natStr n ++ t)) = some ((n : ℤ), t) := by
  obtain ⟨h1, h2⟩ := drop_spaces w hw false n t
  obtain ⟨h3, h4⟩ := span_dig (natStr n) t (natStr_dig _) ht
  have e : sign false = [] := rfl
  rw [e, List.nil_append] at h1 h2
  unfold scanInt
  simp only [h1, h2, h3, h4, val_natStr]
  rw [if_neg (natStr_ne _)]
  simp

theorem after_pars (n k : ℕ) (l : List (ℕ × Val × Val)) : (parsFrom n k l).head? ≠ some '(' := by
  cases l with
  | nil => simp [parsFrom]
  | cons c l => simp [parsFrom]

theorem readPars_from (n : ℕ) (l : List (ℕ × Val × Val)) (hl : ∀ c ∈ l, Ok c.2.1 ∧ Ok c.2.2) :
    ∀ (k : ℕ) (w : List Char), (∀ c ∈ w, isSpace c = true) →
      readPars l.length (w ++ parsFrom n k l) = some (l.map fun c => (c.1, vs c.2.1 c.2.2)) := by
  induction l with
  | nil => intro k w hw; rfl
  | cons c l ih =>
    obtain ⟨i, x, dx⟩ := c
    intro k w hw
    obtain ⟨hx, hd⟩ := hl _ (List.mem_cons_self ..)
    simp only at hx hd
    generalize hlast : ((k + 1) % 3 = 0 || k + 1 = n : Bool) = last
    have e : w ++ parsFrom n k ((i, x, dx) :: l) = (w ++ ' ' :: List.replicate (3 - (natStr i).length) ' ') ++ (natStr i ++
        ':' :: (cell true (if last then 0 else 20) x dx ++ ((if last then ['\n'] else "  ".toList) ++ parsFrom n (k + 1) l))) := by
      simp only [parsFrom, hlast, pad]
      simp [List.append_assoc]
    have hw' : ∀ c ∈ w ++ ' ' :: List.replicate (3 - (natStr i).length) ' ', isSpace c = true := by
      intro c hc
      rcases List.mem_append.1 hc with hc | hc
      · exact hw c hc
      · rcases List.mem_cons.1 hc with rfl | hc
        · decide
        · rw [List.eq_of_mem_replicate hc]; decide
    rw [e, List.length_cons, readPars, scanNat i _ _ hw' (by intro c hc; simp at hc; rw [← hc]; decide)]
    simp only [Option.bind_eq_bind, Option.bind_some, List.head?_cons, List.tail_cons, if_true]
    have ha : After ((if last then ['\n'] else "  ".toList) ++ parsFrom n (k + 1) l) := by
      cases last with
      | true => exact after_nl _
      | false => exact after_blank (t := ' ' :: parsFrom n (k + 1) l) (by simp)
    obtain ⟨v, hv, h⟩ := value_std_read true (if last then 0 else 20) x dx hx hd _ ha
    rw [h]
    simp only [Option.bind_some]
    have := ih (fun c hc => hl c (List.mem_cons_of_mem _ hc)) (k + 1) (v ++ if last then ['\n'] else "  ".toList) (by
      intro c hc
      rcases List.mem_append.1 hc with hc | hc
      · rw [hv c hc]; decide
      · cases last with
        | true => rw [List.mem_singleton.1 hc]; decide
        | false =>
          have : c = ' ' := by simpa using hc
          rw [this]; decide)
    rw [List.append_assoc] at this
    rw [this]
    simp

/-- The list of the parameters is read back: numbers, values with 6 digits and standard deviations with 2 digits. -/
theorem pars_read (l : List (ℕ × Val × Val)) (hl : ∀ c ∈ l, Ok c.2.1 ∧ Ok c.2.2) :
    readPars l.length (parsText l) = some (l.map fun c => (c.1, vs c.2.1 c.2.2)) := readPars_from l.length l hl 0 [] (by simp)

/-! ## Violations -/

/-- The printed value is four printed standard deviations away from the value. -/
theorem coarser : ∃ x d : Num, cell false 0 (.num x) (.num d) = "1 (1e-06)".toList ∧ d.mag = 1 / 10 ^ 6 ∧ x.mag - 1 > 4 * d.mag :=
  ⟨⟨false, 10000049 / 10 ^ 7⟩, ⟨false, 1 / 10 ^ 6⟩, by decide +kernel, rfl, by norm_num⟩

/-- An atom with other standard deviations of the off-diagonal displacement parameters. -/
def withDu (a : AtomR) (v : Fin 6 → Val) : AtomR := { a with du := v }

/-- If the three off-diagonal displacement parameters are zero, the text is the same whatever their standard deviations are. -/
theorem deviation_lost (p : PhaseR) (a : AtomR) (ha : off a = false) (v : Fin 6 → Val) (hv : ∀ i, i.val < 3 → v i = a.du i) :
    phaseText { p with atoms := [withDu a v] } = phaseText { p with atoms := [a] } := by
  have e : uLines (withDu a v) = uLines a := by
    have h1 : off (withDu a v) = false := ha
    unfold uLines
    rw [h1, ha]
    have : (fun i : Fin 3 => (withDu a v).du (Fin.castLE (by norm_num) i)) = fun i : Fin 3 => a.du (Fin.castLE (by norm_num) i) := by
      funext i
      exact hv _ i.2
    rw [this]
    rfl
  unfold phaseText phaseLines
  simp only [List.map_cons, List.map_nil, List.flatMap_cons, List.flatMap_nil, e]
  rfl

/-! ## Examples -/

/-- A decimal number. -/
def dec (n : ℕ) (d : ℕ) : Val := .num ⟨false, n / 10 ^ d⟩

example : text 6 (dec 0 0) = "0".toList ∧ text 6 (dec 352387123 8) = "3.52387".toList ∧ text 6 (dec 9999996 6) = "10".toList ∧
    text 6 (dec 123456789 1) = "1.23457e+07".toList ∧ text 6 (dec 12 6) = "1.2e-05".toList ∧ text 2 (dec 996 4) = "0.1".toList ∧
    text 6 (.num ⟨true, 1 / 8⟩) = "-0.125".toList ∧ text 6 (dec 1000000 0) = "1e+06".toList := by decide +kernel

example : cell true 20 (dec 352387 5) (dec 1234 6) = " 3.52387 (0.0012)   ".toList ∧ cell false 0 (dec 1 0) (.nan true) = "1 (NaN)".toList ∧
    cell false 0 (dec 1 0) (dec 1 8) = "1".toList ∧ cell false 0 (dec 1 0) (dec 11 9) = "1 (1.1e-08)".toList := by decide +kernel

example : parsText [(1, dec 5 1, dec 2 3), (2, dec 7 0, dec 0 0), (3, dec 1 0, dec 3 1), (20, dec 1 0, .nan false)] =
    "   1: 0.5 (0.002)             2: 7                       3: 1 (0.3)\n  20: 1 (NaN)\n".toList := by decide +kernel

example : readPars 2 (parsText [(1, dec 5 1, dec 2 3), (20, dec 1 0, dec 0 0)]) =
    some [(1, dec 5 1, some (dec 2 3)), (20, dec 1 0, none)] := by decide +kernel

/-- Nickel with refined cell and displacement parameters. -/
def nickel : PhaseR where
  iphase := 1
  name := "Ni".toList
  pscale := dec 98 2
  dpscale := dec 12 4
  spdiameter := dec 0 0
  dspdiameter := dec 0 0
  stepcut := dec 0 0
  corrMax := dec 0 0
  delta2 := dec 225 2
  ddelta2 := dec 3 2
  delta1 := dec 0 0
  ddelta1 := dec 0 0
  sratio := dec 1 0
  dsratio := dec 0 0
  rcut := dec 0 0
  a0 := fun _ => dec 352387 5
  da0 := fun _ => dec 12 5
  win := fun _ => dec 90 0
  dwin := fun _ => dec 0 0
  atoms := [⟨"Ni".toList, fun _ => dec 5 1, fun _ => dec 0 0, dec 1 0, dec 0 0, fun i => if i.val < 3 then dec 55 4 else dec 0 0,
    fun i => if i.val < 3 then dec 21 5 else dec 0 0⟩]

theorem nickel_ok : OkPhase nickel := by
  have hd : ∀ n d, Ok (dec n d) := fun n d => by
    show (0 : ℚ) ≤ (n : ℚ) / 10 ^ d
    positivity
  have hi : ∀ (i : Fin 6) n d m e, Ok (if i.val < 3 then dec n d else dec m e) := fun i n d m e => by
    split_ifs <;> exact hd _ _
  refine ⟨by decide, ⟨hd _ _, hd _ _⟩, ⟨hd _ _, hd _ _⟩, hd _ _, hd _ _, ⟨hd _ _, hd _ _⟩, ⟨hd _ _, hd _ _⟩, ⟨hd _ _, hd _ _⟩, hd _ _,
    fun i => ⟨hd _ _, hd _ _⟩, fun i => ⟨hd _ _, hd _ _⟩, ?_⟩
  intro a ha
  rw [List.mem_singleton.1 ha]
  refine ⟨⟨⟨Scat.table.find? (fun e => e.symbol == [78, 105]) |>.get (by decide +kernel), ?_⟩, ?_⟩, fun i => ⟨hd _ _, hd _ _⟩, ⟨hd _ _, hd _ _⟩,
    fun i => ⟨hi i _ _ _ _, hi i _ _ _ _⟩⟩
  · exact List.mem_of_find?_eq_some (Option.some_get _).symm
  · decide +kernel

example : ((phaseLines nickel).drop 9).take 4 = [" R cutoff [A]           : 0".toList,
    " Lattice parameters     : 3.52387 (0.00012)   3.52387 (0.00012)   3.52387 (0.00012)".toList,
    "           & angles     : 90                  90                  90".toList, []] := by decide +kernel

example : readPhase (phaseText nickel) = some (summary nickel) := phase_read_partial nickel nickel_ok

example : (summary nickel).atoms = [⟨"NI".toList, [(dec 5 1, none), (dec 5 1, none), (dec 5 1, none), (dec 1 0, none)],
    [(dec 55 4, some (dec 21 5)), (dec 55 4, some (dec 21 5)), (dec 55 4, some (dec 21 5))], none⟩] := by decide +kernel

end Pdffit.C64
