import Verif.Model.DataText
import Verif.Props.C68
import Verif.Props.C69

/-!
# C70: the data set section of a report says what was used

* `C70_read`: everything is recovered from the text of the section: the number and name of the data set, the three ranges and the step to six digits, the
  points of the fit, reduced chi squared and Rw, the radiation, the settings (or that they are not applied) and the scale factor with their standard
  deviations, the selected phases with the descriptions of both ends, and the phase contents.
* `C70_settings_partial`: where it says "not applied" the curve is that without the setting (`C70_qmax`, `C70_qdamp`, `C70_qbroad_partial`), and where it
  shows a number the setting is positive. The same for the settings in the section of a phase (`C70_diameter`, `C70_stepcut`).
* Violation `C70_qbroad_negative`: only the magnitude of qbroad matters (`C70_qbroad_sign`), so that a negative one, which `setvar` and a refinement may
  give, broadens the peaks while the report says "not applied".
-/

namespace Pdffit.C70
open DText RText Stru
open BText (skipTo)
open C69 (skipTo_text scanInt_text blanks)
open DataRead (isSpace)

/-! ## Pieces -/

theorem stop_blanks {t : List Char} (h : RText.Stop t) (k : ℕ) : RText.Stop (List.replicate k ' ' ++ t) := by
  cases k with
  | zero => simpa using h
  | succ k => rw [List.replicate_succ, List.cons_append]; exact stop_blank _

theorem readRange_text (x y : Val) (hx : Ok x) (hy : Ok y) (n : ℕ) (t : List Char) (ht : RText.Stop t) :
    ∃ k, readRange (padr 8 (text 6 x) ++ " -> ".toList ++ padr n (text 6 y) ++ t) = some ((rnd 6 x, rnd 6 y), List.replicate k ' ' ++ t) := by
  obtain ⟨m, hm⟩ : ∃ m, padr 8 (text 6 x) = text 6 x ++ List.replicate m ' ' := ⟨_, rfl⟩
  obtain ⟨k, hk⟩ : ∃ k, padr n (text 6 y) = text 6 y ++ List.replicate k ' ' := ⟨_, rfl⟩
  refine ⟨k, ?_⟩
  have e : padr 8 (text 6 x) ++ " -> ".toList ++ padr n (text 6 y) ++ t = [] ++ (text 6 x ++ ((List.replicate m ' ' ++ [' ']) ++ ('-' :: '>' ::
      ([' '] ++ (text 6 y ++ (List.replicate k ' ' ++ t)))))) := by
    rw [hm, hk, show " -> ".toList = [' ', '-', '>', ' '] from rfl]
    simp only [List.append_assoc, List.cons_append, List.nil_append]
  have b : ∀ c ∈ List.replicate m ' ' ++ [' '], isSpace c = true := by rw [← List.replicate_succ']; exact blanks _
  have a1 := readVal_text (p := 6) (by norm_num) x hx [] ((List.replicate m ' ' ++ [' ']) ++ ('-' :: '>' ::
      ([' '] ++ (text 6 y ++ (List.replicate k ' ' ++ t))))) (by simp) (by
        rw [← List.replicate_succ', List.replicate_succ, List.cons_append]; exact stop_blank _)
  have a2 := skipTo_text '-' (List.replicate m ' ' ++ [' ']) ('>' :: ([' '] ++ (text 6 y ++ (List.replicate k ' ' ++ t)))) b (by decide)
  have a3 : ('>' :: ([' '] ++ (text 6 y ++ (List.replicate k ' ' ++ t)))).drop 1 = [' '] ++ (text 6 y ++ (List.replicate k ' ' ++ t)) := rfl
  have a4 := readVal_text (p := 6) (by norm_num) y hy [' '] (List.replicate k ' ' ++ t) (by decide) (stop_blanks ht k)
  rw [e]
  unfold readRange
  simp only [a1, a2, a3, a4, Option.bind_eq_bind, Option.bind_some]

theorem readPoints_text (x y : ℤ) (n : ℕ) (w : List Char) (hw : ∀ c ∈ w, isSpace c = true) :
    readPoints (w ++ (padr n (intStr x) ++ " -> ".toList ++ intStr y)) = some (x, y) := by
  obtain ⟨m, hm⟩ : ∃ m, padr n (intStr x) = intStr x ++ List.replicate m ' ' := ⟨_, rfl⟩
  have e : w ++ (padr n (intStr x) ++ " -> ".toList ++ intStr y) = w ++ (intStr x ++ ((List.replicate m ' ' ++ [' ']) ++ ('-' :: '>' ::
      ([' '] ++ (intStr y ++ []))))) := by
    rw [hm, show " -> ".toList = [' ', '-', '>', ' '] from rfl]
    simp only [List.append_assoc, List.cons_append, List.nil_append, List.append_nil]
  have b : ∀ c ∈ List.replicate m ' ' ++ [' '], isSpace c = true := by rw [← List.replicate_succ']; exact blanks _
  have a1 := scanInt_str x w ((List.replicate m ' ' ++ [' ']) ++ ('-' :: '>' :: ([' '] ++ (intStr y ++ [])))) hw (by
    rw [← List.replicate_succ', List.replicate_succ]
    intro c hc
    simp at hc
    rw [← hc]
    exact Or.inl (by decide))
  have a2 := skipTo_text '-' (List.replicate m ' ' ++ [' ']) ('>' :: ([' '] ++ (intStr y ++ []))) b (by decide)
  have a3 : ('>' :: ([' '] ++ (intStr y ++ []))).drop 1 = [' '] ++ (intStr y ++ []) := rfl
  have a4 := scanInt_str y [' '] [] (by decide) (by intro c hc; simp at hc)
  rw [e]
  unfold readPoints
  simp only [a1, a2, a3, a4, Option.bind_eq_bind, Option.bind_some]

theorem colon_text (w t : List Char) (hw : ':' ∉ w) : colon (w ++ (':' :: t)) = t := by
  unfold colon
  rw [List.dropWhile_append_of_pos (by intro c hc; rw [bne_iff_ne]; rintro rfl; exact hw hc), List.dropWhile_cons_of_neg (by decide)]
  rfl

theorem colon_blanks (k : ℕ) {w : List Char} (hw : ':' ∉ w) : ':' ∉ List.replicate k ' ' ++ w := by
  rw [List.mem_append, not_or]
  exact ⟨fun h => absurd (List.eq_of_mem_replicate h) (by decide), hw⟩

theorem nat_int (n : ℕ) : intStr (n : ℤ) = natStr n := by
  unfold intStr sign
  rw [if_neg (by simp)]
  rfl

theorem readName_text (n : ℕ) (name : List Char) : readName (natStr n ++ " (".toList ++ name ++ [')']) = some (n, name) := by
  have h := scanInt_str (n : ℤ) [] (" (".toList ++ (name ++ [')'])) (by simp) (by
    intro c hc
    simp at hc
    rw [← hc]
    exact Or.inl (by decide))
  rw [nat_int, List.nil_append] at h
  unfold readName
  rw [List.append_assoc, List.append_assoc, h, Option.bind_eq_bind, Option.bind_some,
    show (" (".toList ++ (name ++ [')'])).drop 2 = name ++ [')'] from rfl, List.dropLast_concat]
  rfl

theorem unit_ne (w : List Char) : w ++ " A**-1".toList ≠ "not applied".toList := by
  intro e
  have := congrArg List.getLast? e
  rw [List.getLast?_append, show " A**-1".toList.getLast? = some '1' from rfl, Option.some_or] at this
  exact absurd this (by decide)

theorem readQ_text (x : Val) (hx : Ok x) : readQ (setting x (text 6 x)) = some (if nonpos x then none else some (rnd 6 x)) := by
  unfold setting readQ
  by_cases h : nonpos x = true
  · rw [if_pos h, if_pos rfl, if_pos h]
  · rw [if_neg h, if_neg (unit_ne _), if_neg h]
    have := readVal_text (p := 6) (by norm_num) x hx [] " A**-1".toList (by simp) (stop_blank _)
    rw [List.nil_append] at this
    rw [this]
    rfl

theorem readC_text (x dx : Val) (hx : Ok x) (hd : Ok dx) :
    readC (setting x (cell false 0 x dx)) = some (if nonpos x then none else some (C64.vs x dx)) := by
  unfold setting readC
  by_cases h : nonpos x = true
  · rw [if_pos h, if_pos rfl, if_pos h]
  · rw [if_neg h, if_neg (unit_ne _), if_neg h]
    obtain ⟨r, hr⟩ := C64.readField x dx hx hd " A**-1".toList ⟨stop_blank _, by decide, by decide⟩
    rw [hr]
    rfl

/-- The selected phases with their numbers. -/
def selOf : ℕ → List PhR → List (ℕ × List Char × List Char)
  | _, [] => []
  | k, p :: l => (match p.sel with
    | none => []
    | some s => [(k + 1, s.1, s.2)]) ++ selOf (k + 1) l

theorem readSel_text (l : List PhR) (t : List (List Char)) : ∀ k, readSel (selLines k l ++ [] :: t) = some (selOf k l, t) := by
  induction l with
  | nil => intro k; rfl
  | cons p l ih =>
    intro k
    unfold selLines selOf
    cases hp : p.sel with
    | none => exact ih (k + 1)
    | some s =>
      obtain ⟨c, w, hc⟩ : ∃ c w, "   Phase ".toList ++ natStr (k + 1) ++ " :".toList = c :: w := ⟨' ', _, rfl⟩
      have h9 : ("   Phase ".toList ++ natStr (k + 1) ++ " :".toList).drop 9 = natStr (k + 1) ++ " :".toList := by
        rw [List.append_assoc, List.drop_left' (by decide)]
      have hn := scanInt_str ((k + 1 : ℕ) : ℤ) [] " :".toList (by simp) (by
        intro c hc
        simp at hc
        rw [← hc]
        exact Or.inl (by decide))
      rw [nat_int, List.nil_append] at hn
      simp only [List.cons_append, List.nil_append]
      rw [hc] at h9 ⊢
      unfold readSel
      rw [h9, hn, ih (k + 1), List.drop_left' (by decide), List.drop_left' (by decide)]
      rfl

/-- The fractions. -/
def fracOf (p : PhR) : List (Val × Option Val) :=
  [C64.vs (p.frac 0) (p.dfrac 0), C64.vs (p.frac 1) (p.dfrac 1), C64.vs (p.frac 2) (p.dfrac 2)]

theorem natStr_colon (n : ℕ) : ':' ∉ natStr n := by
  intro h
  obtain ⟨k, hk, e⟩ := natStr_dig n _ h
  revert e
  revert k
  decide

theorem readFrac_text (l : List PhR) (hl : ∀ p ∈ l, ∀ i, Ok (p.frac i) ∧ Ok (p.dfrac i)) (t : List (List Char)) :
    ∀ k, readFrac (fracLines k l ++ [] :: t) = some (l.map fracOf) := by
  induction l with
  | nil => intro k; simp [fracLines, readFrac]
  | cons p l ih =>
    intro k
    unfold fracLines
    obtain ⟨w, -, e⟩ := readCells_text [(24, p.frac 0, p.dfrac 0), (24, p.frac 1, p.dfrac 1), (0, p.frac 2, p.dfrac 2)] (by
      intro c hc
      simp only [List.mem_cons, List.not_mem_nil, or_false] at hc
      rcases hc with rfl | rfl | rfl <;> exact hl p (by simp) _) [] after_nil [] (by simp)
    have e1 : " Phase ".toList ++ natStr (k + 1) ++ " :".toList ++ cell true 24 (p.frac 0) (p.dfrac 0) ++ cell true 24 (p.frac 1) (p.dfrac 1) ++
        cell true 0 (p.frac 2) (p.dfrac 2) = (" Phase ".toList ++ natStr (k + 1) ++ [' ']) ++ (':' :: (cellsText [(24, p.frac 0, p.dfrac 0),
          (24, p.frac 1, p.dfrac 1), (0, p.frac 2, p.dfrac 2)])) := by
      rw [show " :".toList = [' ', ':'] from rfl]
      simp only [cellsText, List.flatMap_cons, List.flatMap_nil, List.append_assoc, List.cons_append, List.nil_append, List.append_nil]
    have e2 : ':' ∉ " Phase ".toList ++ natStr (k + 1) ++ [' '] := by
      have := natStr_colon (k + 1)
      rw [List.mem_append, List.mem_append, not_or, not_or]
      exact ⟨⟨by decide, this⟩, by decide⟩
    rw [e1, List.cons_append, readFrac, if_neg (by simp), colon_text _ _ e2]
    rw [List.nil_append, List.append_nil] at e
    have e := e
    simp only [List.length_cons, List.length_nil, List.map_cons, List.map_nil] at e
    rw [e, Option.bind_eq_bind, Option.bind_some, ih (fun p hp => hl p (by simp [hp])) (k + 1)]
    rfl

/-! ## The section -/

/-- The numbers are doubles, and the texts in it are one line each. -/
structure OkData (d : DataR) : Prop where
  name : '\n' ∉ d.name
  rmin : Ok d.rmin
  rmax : Ok d.rmax
  deltar : Ok d.deltar
  rcmin : Ok d.rcmin
  rcmax : Ok d.rcmax
  rfmin : Ok d.rfmin
  rfmax : Ok d.rfmax
  redchisq : Ok d.redchisq
  rw : Ok d.rw
  qmax : Ok d.qmax
  qdamp : Ok d.qdamp ∧ Ok d.dqdamp
  qbroad : Ok d.qbroad ∧ Ok d.dqbroad
  dscale : Ok d.dscale ∧ Ok d.ddscale
  sel : ∀ p ∈ d.phases, ∀ s ∈ p.sel, '\n' ∉ s.1 ∧ '\n' ∉ s.2
  frac : ∀ p ∈ d.phases, ∀ i, Ok (p.frac i) ∧ Ok (p.dfrac i)

/-- What is to be read. -/
def summary (d : DataR) : DataS where
  iset := d.iset
  name := d.name
  data := (rnd 6 d.rmin, rnd 6 d.rmax, rnd 6 d.deltar)
  crange := (rnd 6 d.rcmin, rnd 6 d.rcmax)
  fit := (rnd 6 d.rfmin, rnd 6 d.rfmax)
  points := (d.nfmin, d.nfmax)
  redchisq := rnd 6 d.redchisq
  rw := rnd 6 d.rw
  xray := d.xray
  qmax := if nonpos d.qmax then none else some (rnd 6 d.qmax)
  qdamp := if nonpos d.qdamp then none else some (C64.vs d.qdamp d.dqdamp)
  qbroad := if nonpos d.qbroad then none else some (C64.vs d.qbroad d.dqbroad)
  dscale := C64.vs d.dscale d.ddscale
  sel := selOf 0 d.phases
  frac := d.phases.map fracOf

theorem app {a b : List Char} (ha : '\n' ∉ a) (hb : '\n' ∉ b) : '\n' ∉ a ++ b := by
  rw [List.mem_append, not_or]
  exact ⟨ha, hb⟩

theorem nat_nl (n : ℕ) : '\n' ∉ natStr n := by rw [← nat_int]; exact C69.int_nl _

theorem setting_nl (x : Val) {t : List Char} (ht : '\n' ∉ t) : '\n' ∉ setting x t := by
  unfold setting
  split
  · decide
  · exact app ht (by decide)

theorem selLines_nl (l : List PhR) (h : ∀ p ∈ l, ∀ s ∈ p.sel, '\n' ∉ s.1 ∧ '\n' ∉ s.2) : ∀ k, ∀ x ∈ selLines k l, '\n' ∉ x := by
  induction l with
  | nil => intro k x hx; simp [selLines] at hx
  | cons p l ih =>
    intro k x hx
    unfold selLines at hx
    rw [List.mem_append] at hx
    rcases hx with hx | hx
    · cases hp : p.sel with
      | none => rw [hp] at hx; simp at hx
      | some s =>
        obtain ⟨s1, s2⟩ := h p (by simp) s hp
        rw [hp] at hx
        simp only [List.mem_cons, List.not_mem_nil, or_false] at hx
        rcases hx with rfl | rfl | rfl
        · exact app (app (by decide) (nat_nl _)) (by decide)
        · exact app (by decide) s1
        · exact app (by decide) s2
    · exact ih (fun p hp => h p (by simp [hp])) (k + 1) x hx

theorem fracLines_nl (l : List PhR) : ∀ k, ∀ x ∈ fracLines k l, '\n' ∉ x := by
  induction l with
  | nil => intro k x hx; simp [fracLines] at hx
  | cons p l ih =>
    intro k x hx
    unfold fracLines at hx
    rw [List.mem_cons] at hx
    rcases hx with rfl | hx
    · exact app (app (app (app (app (by decide) (nat_nl _)) (by decide)) (cell_nl _ _ _ _)) (cell_nl _ _ _ _)) (cell_nl _ _ _ _)
    · exact ih (k + 1) x hx

theorem headLines_nl (d : DataR) (h : '\n' ∉ d.name) : ∀ x ∈ headLines d, '\n' ∉ x := by
  have t := text_nl 6
  have pt : ∀ n v, '\n' ∉ padr n (text 6 v) := fun n v => C69.padr_nl n (t v)
  have pi : ∀ n v, '\n' ∉ padr n (intStr v) := fun n v => C69.padr_nl n (C69.int_nl v)
  have c := cell_nl
  have r : '\n' ∉ rule := by decide
  intro x hx
  simp only [DText.headLines, List.mem_cons, List.not_mem_nil, or_false] at hx
  rcases hx with rfl | rfl | rfl | rfl | rfl | rfl | rfl | rfl | rfl | rfl | rfl | rfl | rfl | rfl | rfl | rfl | rfl | rfl
  · exact r
  · exact app (app (app (app (by decide) (nat_nl _)) (by decide)) h) (by decide)
  · exact r
  · exact app (app (app (app (app (by decide) (pt _ _)) (by decide)) (pt _ _)) (by decide)) (t _)
  · exact app (app (app (by decide) (pt _ _)) (by decide)) (t _)
  · exact app (app (app (app (app (app (app (by decide) (pt _ _)) (by decide)) (pt _ _)) (by decide)) (pi _ _)) (by decide)) (C69.int_nl _)
  · exact app (by decide) (t _)
  · exact app (by decide) (t _)
  · decide
  · decide
  · decide
  · cases d.xray <;> decide
  · exact app (by decide) (setting_nl _ (t _))
  · exact app (by decide) (setting_nl _ (c _ _ _ _))
  · exact app (by decide) (setting_nl _ (c _ _ _ _))
  · exact app (by decide) (c _ _ _ _)
  · decide
  · decide

/-- The section of a data set is read back. -/
theorem C70_read (d : DataR) (h : OkData d) : readData (dataText d) = some (summary d) := by
  have hl := lines_unlines (dataLines d) (by
    intro x hx
    unfold dataLines at hx
    simp only [List.mem_append, List.mem_cons, List.not_mem_nil, or_false] at hx
    rcases hx with hx | hx | rfl | rfl | rfl | hx | rfl
    · exact headLines_nl d h.name x hx
    · exact selLines_nl _ h.sel 0 x hx
    · decide
    · decide
    · decide
    · exact fracLines_nl _ 0 x hx
    · decide)
  have v : ∀ x, Ok x → readVal (text 6 x) = some (rnd 6 x, []) := by
    intro x hx
    have := readVal_text (p := 6) (by norm_num) x hx [] [] (by simp) after_nil.1
    rwa [List.nil_append, List.append_nil] at this
  have v' : ∀ x, Ok x → readVal (' ' :: text 6 x) = some (rnd 6 x, []) := by
    intro x hx
    have := readVal_text (p := 6) (by norm_num) x hx [' '] [] (by decide) after_nil.1
    rwa [List.append_nil] at this
  have e1 := readName_text d.iset d.name
  obtain ⟨k3, e3⟩ := readRange_text d.rmin d.rmax h.rmin h.rmax 8 ("      Step dr  : ".toList ++ text 6 d.deltar) (stop_blank _)
  have e3' : colon (List.replicate k3 ' ' ++ ("      Step dr  : ".toList ++ text 6 d.deltar)) = ' ' :: text 6 d.deltar := by
    have := colon_text (List.replicate k3 ' ' ++ "      Step dr  ".toList) (' ' :: text 6 d.deltar) (colon_blanks _ (by decide))
    rwa [List.append_assoc] at this
  obtain ⟨k4, e4⟩ := readRange_text d.rcmin d.rcmax h.rcmin h.rcmax 0 [] after_nil.1
  have p0 : padr 0 (text 6 d.rcmax) = text 6 d.rcmax := by unfold padr; simp
  rw [p0, List.append_nil] at e4
  obtain ⟨k5, e5⟩ := readRange_text d.rfmin d.rfmax h.rfmin h.rfmax 8 ("      Data pts : ".toList ++
    (padr 5 (intStr d.nfmin) ++ " -> ".toList ++ intStr d.nfmax)) (stop_blank _)
  have e5' : colon (List.replicate k5 ' ' ++ ("      Data pts : ".toList ++ (padr 5 (intStr d.nfmin) ++ " -> ".toList ++ intStr d.nfmax))) =
      [' '] ++ (padr 5 (intStr d.nfmin) ++ " -> ".toList ++ intStr d.nfmax) := by
    have := colon_text (List.replicate k5 ' ' ++ "      Data pts ".toList) ([' '] ++ (padr 5 (intStr d.nfmin) ++ " -> ".toList ++ intStr d.nfmax))
      (colon_blanks _ (by decide))
    rwa [List.append_assoc] at this
  have e5'' := readPoints_text d.nfmin d.nfmax 5 [' '] (by decide)
  have e6 := v _ h.redchisq
  have e7 := v _ h.rw
  have e12 := readQ_text d.qmax h.qmax
  have e13 := readC_text d.qdamp d.dqdamp h.qdamp.1 h.qdamp.2
  have e14 := readC_text d.qbroad d.dqbroad h.qbroad.1 h.qbroad.2
  obtain ⟨r15, e15⟩ := C64.readField d.dscale d.ddscale h.dscale.1 h.dscale.2 [] after_nil
  rw [List.append_nil] at e15
  have es := readSel_text d.phases (" Relative phase content in terms of".toList ::
    "           atoms                   unit cells              mass".toList :: (fracLines 0 d.phases ++ [[]])) 0
  have ef := readFrac_text d.phases h.frac [] 0
  have ex : decide ((if d.xray then "X-Rays".toList else "Neutrons".toList) = "X-Rays".toList) = d.xray := by cases d.xray <;> decide
  unfold readData dataText
  rw [hl]
  unfold dataLines DText.headLines
  simp only [List.cons_append, List.nil_append]
  have l1 : (" DATA SET : ".toList ++ natStr d.iset ++ " (".toList ++ d.name ++ [')']).drop 12 = natStr d.iset ++ " (".toList ++ d.name ++ [')'] := by
    rw [List.append_assoc, List.append_assoc, List.append_assoc, List.drop_left' (by decide), List.append_assoc, List.append_assoc]
  have l3 : field (" Data range in r [A]    : ".toList ++ padr 8 (text 6 d.rmin) ++ " -> ".toList ++ padr 8 (text 6 d.rmax) ++
      "      Step dr  : ".toList ++ text 6 d.deltar) = padr 8 (text 6 d.rmin) ++ " -> ".toList ++ padr 8 (text 6 d.rmax) ++
      ("      Step dr  : ".toList ++ text 6 d.deltar) := by
    have := C64.field_label " Data range in r [A]    : ".toList rfl (padr 8 (text 6 d.rmin) ++ " -> ".toList ++ padr 8 (text 6 d.rmax) ++
      ("      Step dr  : ".toList ++ text 6 d.deltar))
    simpa only [List.append_assoc] using this
  have l4 : field (" Calculated range       : ".toList ++ padr 8 (text 6 d.rcmin) ++ " -> ".toList ++ text 6 d.rcmax) =
      padr 8 (text 6 d.rcmin) ++ " -> ".toList ++ text 6 d.rcmax := by
    have := C64.field_label " Calculated range       : ".toList rfl (padr 8 (text 6 d.rcmin) ++ " -> ".toList ++ text 6 d.rcmax)
    simpa only [List.append_assoc] using this
  have l5 : field (" Refinement r range     : ".toList ++ padr 8 (text 6 d.rfmin) ++ " -> ".toList ++ padr 8 (text 6 d.rfmax) ++
      "      Data pts : ".toList ++ padr 5 (intStr d.nfmin) ++ " -> ".toList ++ intStr d.nfmax) =
      padr 8 (text 6 d.rfmin) ++ " -> ".toList ++ padr 8 (text 6 d.rfmax) ++ ("      Data pts : ".toList ++
        (padr 5 (intStr d.nfmin) ++ " -> ".toList ++ intStr d.nfmax)) := by
    have := C64.field_label " Refinement r range     : ".toList rfl (padr 8 (text 6 d.rfmin) ++ " -> ".toList ++ padr 8 (text 6 d.rfmax) ++
      ("      Data pts : ".toList ++ (padr 5 (intStr d.nfmin) ++ " -> ".toList ++ intStr d.nfmax)))
    simpa only [List.append_assoc] using this
  rw [l1, l3, l4, l5, C64.field_label _ rfl, C64.field_label _ rfl, C64.field_label _ rfl, C64.field_label _ rfl, C64.field_label _ rfl,
    C64.field_label _ rfl, C64.field_label _ rfl]
  simp only [e1, e3, e3', v' _ h.deltar, e4, e5, e5', e5'', e6, e7, e12, e13, e14, e15, es, ex, List.drop_succ_cons, List.drop_zero, ef,
    Option.bind_eq_bind, Option.bind_some]
  rfl

/-! ## Settings that are not applied -/

section settings
open Det

/-- The curve depends on the data set only through these functions. -/
theorem determine_congr {D D' : Det.Data} (psel : List (Option (PPhase × Sel)))
    (hr : D'.rmin = D.rmin) (hd : D'.deltar = D.deltar) (hs : D'.dscale = D.dscale) (h1 : D'.rcmin = D.rcmin) (h2 : D'.rcmax = D.rcmax)
    (hq : D'.qmax = D.qmax ∨ ¬0 < D.qmax ∧ ¬0 < D'.qmax) (hc : D'.qbroad ^ 2 = D.qbroad ^ 2)
    (he : ∀ ph r, envelope D' ph r = envelope D ph r) : determine D' psel = determine D psel := by
  have n1 : D'.ncmin = D.ncmin := by unfold Data.ncmin; rw [h1, hr, hd]
  have n2 : D'.ncmax = D.ncmax := by unfold Data.ncmax; rw [h2, hr, hd]
  have m1 : D'.rmin2 = D.rmin2 := by unfold Data.rmin2; rw [h1]
  have m2 : D'.rmax2 = D.rmax2 := by unfold Data.rmax2; rw [h2]
  have gr : ∀ i, D'.r i = D.r i := fun i => by unfold Data.r; rw [hr, hd]
  have cf : ∀ ph x, corfact D' ph x = corfact D ph x := fun ph x => by unfold corfact; rw [hc]
  have sg : ∀ ph x y, sigma D' ph x y = sigma D ph x y := fun ph x y => by unfold sigma; rw [cf]
  have ev : ∀ ph a b T, event D' ph a b T = event D ph a b T := fun ph a b T => by unfold event; simp only [m1, m2, cf, sg]
  have eo : ∀ ph x, eventOf D' ph x = eventOf D ph x := fun ph x => ev _ _ _ _
  have i1 : ∀ x y, ib D' x y = ib D x y := fun x y => by unfold ib; rw [h1, hr, hd]
  have i2 : ∀ ph x y, ie D' ph x y = ie D ph x y := fun ph x y => by unfold ie; rw [h2, hr, hd]
  have ga : ∀ x y i, gaus D' x y i = gaus D x y i := fun x y i => by unfold gaus; rw [hr, hd]
  have inc : ∀ ph i j e, incs D' ph i j e = incs D ph i j e := fun ph i j e => by
    unfold incs
    cases e with
    | peak d s => simp only [i1, i2, ga]
    | skip => rfl
    | nan => rfl
  have sp : ∀ ph, sphere D' ph = sphere D ph := fun ph => by unfold sphere; rw [m1, m2]
  have vi : ∀ ph s, Det.visited D' ph s = Det.visited D ph s := fun ph s => by unfold Det.visited; rw [sp]
  have pp : ∀ ph s, ppp D' ph s = ppp D ph s := fun ph s => by
    unfold ppp
    rw [vi, n2]
    congr 1
    simp only [inc, eo]
  have ca : ∀ ph s p, calcAt D' ph s p = calcAt D ph s p := fun ph s p => by
    funext i
    unfold calcAt
    rw [gr, he]
  have ba : ∀ ph s, Bad D' ph s ↔ Bad D ph s := fun ph s => by
    unfold Bad
    simp only [vi, eo, n1, n2, gr]
  have pc : ∀ ph s, phaseCalc D' ph s = phaseCalc D ph s := fun ph s => by
    unfold phaseCalc
    simp only [pp, n1, n2, ca]
    by_cases hb : Bad D ph s
    · simp only [if_pos hb, if_pos ((ba ph s).2 hb)]
    · simp only [if_neg hb, if_neg fun h => hb ((ba ph s).1 h)]
  have tt : Det.total D' psel = Det.total D psel := by
    induction psel with
    | nil => rfl
    | cons x l ih =>
      cases x with
      | none => exact ih
      | some x => unfold Det.total; simp only [pc, ih, hs]
  unfold determine
  rcases hq with hq | ⟨hq, hq'⟩
  · have nl : nclen D' = nclen D := by unfold nclen; rw [n1, n2]
    simp only [tt, hq, hd, nl, n1]
  · simp only [tt, if_neg hq, if_neg hq']

/-- "Termination at Qmax: not applied" is true: the curve is that with qmax = 0. -/
theorem C70_qmax (D : Det.Data) (h : D.qmax ≤ 0) (psel : List (Option (PPhase × Sel))) :
    determine D psel = determine { D with qmax := 0 } psel := by
  have h0 : ¬(0 : ℝ) < 0 := lt_irrefl _
  refine (determine_congr (D := D) (D' := { D with qmax := 0 }) psel rfl rfl rfl ?_ ?_ (.inr ⟨h.not_gt, h0⟩) rfl fun _ _ => rfl).symm
  · unfold Data.rcmin; rw [if_neg h.not_gt, if_neg h0]
  · unfold Data.rcmax; rw [if_neg h.not_gt, if_neg h0]

/-- "DQ dampening Qdamp: not applied" is true: the curve is that with qdamp = 0. -/
theorem C70_qdamp (D : Det.Data) (h : D.qdamp ≤ 0) (psel : List (Option (PPhase × Sel))) :
    determine D psel = determine { D with qdamp := 0 } psel := by
  have h0 : ¬(0 : ℝ) < 0 := lt_irrefl _
  refine (determine_congr (D := D) (D' := { D with qdamp := 0 }) psel rfl rfl rfl rfl rfl (.inl rfl) rfl fun ph r => ?_).symm
  unfold envelope
  rw [if_neg h.not_gt, if_neg h0]

/-- Only the magnitude of qbroad has an effect. -/
theorem C70_qbroad_sign (D : Det.Data) (psel : List (Option (PPhase × Sel))) :
    determine D psel = determine { D with qbroad := |D.qbroad| } psel :=
  (determine_congr (D := D) (D' := { D with qbroad := |D.qbroad| }) psel rfl rfl rfl rfl rfl (.inl rfl) (sq_abs _) fun _ _ => rfl).symm

/-- (partial) "DQ broadening Qbroad: not applied" is true for a qbroad that is not negative. -/
theorem C70_qbroad_partial (D : Det.Data) (h : D.qbroad ≤ 0) (h0 : 0 ≤ D.qbroad) (psel : List (Option (PPhase × Sel))) :
    determine D psel = determine { D with qbroad := 0 } psel := by
  rw [show ({ D with qbroad := 0 } : Det.Data) = D by rw [← le_antisymm h h0]]

theorem total_congr (D : Det.Data) (f : PPhase → PPhase) (hf : ∀ ph s, phaseCalc D (f ph) s = phaseCalc D ph s) (hs : ∀ ph, (f ph).pscale = ph.pscale)
    (psel : List (Option (PPhase × Sel))) : determine D (psel.map (Option.map fun x => (f x.1, x.2))) = determine D psel := by
  have : Det.total D (psel.map (Option.map fun x => (f x.1, x.2))) = Det.total D psel := by
    induction psel with
    | nil => rfl
    | cons x l ih =>
      cases x with
      | none => exact ih
      | some x =>
        simp only [List.map_cons, Option.map_some]
        unfold Det.total
        simp only [hf, hs, ih]
  unfold determine
  rw [this]

/-- "Particle diameter: not applied" is true. -/
theorem C70_diameter (D : Det.Data) (psel : List (Option (PPhase × Sel))) :
    determine D (psel.map (Option.map fun x => ((if x.1.spdiameter ≤ 0 then { x.1 with spdiameter := 0 } else x.1), x.2))) = determine D psel := by
  refine total_congr D (fun ph => if ph.spdiameter ≤ 0 then { ph with spdiameter := 0 } else ph) (fun ph s => ?_) (fun ph => ?_) psel
  · split
    · rename_i h
      have he : ∀ r, envelope D { ph with spdiameter := 0 } r = envelope D ph r := fun r => by
        unfold envelope
        rw [if_neg (lt_irrefl (0 : ℝ)), if_neg h.not_gt]
      have ca : ∀ p, calcAt D { ph with spdiameter := 0 } s p = calcAt D ph s p := fun p => by
        funext i
        unfold calcAt
        rw [he]
        rfl
      unfold phaseCalc
      simp only [ca]
      rfl
    · rfl
  · split <;> rfl

/-- "Step cutoff: not applied" is true. -/
theorem C70_stepcut (D : Det.Data) (psel : List (Option (PPhase × Sel))) :
    determine D (psel.map (Option.map fun x => ((if x.1.stepcut ≤ 0 then { x.1 with stepcut := 0 } else x.1), x.2))) = determine D psel := by
  refine total_congr D (fun ph => if ph.stepcut ≤ 0 then { ph with stepcut := 0 } else ph) (fun ph s => ?_) (fun ph => ?_) psel
  · split
    · rename_i h
      have he : ∀ r, envelope D { ph with stepcut := 0 } r = envelope D ph r := fun r => by
        unfold envelope
        rw [if_neg (c := (0 : ℝ) < ({ ph with stepcut := 0 } : PPhase).stepcut) (lt_irrefl (0 : ℝ)), if_neg (c := 0 < ph.stepcut) h.not_gt]
      have hs : sphere D { ph with stepcut := 0 } = sphere D ph := by
        unfold sphere
        rw [if_neg (c := (0 : ℝ) < ({ ph with stepcut := 0 } : PPhase).stepcut) (lt_irrefl (0 : ℝ)), if_neg (c := 0 < ph.stepcut) h.not_gt]
        rfl
      have hi : ∀ x y, ie D { ph with stepcut := 0 } x y = ie D ph x y := fun x y => by
        unfold ie
        rw [if_neg (c := (0 : ℝ) < ({ ph with stepcut := 0 } : PPhase).stepcut) (lt_irrefl (0 : ℝ)), if_neg (c := 0 < ph.stepcut) h.not_gt]
      have hv : Det.visited D { ph with stepcut := 0 } s = Det.visited D ph s := by
        unfold Det.visited
        rw [hs]
      have inc : ∀ i j e, incs D { ph with stepcut := 0 } i j e = incs D ph i j e := fun i j e => by
        unfold incs
        cases e with
        | peak d g => simp only [hi]; rfl
        | skip => rfl
        | nan => rfl
      have eo : ∀ x, eventOf D { ph with stepcut := 0 } x = eventOf D ph x := fun x => rfl
      have pp : ppp D { ph with stepcut := 0 } s = ppp D ph s := by
        unfold ppp
        rw [hv]
        simp only [inc, eo]
      have ca : ∀ p, calcAt D { ph with stepcut := 0 } s p = calcAt D ph s p := fun p => by
        funext i
        unfold calcAt
        rw [he]
        rfl
      have ba : Bad D { ph with stepcut := 0 } s ↔ Bad D ph s := by
        unfold Bad
        rw [hv]
        rfl
      unfold phaseCalc
      simp only [ca, pp]
      by_cases hb : Bad D ph s
      · simp only [if_pos hb, if_pos (ba.2 hb)]
      · simp only [if_neg hb, if_neg fun h => hb (ba.1 h)]
    · rfl
  · split <;> rfl

end settings

/-! ## The report and the curve -/

/-- The number that is written is `x`. -/
def Shows (v : Val) (x : ℝ) : Prop := ∃ n, v = .num n ∧ 0 ≤ n.mag ∧ x = if n.neg then -(n.mag : ℝ) else n.mag

theorem Shows.nonpos {v : Val} {x : ℝ} (h : Shows v x) : nonpos v = true ↔ x ≤ 0 := by
  obtain ⟨⟨s, m⟩, rfl, h0, rfl⟩ := h
  have h0' : (0 : ℝ) ≤ (m : ℝ) := by exact_mod_cast h0
  cases s
  · have : (m : ℝ) ≤ 0 ↔ m = 0 := ⟨fun h => by have := le_antisymm h h0'; exact_mod_cast this, fun h => by rw [h]; simp⟩
    simpa [RText.nonpos] using this.symm
  · simpa [RText.nonpos] using h0

/-- (partial) Whoever reads "not applied" in the section knows that the curve is the one without the setting; and whoever reads a number, that the setting
is positive. For qbroad, if it is not negative. -/
theorem C70_settings_partial (d : DataR) (h : OkData d) (D : Det.Data) (hq : Shows d.qmax D.qmax) (hd : Shows d.qdamp D.qdamp)
    (hb : Shows d.qbroad D.qbroad) (S : DataS) (hS : readData (dataText d) = some S) (psel : List (Option (Det.PPhase × Det.Sel))) :
    (S.qmax = none → Det.determine D psel = Det.determine { D with qmax := 0 } psel) ∧ (S.qmax ≠ none → 0 < D.qmax) ∧
    (S.qdamp = none → Det.determine D psel = Det.determine { D with qdamp := 0 } psel) ∧ (S.qdamp ≠ none → 0 < D.qdamp) ∧
    (S.qbroad = none → 0 ≤ D.qbroad → Det.determine D psel = Det.determine { D with qbroad := 0 } psel) ∧ (S.qbroad ≠ none → 0 < D.qbroad) := by
  rw [C70_read d h, Option.some.injEq] at hS
  subst hS
  have key : ∀ {α : Type} (v : Val) (x : ℝ) (y : α), Shows v x →
      ((if RText.nonpos v then none else some y) = none → x ≤ 0) ∧ ((if RText.nonpos v then none else some y) ≠ none → 0 < x) := by
    intro α v x y hv
    by_cases hp : RText.nonpos v = true
    · rw [if_pos hp]
      exact ⟨fun _ => hv.nonpos.1 hp, fun h => absurd rfl h⟩
    · rw [if_neg hp]
      exact ⟨fun h => (Option.some_ne_none _ h).elim, fun _ => not_le.1 fun h => hp (hv.nonpos.2 h)⟩
  exact ⟨fun h => C70_qmax D ((key _ _ _ hq).1 h) psel, (key _ _ _ hq).2, fun h => C70_qdamp D ((key _ _ _ hd).1 h) psel, (key _ _ _ hd).2,
    fun h h0 => C70_qbroad_partial D ((key _ _ _ hb).1 h) h0 psel, (key _ _ _ hb).2⟩

/-! ## Violation: a negative qbroad -/

section violation
open Det C68

/-- The data set of C68 with the range 1-3 and the given qbroad. -/
noncomputable def broadD (b : ℝ) : Det.Data := { span isoD 1 3 with qbroad := b }

theorem broad_ok (b : ℝ) : (broadD b).Ok := ⟨by norm_num [broadD, span, isoD], le_refl (1 : ℝ), by norm_num [broadD, span]⟩

theorem broad_rc (b : ℝ) : (broadD b).rcmin = 1 ∧ (broadD b).rcmax = 3 := span_rc (D := isoD) (lo := 1) (hi := 3) le_rfl

theorem nint_of (x : ℝ) (n : ℤ) (e : x = n) : nint x = n := by rw [e, nint_int]

/-- Without broadening no peak reaches r = 1.5: the nearest neighbours are at 3 Å and the width is 0.1 Å. -/
theorem broad_none : pairSum (broadD 0) (iso (1 / 200)) C60.noSel 1 = 0 := by
  rw [pairSum_iso]
  refine finsum_eq_zero_of_forall_eq_zero fun T => ?_
  rw [term_char, if_neg]
  rintro ⟨⟨⟨h1, -⟩, -⟩, h2, -⟩
  have h1 := (le_max_left _ _).trans h1
  rw [iso_d2] at h1
  have hT : T ≠ 0 := by
    rintro rfl
    norm_num at h1
  rw [(iso_width _ (broadD 0) rfl T).2, if_neg hT] at h2
  unfold ib at h2
  rw [(broad_rc 0).1, iso_d2, show (2 * (1 / 200) : ℝ) = (1 / 10) ^ 2 by norm_num,
    Real.sqrt_sq (by norm_num)] at h2
  have h3 : (1 : ℝ) ≤ (T.1 : ℝ) ^ 2 + (T.2.1 : ℝ) ^ 2 + (T.2.2 : ℝ) ^ 2 := by
    have : (0 : ℝ) < ((T.1 ^ 2 + T.2.1 ^ 2 + T.2.2 ^ 2 : ℤ) : ℝ) := by push_cast; linarith [norm_pos hT]
    have : (1 : ℤ) ≤ T.1 ^ 2 + T.2.1 ^ 2 + T.2.2 ^ 2 := by exact_mod_cast this
    have : ((1 : ℤ) : ℝ) ≤ ((T.1 ^ 2 + T.2.1 ^ 2 + T.2.2 ^ 2 : ℤ) : ℝ) := by exact_mod_cast this
    push_cast at this
    exact this
  have h4 : (3 : ℝ) ≤ √(9 * ((T.1 : ℝ) ^ 2 + (T.2.1 : ℝ) ^ 2 + (T.2.2 : ℝ) ^ 2)) := Real.le_sqrt_of_sq_le (by linarith)
  have h5 : nint 3 ≤ (1 : ℤ) := by
    refine le_trans (nint_mono ?_) h2
    show 3 ≤ (max 1 (√(9 * ((T.1 : ℝ) ^ 2 + (T.2.1 : ℝ) ^ 2 + (T.2.2 : ℝ) ^ 2)) - 5 * (1 / 10)) - 1) / (1 / 2)
    have := le_max_right (1 : ℝ) (√(9 * ((T.1 : ℝ) ^ 2 + (T.2.1 : ℝ) ^ 2 + (T.2.2 : ℝ) ^ 2)) - 5 * (1 / 10))
    linarith
  rw [nint_of 3 3 (by norm_num)] at h5
  norm_num at h5

/-- With qbroad = -1 the width is 0.1 √10 Å and they do. -/
theorem broad_some : 0 < pairSum (broadD (-1)) (iso (1 / 200)) C60.noSel 1 := by
  have r := broad_rc (-1)
  have hl : 0 < (iso (1 / 200)).atom.length := one_pos
  rw [pairSum_iso]
  have hT : ((1, 0, 0) : ℤ × ℤ × ℤ) ≠ 0 := by decide
  have hd : d2 (iso (1 / 200)) ((iso (1 / 200)).atm 0) ((iso (1 / 200)).atm 0) (1, 0, 0) = 9 := by rw [iso_d2]; norm_num
  have e : √(9 : ℝ) = 3 := by rw [show (9 : ℝ) = 3 ^ 2 by norm_num, Real.sqrt_sq (by norm_num)]
  have hc : corfact (broadD (-1)) (iso (1 / 200)) 9 = 10 := by
    unfold corfact
    rw [show (iso (1 / 200)).delta2 = 0 from rfl, show (iso (1 / 200)).delta1 = 0 from rfl, show (broadD (-1)).qbroad = -1 from rfl]
    norm_num
  have hw : width (broadD (-1)) (iso (1 / 200)) ((iso (1 / 200)).atm 0) ((iso (1 / 200)).atm 0) (1, 0, 0) = 1 / 10 * √10 := by
    unfold width sigma
    rw [hd, hc, iso_msd, if_neg hT, if_neg (by rw [show (iso (1 / 200)).rcut = 0 from rfl]; exact not_lt.2 (Real.sqrt_nonneg _)),
      show (2 * (1 / 200) : ℝ) = (1 / 10) ^ 2 by norm_num, Real.sqrt_sq (by norm_num)]
  have hs1 : (31 / 10 : ℝ) ≤ √10 := Real.le_sqrt_of_sq_le (by norm_num)
  refine lt_of_lt_of_le ?_ (single_le_finsum (1, 0, 0) (C60.term_support _ (iso_fine _) (iso_near _) le_rfl hl hl 1 1)
    fun T => C60.term_nonneg _ _ zero_le_one le_rfl T 1)
  rw [term_char, if_pos]
  · rw [hw, one_mul]
    unfold gaus
    have := Real.pi_pos
    have : 0 < √(10 : ℝ) := by linarith
    positivity
  · rw [hw, hd, e]
    refine ⟨⟨⟨?_, ?_⟩, ?_, ?_, ?_⟩, ?_, ?_⟩
    · unfold Data.rmin2
      rw [r.1]
      norm_num
    · unfold Data.rmax2
      rw [r.2]
      norm_num
    · rw [iso_msd, if_neg hT]; norm_num
    · rw [hd, hc]; norm_num
    · have : 0 < √(10 : ℝ) := by linarith
      rw [hw]
      positivity
    · refine (nint_mono (y := 1) ?_).trans (nint_of 1 1 (by norm_num)).le
      rw [r.1]
      show (max 1 (3 - 5 * (1 / 10 * √10)) - 1) / (1 / 2) ≤ 1
      have : max 1 (3 - 5 * (1 / 10 * √10)) ≤ 3 / 2 := max_le (by norm_num) (by linarith)
      linarith
    · refine (nint_of 1 1 (by norm_num)).ge.trans (nint_mono ?_)
      rw [if_neg (by exact lt_irrefl (0 : ℝ)), r.2]
      show 1 ≤ (min 3 (3 + 5 * (1 / 10 * √10)) - 1) / (1 / 2)
      rw [min_eq_left (by linarith)]
      norm_num

/-- Violation: qbroad = -1. The report says "not applied", yet the value at r = 1.5 is not that without broadening. -/
theorem C70_qbroad_negative : ∃ f f', determine (broadD (-1)) [some (iso (1 / 200), C60.noSel)] = .ok (some f) ∧
    determine { broadD (-1) with qbroad := 0 } [some (iso (1 / 200), C60.noSel)] = .ok (some f') ∧
    (broadD (-1)).nfmin ≤ 1 ∧ 1 ≤ (broadD (-1)).nfmax ∧ f' 1 < f 1 := by
  obtain ⟨f, e1, e2⟩ := determine_of (broad_ok (-1)) (psel := [some (iso (1 / 200), C60.noSel)]) (by
    intro x hx
    simp only [List.mem_singleton, Option.some.injEq] at hx
    subst hx
    exact iso_good (by norm_num) (broad_ok (-1)) one_pos _)
  obtain ⟨f', e1', e2'⟩ := determine_of (broad_ok 0) (psel := [some (iso (1 / 200), C60.noSel)]) (by
    intro x hx
    simp only [List.mem_singleton, Option.some.injEq] at hx
    subst hx
    exact iso_good (by norm_num) (broad_ok 0) one_pos _)
  have a1 : ∀ b, (broadD b).nfmin ≤ 1 := fun b => by
    rw [show (broadD b).nfmin = (span isoD 1 3).nfmin from rfl, isoD_nf.1, nint_of _ 0 (by norm_num)]; norm_num
  have a2 : ∀ b, 1 ≤ (broadD b).nfmax := fun b => by
    rw [show (broadD b).nfmax = (span isoD 1 3).nfmax from rfl, isoD_nf.2, nint_of _ 4 (by norm_num)]; norm_num
  refine ⟨f, f', e1, e1', a1 _, a2 _, ?_⟩
  rw [e2 1 ((ncmin_le_nfmin (broad_ok _)).trans (a1 _)) ((a2 _).trans (nfmax_le_ncmax (broad_ok _))),
    e2' 1 ((ncmin_le_nfmin (broad_ok _)).trans (a1 _)) ((a2 _).trans (nfmax_le_ncmax (broad_ok _)))]
  have hq : ∀ (b : ℝ) (c : ℤ → ℝ), filt (broadD b) c 1 = c 1 := fun hi c => if_neg (lt_irrefl (0 : ℝ))
  have henv : ∀ (b x : ℝ), envelope (broadD b) (iso (1 / 200)) x = 1 := by
    intro b x
    unfold envelope
    rw [if_neg (show ¬0 < (broadD b).qdamp from lt_irrefl (0 : ℝ)),
      if_neg (show ¬0 < (iso (1 / 200)).spdiameter from lt_irrefl (0 : ℝ)),
      if_neg (show ¬0 < (iso (1 / 200)).stepcut from lt_irrefl (0 : ℝ))]
    norm_num
  have hr : ∀ b, (broadD b).r 1 = 3 / 2 := fun b => by
    show ((1 : ℤ) : ℝ) * (1 / 2) + 1 = 3 / 2
    norm_num
  have hd : ∀ b, (broadD b).dscale = 1 := fun b => rfl
  simp only [List.filterMap_cons, List.filterMap_nil, id, List.map_cons, List.map_nil, List.sum_cons, List.sum_nil, hq, hd]
  unfold curve
  rw [henv, henv, hr, hr, broad_none, iso_np, show (iso (1 / 200)).pscale = 2 from rfl]
  have := broad_some
  linarith

end violation

/-! ## Example -/

open C64 (dec)

/-- Neutron data of nickel; the second phase is not used. -/
def niData : DataR where
  iset := 1
  name := "Ni 300K (NPDF).gr".toList
  rmin := dec 1 2
  rmax := dec 20 0
  deltar := dec 1 2
  rcmin := dec 3 1
  rcmax := dec 1025 2
  rfmin := dec 15 1
  rfmax := dec 10 0
  nfmin := 149
  nfmax := 999
  redchisq := dec 12345678 7
  rw := dec 112 3
  xray := false
  qmax := dec 25 0
  qdamp := dec 4 2
  dqdamp := dec 13 4
  qbroad := .num ⟨true, 1⟩
  dqbroad := dec 0 0
  dscale := dec 98 2
  ddscale := .nan false
  phases := [⟨some (" Ni".toList, " Ni, !2".toList), fun _ => dec 1 0, fun _ => dec 0 0⟩, ⟨none, fun _ => dec 0 0, fun _ => dec 5 2⟩]

theorem niData_ok : OkData niData := by
  have hd : ∀ n d, Ok (dec n d) := fun n d => by
    show (0 : ℚ) ≤ (n : ℚ) / 10 ^ d
    positivity
  refine ⟨by decide, hd _ _, hd _ _, hd _ _, hd _ _, hd _ _, hd _ _, hd _ _, hd _ _, hd _ _, hd _ _, ⟨hd _ _, hd _ _⟩,
    ⟨by show (0 : ℚ) ≤ 1; norm_num, hd _ _⟩, ⟨hd _ _, trivial⟩, ?_, ?_⟩
  · decide
  · intro p hp i
    simp only [niData, List.mem_cons, List.not_mem_nil, or_false] at hp
    rcases hp with rfl | rfl <;> exact ⟨hd _ _, hd _ _⟩

example : (dataLines niData).drop 1 = [" DATA SET : 1 (Ni 300K (NPDF).gr)".toList, rule,
    " Data range in r [A]    : 0.01     -> 20            Step dr  : 0.01".toList,
    " Calculated range       : 0.3      -> 10.25".toList,
    " Refinement r range     : 1.5      -> 10            Data pts : 149   -> 999".toList,
    " Reduced chi squared    : 1.23457".toList, " Rw - value             : 0.112".toList, [], [],
    " Experimental settings  :".toList, "   Radiation            : Neutrons".toList,
    "   Termination at Qmax  : 25 A**-1".toList, "   DQ dampening Qdamp   : 0.04 (0.0013) A**-1".toList,
    "   DQ broadening Qbroad : not applied".toList, "   Scale factor         : 0.98 (NaN)".toList, [],
    " Selected phases and atoms for this data set :".toList, "   Phase 1 :".toList, "     Atoms (i) : Ni".toList, "     Atoms (j) : Ni, !2".toList, [],
    " Relative phase content in terms of".toList, "           atoms                   unit cells              mass".toList,
    " Phase 1 : 1                       1                       1".toList,
    " Phase 2 : 0 (0.05)                0 (0.05)                0 (0.05)".toList, []] := by decide +kernel

example : readData (dataText niData) = some (summary niData) := C70_read niData niData_ok

example : (summary niData).qmax = some (dec 25 0) ∧ (summary niData).qdamp = some (dec 4 2, some (dec 13 4)) ∧ (summary niData).qbroad = none ∧
    (summary niData).redchisq = dec 123457 5 ∧ (summary niData).sel = [(1, " Ni".toList, " Ni, !2".toList)] := by decide +kernel

/-- The report of a data set with qbroad = -1 says "not applied". -/
example : ∃ S, readData (dataText niData) = some S ∧ S.qbroad = none ∧ Shows niData.qbroad (broadD (-1)).qbroad :=
  ⟨_, C70_read niData niData_ok, by decide +kernel, ⟨true, 1⟩, rfl, zero_le_one, by norm_num [broadD]⟩

end Pdffit.C70
