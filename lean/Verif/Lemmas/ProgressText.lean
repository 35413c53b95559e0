import Verif.Model.Progress
import Verif.Props.C64

/-! Lemmas about the text of the messages of a refinement. -/

namespace Pdffit.Progress
open Stru hiding unlines
open RText
open DataRead (isSpace)

/-! ## The lines -/

/-- One parameter. -/
def word (x : ℕ × Val) : List Char := pad 4 (natStr x.1) ++ ": ".toList ++ pad 9 (fixText x.2)

/-- Four parameters in a line. -/
def parLines : List (ℕ × Val) → List (List Char)
  | [] => []
  | [a] => [word a ++ "  ".toList]
  | [a, b] => [word a ++ "  ".toList ++ word b ++ "  ".toList]
  | [a, b, c] => [word a ++ "  ".toList ++ word b ++ "  ".toList ++ word c ++ "  ".toList]
  | a :: b :: c :: d :: l => (word a ++ "  ".toList ++ word b ++ "  ".toList ++ word c ++ "  ".toList ++ word d) :: parLines l

/-- The line with the figures. -/
def figLine {K : Type} (S : Shw K) (f : Figs K) (stag : Bool) : List Char :=
  " chisq.: ".toList ++ text 6 (S.chisq f.chisq) ++ "   red.chisq.: ".toList ++ text 6 (S.red f.chisq f.nred) ++ "   Rw: ".toList ++ text 6 (S.rw f.rw2) ++
    if stag then "    stagnating".toList else []

def figLines {K : Type} (S : Shw K) (f : Figs K) (stag : Bool) : List (List Char) :=
  [] :: " Refinement parameters :".toList :: (parLines (valPars S f.pars) ++ [[], figLine S f stag])

def msgLines {K : Type} (S : Shw K) : Msg K → List (List Char)
  | .start sets => stars 19 :: "Starting refinement".toList :: stars 19 :: sets.map setText
  | .iter n f stag => [] :: (stars 32 ++ " ITER: ".toList ++ natStr n ++ ' ' :: stars 32) :: figLines S f stag
  | .finalHead => [[], bars 32 ++ " FINAL ".toList ++ bars 34]
  | .final f => figLines S f false ++ [[], bars 73, []]

theorem unlines_append (a b : List (List Char)) : unlines (a ++ b) = unlines a ++ unlines b := by simp [unlines]

theorem unlines_cons (a : List Char) (b : List (List Char)) : unlines (a :: b) = a ++ '\n' :: unlines b := by simp [unlines]

theorem mod4 (j : ℕ) (h : j % 4 = 0) : (j + 1) % 4 ≠ 0 ∧ (j + 1 + 1) % 4 ≠ 0 ∧ (j + 1 + 1 + 1) % 4 ≠ 0 ∧ (j + 1 + 1 + 1 + 1) % 4 = 0 := by omega

theorem outPars_text (l : List (ℕ × Val)) : ∀ (j : ℕ) (o : Out), j % 4 = 0 → (outPars j l o).text = o.text ++ unlines (parLines l) := by
  induction l using parLines.induct with
  | case1 => intro j o h; simp [outPars, h, parLines, unlines]
  | case2 a =>
    intro j o h
    obtain ⟨h1, h2, h3, h4⟩ := mod4 j h
    simp [outPars, Out.str, Out.val, word, parLines, unlines, h1]
  | case3 a b =>
    intro j o h
    obtain ⟨h1, h2, h3, h4⟩ := mod4 j h
    simp [outPars, Out.str, Out.val, word, parLines, unlines, h1, h2]
  | case4 a b c =>
    intro j o h
    obtain ⟨h1, h2, h3, h4⟩ := mod4 j h
    simp [outPars, Out.str, Out.val, word, parLines, unlines, h1, h2, h3]
  | case5 a b c d l ih =>
    intro j o h
    obtain ⟨h1, h2, h3, h4⟩ := mod4 j h
    rw [outPars, outPars, outPars, outPars, ih _ _ h4]
    simp [Out.str, Out.val, word, parLines, unlines_cons, h1, h2, h3, h4]

theorem out_text (l : List (ℕ × Val)) (o : Out) :
    out l o = ⟨o.text ++ unlines ([] :: " Refinement parameters :".toList :: (parLines l ++ [[]])), false⟩ := by
  unfold out
  simp only [Out.str, outPars_text l 0 _ rfl]
  simp [unlines]

theorem outFigs_text {K : Type} (S : Shw K) (f : Figs K) (stag : Bool) (o : Out) (h : o.fixed = false) :
    outFigs S f stag o = ⟨o.text ++ unlines [figLine S f stag], false⟩ := by
  obtain ⟨t, b⟩ := o
  dsimp only at h
  subst h
  have p0 : ∀ x : List Char, pad 0 x = x := fun x => by rw [pad, Nat.zero_sub]; rfl
  have u1 : ∀ x : List Char, unlines [x] = x ++ ['\n'] := fun x => by simp [unlines]
  rw [u1]
  unfold outFigs figLine
  generalize " chisq.: ".toList = a
  generalize "   red.chisq.: ".toList = b
  generalize "   Rw: ".toList = c
  generalize "    stagnating".toList = d
  cases stag
  · simp only [Out.str, Out.val, p0, Bool.false_eq_true, if_false, List.append_assoc, List.nil_append]
  · simp only [Out.str, Out.val, p0, Bool.false_eq_true, if_false, if_true, List.append_assoc]

theorem put_text {K : Type} (S : Shw K) (m : Msg K) (o : Out) (h : o.fixed = false) : put S o m = ⟨o.text ++ unlines (msgLines S m), false⟩ := by
  obtain ⟨t, b⟩ := o
  dsimp only at h
  subst h
  cases m with
  | start sets =>
    have : ∀ (l : List (ℕ × List ℕ)) (t : List Char), l.foldl (fun (o : Out) s => o.str (setText s ++ ['\n'])) ⟨t, false⟩ = ⟨t ++ unlines (l.map setText), false⟩ := by
      intro l
      induction l with
      | nil => intro t; simp [unlines]
      | cons a l ih => intro t; rw [List.foldl_cons, show (⟨t, false⟩ : Out).str (setText a ++ ['\n']) = ⟨t ++ (setText a ++ ['\n']), false⟩ from rfl, ih]; simp [unlines]
    have e : put S ⟨t, false⟩ (.start sets) = sets.foldl (fun (o : Out) s => o.str (setText s ++ ['\n']))
        ⟨t ++ unlines [stars 19, "Starting refinement".toList, stars 19], false⟩ := rfl
    rw [e, this, List.append_assoc, ← unlines_append]
    rfl
  | iter n f stag =>
    simp only [put, out_text, Out.str, outFigs_text]
    simp [msgLines, figLines, unlines]
  | finalHead => simp [put, Out.str, msgLines, unlines]
  | final f =>
    simp only [put, out_text, Out.str, outFigs_text]
    simp [msgLines, figLines, unlines]

theorem log_text {K : Type} (S : Shw K) (l : List (Msg K)) : logText S l = unlines (l.flatMap (msgLines S)) := by
  have : ∀ (l : List (Msg K)) (t : List Char), l.foldl (put S) ⟨t, false⟩ = ⟨t ++ unlines (l.flatMap (msgLines S)), false⟩ := by
    intro l
    induction l with
    | nil => intro t; simp [unlines]
    | cons a l ih =>
      intro t
      rw [List.foldl_cons, put_text S a _ rfl, ih, List.flatMap_cons, unlines_append, List.append_assoc]
  unfold logText
  rw [this]
  rfl

/-! ## No line contains a line end -/

theorem nat_nl (n : ℕ) : '\n' ∉ natStr n := dig_nl (natStr_dig n)

theorem fixText_nl (v : Val) : '\n' ∉ fixText v := by
  cases v with
  | num x =>
    intro h
    have := (fixNum_chars 6 x _ h).1
    revert this
    decide
  | inf b => exact text_nl 6 (.inf b)
  | nan b => exact text_nl 6 (.nan b)

theorem pad_nl {n : ℕ} {s : List Char} (h : '\n' ∉ s) : '\n' ∉ pad n s := by
  unfold pad
  rw [List.mem_append, not_or]
  exact ⟨fun hh => absurd (List.eq_of_mem_replicate hh) (by decide), h⟩

theorem word_nl (x : ℕ × Val) : '\n' ∉ word x := by
  unfold word
  simp only [List.mem_append, not_or]
  exact ⟨⟨pad_nl (nat_nl _), by decide⟩, pad_nl (fixText_nl _)⟩

theorem parLines_nl (l : List (ℕ × Val)) : ∀ t ∈ parLines l, '\n' ∉ t := by
  have h2 : '\n' ∉ "  ".toList := by decide
  induction l using parLines.induct with
  | case1 => simp [parLines]
  | case2 a => simp only [parLines, List.mem_singleton, forall_eq, List.mem_append, not_or]; exact ⟨word_nl _, h2⟩
  | case3 a b => simp only [parLines, List.mem_singleton, forall_eq, List.mem_append, not_or]; exact ⟨⟨⟨word_nl _, h2⟩, word_nl _⟩, h2⟩
  | case4 a b c =>
    simp only [parLines, List.mem_singleton, forall_eq, List.mem_append, not_or]
    exact ⟨⟨⟨⟨⟨word_nl _, h2⟩, word_nl _⟩, h2⟩, word_nl _⟩, h2⟩
  | case5 a b c d l ih =>
    intro t ht
    simp only [parLines, List.mem_cons] at ht
    rcases ht with rfl | ht
    · simp only [List.mem_append, not_or]
      exact ⟨⟨⟨⟨⟨⟨word_nl _, h2⟩, word_nl _⟩, h2⟩, word_nl _⟩, h2⟩, word_nl _⟩
    · exact ih t ht

theorem figLines_nl {K : Type} (S : Shw K) (f : Figs K) (stag : Bool) : ∀ t ∈ figLines S f stag, '\n' ∉ t := by
  intro t ht
  simp only [figLines, List.mem_cons, List.mem_append, List.not_mem_nil, or_false] at ht
  rcases ht with rfl | rfl | ht | rfl | rfl
  · simp
  · decide
  · exact parLines_nl _ t ht
  · simp
  · unfold figLine
    simp only [List.mem_append, not_or]
    exact ⟨⟨⟨⟨⟨⟨by decide, text_nl _ _⟩, by decide⟩, text_nl _ _⟩, by decide⟩, text_nl _ _⟩, by cases stag <;> decide⟩

theorem setText_nl (s : ℕ × List ℕ) : '\n' ∉ setText s := by
  unfold setText
  simp only [List.mem_append, not_or, List.mem_flatMap, not_exists, not_and]
  exact ⟨⟨⟨by decide, nat_nl _⟩, by decide⟩, fun p _ => ⟨nat_nl p, by decide⟩⟩

theorem msgLines_nl {K : Type} (S : Shw K) (m : Msg K) : ∀ t ∈ msgLines S m, '\n' ∉ t := by
  intro t ht
  cases m with
  | start sets =>
    simp only [msgLines, List.mem_cons, List.mem_map] at ht
    rcases ht with rfl | rfl | rfl | ⟨s, -, rfl⟩
    · decide
    · decide
    · decide
    · exact setText_nl s
  | iter n f stag =>
    simp only [msgLines, List.mem_cons] at ht
    rcases ht with rfl | rfl | ht
    · simp
    · simp only [List.mem_append, not_or]
      exact ⟨⟨by decide, nat_nl n⟩, by decide⟩
    · exact figLines_nl S f stag t ht
  | finalHead =>
    simp only [msgLines, List.mem_cons, List.not_mem_nil, or_false] at ht
    rcases ht with rfl | rfl <;> decide
  | final f =>
    simp only [msgLines, List.mem_append, List.mem_cons, List.not_mem_nil, or_false] at ht
    rcases ht with ht | rfl | rfl | rfl
    · exact figLines_nl S f false t ht
    · decide
    · decide
    · decide

/-! ## Reading -/

/-- A blank or the end of the line. -/
def Blank (t : List Char) : Prop := ∀ c, t.head? = some c → c = ' '

theorem Blank.stop {t : List Char} (h : Blank t) : Stop t := by
  intro c hc
  rw [h c hc]
  decide

theorem Blank.ends {t : List Char} (h : Blank t) : Ends t := by
  intro c hc
  rw [h c hc]
  exact .inl (by decide)

theorem blank_nil : Blank [] := by intro c hc; cases hc

theorem blank_cons (t : List Char) : Blank (' ' :: t) := by intro c hc; simpa using hc.symm

/-- What can be read of a parameter: six decimal places. -/
def seenPar : Val → Val
  | .num x => .num (rndNum 6 x)
  | v => v

theorem readVal_fix (v : Val) (w t : List Char) (hw : ∀ c ∈ w, isSpace c = true) (ht : Blank t) :
    readVal (w ++ (fixText v ++ t)) = some (seenPar v, t) := by
  cases v with
  | num x =>
    have h0 : ∀ k < 10, digit k ≠ 'i' ∧ digit k ≠ 'n' := by decide
    have hs := scanNum_fix 6 x w t hw ht.ends
    set m := rhe (x.mag * 10 ^ 6) with hm
    have htext : fixNum 6 x ++ t = sign x.neg ++ natStr (m / 10 ^ 6) ++ ('.' :: (fracStr 6 (m % 10 ^ 6) ++ t)) := by simp [fixNum, ← hm]
    obtain ⟨h1, h2⟩ := drop_spaces w hw x.neg (m / 10 ^ 6) ('.' :: (fracStr 6 (m % 10 ^ 6) ++ t))
    obtain ⟨c, l, hl⟩ := List.exists_cons_of_ne_nil (natStr_ne (m / 10 ^ 6))
    obtain ⟨k, hk, rfl⟩ := natStr_dig (m / 10 ^ 6) c (by rw [hl]; simp)
    unfold readVal
    show (let x' := getSign ((w ++ (fixNum 6 x ++ t)).dropWhile isSpace); _) = _
    rw [show fixText (.num x) = fixNum 6 x from rfl]
    have hg : getSign ((w ++ (fixNum 6 x ++ t)).dropWhile isSpace) = (x.neg, natStr (m / 10 ^ 6) ++ ('.' :: (fracStr 6 (m % 10 ^ 6) ++ t))) := by
      rw [htext, h1, h2]
    rw [hg, hl]
    dsimp only
    rw [if_neg (by intro e; simp at e; exact (h0 k hk).1 e.1), if_neg (by intro e; simp at e; exact (h0 k hk).2 e.1)]
    unfold scanG
    rw [hs]
    simp only [Option.bind_eq_bind, Option.bind_some, scanExp_none ht.stop]
    simp [seenPar]
  | inf b => exact readVal_text (p := 6) (by norm_num) (.inf b) trivial w t hw ht.stop
  | nan b => exact readVal_text (p := 6) (by norm_num) (.nan b) trivial w t hw ht.stop

theorem spaces (n : ℕ) : ∀ c ∈ List.replicate n ' ', isSpace c = true := by
  intro c hc
  rw [List.eq_of_mem_replicate hc]
  decide

theorem readWords_word (n : ℕ) (x : ℕ × Val) (w t : List Char) (hw : ∀ c ∈ w, isSpace c = true) (ht : Blank t) :
    readWords (n + 1) (w ++ (word x ++ t)) = (readWords n t).map ((x.1, seenPar x.2) :: ·) := by
  have e : w ++ (word x ++ t) = (w ++ List.replicate (4 - (natStr x.1).length) ' ') ++ (natStr x.1 ++ (':' :: ' ' :: (pad 9 (fixText x.2) ++ t))) := by
    simp [word, pad]
  have hw' : ∀ c ∈ w ++ List.replicate (4 - (natStr x.1).length) ' ', isSpace c = true := by
    intro c hc
    rcases List.mem_append.1 hc with hc | hc
    · exact hw c hc
    · exact spaces _ c hc
  have h1 := C64.scanNat x.1 (w ++ List.replicate (4 - (natStr x.1).length) ' ') (':' :: ' ' :: (pad 9 (fixText x.2) ++ t)) hw'
    (by intro c hc; simp at hc; rw [← hc]; decide)
  have h2 : readVal (' ' :: (pad 9 (fixText x.2) ++ t)) = some (seenPar x.2, t) := by
    have := readVal_fix x.2 (' ' :: List.replicate (9 - (fixText x.2).length) ' ') t (by
      intro c hc
      rcases List.mem_cons.1 hc with rfl | hc
      · decide
      · exact spaces _ c hc) ht
    simpa [pad] using this
  have hns : (w ++ (word x ++ t)).all isSpace = false := by
    rw [List.all_eq_false, e]
    obtain ⟨c, l, hl⟩ := List.exists_cons_of_ne_nil (natStr_ne x.1)
    obtain ⟨k, hk, hc⟩ := natStr_dig x.1 c (by rw [hl]; simp)
    refine ⟨c, by rw [hl]; simp, ?_⟩
    rw [hc, (digit_ok k hk).2.2.1]
    simp
  rw [readWords, if_neg (by rw [hns]; simp), e, h1]
  simp only [Option.bind_eq_bind, Option.bind_some, List.head?_cons, if_true, List.tail_cons, h2]
  cases readWords n t <;> simp

theorem readWords_blank (n : ℕ) (t : List Char) (h : t.all isSpace = true) : readWords n t = some [] := by
  unfold readWords
  rw [if_pos h]

theorem word_ne (x : ℕ × Val) : word x ≠ [] := by
  unfold word
  simp

theorem readParLines_text (l : List (ℕ × Val)) (rest : List (List Char)) :
    readParLines (parLines l ++ [] :: rest) = some (l.map (fun x => (x.1, seenPar x.2)), rest) := by
  have b2 : ∀ t : List Char, Blank ("  ".toList ++ t) := fun t => blank_cons _
  have s2 : ∀ c ∈ "  ".toList, isSpace c = true := by decide
  have s0 : ∀ c ∈ ([] : List Char), isSpace c = true := by simp
  have rb : ∀ n, readWords n "  ".toList = some [] := fun n => readWords_blank n _ (by decide)
  have rn : ∀ n, readWords n [] = some [] := fun n => readWords_blank n _ (by decide)
  have step : ∀ n x t, Blank t → readWords (n + 1) (word x ++ t) = (readWords n t).map ((x.1, seenPar x.2) :: ·) :=
    fun n x t ht => readWords_word n x [] t s0 ht
  have step2 : ∀ n x t, Blank t → readWords (n + 1) ("  ".toList ++ (word x ++ t)) = (readWords n t).map ((x.1, seenPar x.2) :: ·) :=
    fun n x t ht => readWords_word n x "  ".toList t s2 ht
  have bl : Blank "  ".toList := blank_cons _
  induction l using parLines.induct with
  | case1 => simp [parLines, readParLines]
  | case2 a =>
    simp only [parLines, List.cons_append, List.nil_append, readParLines, if_true]
    rw [if_neg (by simp [word_ne]), step 3 a _ bl, rb]
    simp
  | case3 a b =>
    simp only [parLines, List.cons_append, List.nil_append, readParLines, if_true]
    rw [if_neg (by simp [word_ne])]
    simp only [List.append_assoc]
    rw [step 3 a _ (b2 _), step2 2 b _ bl, rb]
    simp
  | case4 a b c =>
    simp only [parLines, List.cons_append, List.nil_append, readParLines, if_true]
    rw [if_neg (by simp [word_ne])]
    simp only [List.append_assoc]
    rw [step 3 a _ (b2 _), step2 2 b _ (b2 _), step2 1 c _ bl, rb]
    simp
  | case5 a b c d l ih =>
    have h4 : readWords 4 (word a ++ "  ".toList ++ word b ++ "  ".toList ++ word c ++ "  ".toList ++ word d) =
        some [(a.1, seenPar a.2), (b.1, seenPar b.2), (c.1, seenPar c.2), (d.1, seenPar d.2)] := by
      have hd : word d = word d ++ [] := by simp
      simp only [List.append_assoc]
      rw [hd, step 3 a _ (b2 _), step2 2 b _ (b2 _), step2 1 c _ (b2 _), step2 0 d _ blank_nil, rn]
      simp
    simp only [parLines, List.cons_append, readParLines]
    rw [if_neg (by simp [word_ne]), h4, ih]
    simp

/-- The values can be printed. -/
def FigsOk {K : Type} (S : Shw K) (f : Figs K) : Prop := Ok (S.chisq f.chisq) ∧ Ok (S.red f.chisq f.nred) ∧ Ok (S.rw f.rw2)

theorem app7 (a b c d e f g : List Char) : a ++ b ++ c ++ d ++ e ++ f ++ g = a ++ (b ++ (c ++ (d ++ (e ++ (f ++ g))))) := by simp

theorem app4 (a b c d : List Char) : a ++ b ++ c ++ d = a ++ (b ++ (c ++ d)) := by simp

theorem readFigLine_text {K : Type} (S : Shw K) (f : Figs K) (h : FigsOk S f) (stag : Bool) :
    readFigLine (figLine S f stag) = some (rnd 6 (S.chisq f.chisq), rnd 6 (S.red f.chisq f.nred), rnd 6 (S.rw f.rw2), stag) := by
  have h6 : 0 < 6 := by norm_num
  have s0 : ∀ c ∈ ([] : List Char), isSpace c = true := by simp
  have st : Stop (if stag then "    stagnating".toList else []) := by
    cases stag
    · exact blank_nil.stop
    · exact (blank_cons _).stop
  have e : figLine S f stag = " chisq.: ".toList ++ (text 6 (S.chisq f.chisq) ++ ("   red.chisq.: ".toList ++ (text 6 (S.red f.chisq f.nred) ++
      ("   Rw: ".toList ++ (text 6 (S.rw f.rw2) ++ if stag then "    stagnating".toList else []))))) := by
    unfold figLine
    exact app7 _ _ _ _ _ _ _
  have d1 : ∀ t, List.drop 9 (" chisq.: ".toList ++ t) = t := fun t => List.drop_left' (by decide)
  have d2 : ∀ t, List.drop 15 ("   red.chisq.: ".toList ++ t) = t := fun t => List.drop_left' (by decide)
  have d3 : ∀ t, List.drop 7 ("   Rw: ".toList ++ t) = t := fun t => List.drop_left' (by decide)
  have b1 : ∀ t, Stop ("   red.chisq.: ".toList ++ t) := fun t => (blank_cons _).stop
  have b2 : ∀ t, Stop ("   Rw: ".toList ++ t) := fun t => (blank_cons _).stop
  have r1 := fun t ht => readVal_text h6 (S.chisq f.chisq) h.1 [] t s0 ht
  have r2 := fun t ht => readVal_text h6 (S.red f.chisq f.nred) h.2.1 [] t s0 ht
  have r3 := fun t ht => readVal_text h6 (S.rw f.rw2) h.2.2 [] t s0 ht
  simp only [List.nil_append] at r1 r2 r3
  unfold readFigLine
  rw [e, d1, r1 _ (b1 _)]
  simp only [Option.bind_eq_bind, Option.bind_some]
  rw [d2, r2 _ (b2 _)]
  simp only [Option.bind_some]
  rw [d3, r3 _ st]
  cases stag <;> simp

theorem readFigs_text {K : Type} (S : Shw K) (f : Figs K) (h : FigsOk S f) (stag : Bool) (rest : List (List Char)) :
    readFigs (figLines S f stag ++ rest) = some (((valPars S f.pars).map (fun x => (x.1, seenPar x.2)), rnd 6 (S.chisq f.chisq),
      rnd 6 (S.red f.chisq f.nred), rnd 6 (S.rw f.rw2), stag), rest) := by
  unfold figLines readFigs
  simp only [List.cons_append, List.append_assoc, List.nil_append]
  rw [readParLines_text]
  simp only [Option.bind_eq_bind, Option.bind_some]
  rw [readFigLine_text S f h]
  simp

theorem readNats_text (l : List ℕ) : ∀ n, l.length ≤ n → ∀ w : List Char, (∀ c ∈ w, isSpace c = true) →
    readNats n (w ++ l.flatMap fun p => natStr p ++ "  ".toList) = some l := by
  induction l with
  | nil =>
    intro n _ w hw
    unfold readNats
    rw [if_pos (by simpa using hw)]
  | cons p l ih =>
    intro n hn w hw
    obtain ⟨n, rfl⟩ := Nat.exists_eq_add_of_le' (show 1 ≤ n from le_trans (by simp) hn)
    have e : w ++ (p :: l).flatMap (fun p => natStr p ++ "  ".toList) = w ++ (natStr p ++ ("  ".toList ++ l.flatMap fun p => natStr p ++ "  ".toList)) := by
      simp
    have h1 := C64.scanNat p w ("  ".toList ++ l.flatMap fun p => natStr p ++ "  ".toList) hw (by intro c hc; simp at hc; rw [← hc]; decide)
    have hns : (w ++ (natStr p ++ ("  ".toList ++ l.flatMap fun p => natStr p ++ "  ".toList))).all isSpace = false := by
      rw [List.all_eq_false]
      obtain ⟨c, r, hl⟩ := List.exists_cons_of_ne_nil (natStr_ne p)
      obtain ⟨k, hk, hc⟩ := natStr_dig p c (by rw [hl]; simp)
      refine ⟨c, by rw [hl]; simp, ?_⟩
      rw [hc, (digit_ok k hk).2.2.1]
      simp
    rw [e, readNats, if_neg (by rw [hns]; simp), h1]
    simp only [Option.bind_eq_bind, Option.bind_some]
    rw [ih n (by simpa using hn) "  ".toList (by decide)]
    simp

theorem readSet_text (s : ℕ × List ℕ) : readSet (setText s) = some s := by
  have hn : s.2.length ≤ (setText s).length := by
    have : ∀ l : List ℕ, l.length ≤ (l.flatMap fun p => natStr p ++ "  ".toList).length := by
      intro l
      induction l with
      | nil => simp
      | cons a l ih => simp only [List.flatMap_cons, List.length_append, List.length_cons]; have : "  ".toList.length = 2 := by decide
                       omega
    have := this s.2
    unfold setText
    simp only [List.length_append]
    omega
  have e : setText s = " Dataset: ".toList ++ (natStr s.1 ++ ("   Phase: ".toList ++ s.2.flatMap fun p => natStr p ++ "  ".toList)) := by
    unfold setText
    exact app4 _ _ _ _
  have d1 : ∀ t, List.drop 10 (" Dataset: ".toList ++ t) = t := fun t => List.drop_left' (by decide)
  have d2 : ∀ t, List.drop 10 ("   Phase: ".toList ++ t) = t := fun t => List.drop_left' (by decide)
  have h1 := C64.scanNat s.1 [] ("   Phase: ".toList ++ s.2.flatMap fun p => natStr p ++ "  ".toList) (by simp) (by intro c hc; simp at hc; rw [← hc]; decide)
  rw [List.nil_append] at h1
  have h2 := readNats_text s.2 _ hn [] (by simp)
  rw [List.nil_append] at h2
  unfold readSet
  rw [show List.drop 10 (setText s) = natStr s.1 ++ ("   Phase: ".toList ++ s.2.flatMap fun p => natStr p ++ "  ".toList) by rw [e, d1], h1]
  simp only [Option.bind_eq_bind, Option.bind_some, d2, h2]
  simp

/-- Does not begin with a data set. -/
def NoSet (rest : List (List Char)) : Prop := ∀ l, rest.head? = some l → l.take 10 ≠ " Dataset: ".toList

theorem readSets_text (l : List (ℕ × List ℕ)) (rest : List (List Char)) (h : NoSet rest) : readSets (l.map setText ++ rest) = some (l, rest) := by
  induction l with
  | nil =>
    cases rest with
    | nil => rfl
    | cons a r => simp only [List.map_nil, List.nil_append, readSets]; rw [if_neg (h a rfl)]
  | cons s l ih =>
    have e : List.take 10 (setText s) = " Dataset: ".toList := by
      unfold setText
      rw [app4]
      exact List.take_left' (by decide)
    simp only [List.map_cons, List.cons_append, readSets]
    rw [if_pos e, readSet_text, ih]
    simp

/-- What can be read of a message. -/
def seenMsg {K : Type} (S : Shw K) : Msg K → MsgS
  | .start sets => .start sets
  | .iter n f stag => .iter n ((valPars S f.pars).map fun x => (x.1, seenPar x.2)) (rnd 6 (S.chisq f.chisq)) (rnd 6 (S.red f.chisq f.nred)) (rnd 6 (S.rw f.rw2)) stag
  | .finalHead => .finalHead
  | .final f => .final ((valPars S f.pars).map fun x => (x.1, seenPar x.2)) (rnd 6 (S.chisq f.chisq)) (rnd 6 (S.red f.chisq f.nred)) (rnd 6 (S.rw f.rw2))

def MsgOk {K : Type} (S : Shw K) : Msg K → Prop
  | .iter _ f _ => FigsOk S f
  | .final f => FigsOk S f
  | _ => True

theorem readMsg_text {K : Type} (S : Shw K) (m : Msg K) (h : MsgOk S m) (rest : List (List Char)) (hr : NoSet rest) :
    readMsg (msgLines S m ++ rest) = some (seenMsg S m, rest) := by
  have ne : ([] : List Char) ≠ stars 19 := by decide
  cases m with
  | start sets =>
    simp only [msgLines, List.cons_append, readMsg, if_true]
    show Option.map _ (readSets (sets.map setText ++ rest)) = _
    rw [readSets_text sets rest hr]
    rfl
  | iter n f stag =>
    simp only [msgLines, List.cons_append, readMsg]
    rw [if_neg ne]
    have e : stars 32 ++ " ITER: ".toList ++ natStr n ++ ' ' :: stars 32 = (stars 32 ++ " ITER: ".toList) ++ (natStr n ++ ' ' :: stars 32) := by
      simp only [List.append_assoc]
    have l39 : (stars 32 ++ " ITER: ".toList).length = 39 := by decide
    have h1 := C64.scanNat n [] (' ' :: stars 32) (by simp) (by intro c hc; simp at hc; rw [← hc]; decide)
    rw [List.nil_append] at h1
    rw [e, List.take_left' l39, if_pos rfl, List.drop_left' l39, h1]
    simp only [Option.bind_eq_bind, Option.bind_some]
    rw [readFigs_text S f h]
    simp [seenMsg]
  | finalHead =>
    simp only [msgLines, List.cons_append, List.nil_append, readMsg]
    rw [if_neg ne, if_neg (by decide), if_pos (by decide)]
    rfl
  | final f =>
    have : readMsg (msgLines S (.final f) ++ rest) = (do
        let x ← readFigs (figLines S f false ++ ([] :: bars 73 :: [] :: rest))
        some (.final x.1.1 x.1.2.1 x.1.2.2.1 x.1.2.2.2.1, x.2.drop 3)) := by
      simp only [msgLines, figLines, List.cons_append, List.nil_append, List.append_assoc, readMsg]
      rw [if_neg ne, if_neg (by decide), if_neg (by decide)]
    rw [this, readFigs_text S f h]
    simp [seenMsg]

theorem noSet_msg {K : Type} (S : Shw K) (l : List (Msg K)) : NoSet (l.flatMap (msgLines S)) := by
  intro t ht
  cases l with
  | nil => cases ht
  | cons m l =>
    cases m <;> simp only [List.flatMap_cons, msgLines, figLines, List.cons_append, List.head?_cons, Option.some.injEq] at ht <;> rw [← ht] <;> decide

theorem msgLines_ne {K : Type} (S : Shw K) (m : Msg K) : msgLines S m ≠ [] := by cases m <;> simp [msgLines, figLines]

theorem readLog_text {K : Type} (S : Shw K) (l : List (Msg K)) (h : ∀ m ∈ l, MsgOk S m) : ∀ n, l.length ≤ n →
    readLog n (l.flatMap (msgLines S)) = some (l.map (seenMsg S)) := by
  induction l with
  | nil => intro n _; unfold readLog; rfl
  | cons m l ih =>
    intro n hn
    obtain ⟨n, rfl⟩ := Nat.exists_eq_add_of_le' (show 1 ≤ n from le_trans (by simp) hn)
    rw [List.flatMap_cons, readLog, if_neg (by simp [msgLines_ne]), readMsg_text S m (h m (by simp)) _ (noSet_msg S l)]
    simp only [Option.bind_eq_bind, Option.bind_some]
    rw [ih (fun m hm => h m (by simp [hm])) n (by simpa using hn)]
    simp

theorem readText_log {K : Type} (S : Shw K) (l : List (Msg K)) (h : ∀ m ∈ l, MsgOk S m) : readText (logText S l) = some (l.map (seenMsg S)) := by
  have hn : ∀ l : List (Msg K), l.length ≤ (l.flatMap (msgLines S)).length := by
    intro l
    induction l with
    | nil => simp
    | cons m l ih =>
      have := List.length_pos_iff.2 (msgLines_ne S m)
      rw [List.flatMap_cons, List.length_append, List.length_cons]
      omega
  unfold readText
  rw [log_text, lines_unlines _ (by
    intro t ht
    obtain ⟨m, -, hm⟩ := List.mem_flatMap.1 ht
    exact msgLines_nl S m t hm)]
  exact readLog_text S l h _ (hn l)

end Pdffit.Progress
