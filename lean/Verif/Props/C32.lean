import Verif.Lemmas.DataRead
import Verif.Lemmas.DataWords
import Mathlib.Tactic.NormNum

/-!
# C32: data weights are inverse variances or all ones

Holds for `read_data` and `read_data_string` (`three`, `four`, `otherwise`): the text consists of a header followed by
data lines (the header is a list of `#` lines, or that of a "History" file), the number of columns is that of the first data line, and the uncertainty is in column 3 of 3 or column 4 of 4.
For any other number of columns there is no uncertainty and all weights are one.

Violated by `read_data_arrays`, which uses `1/sqrt(dGr)` (`arrays_wrong`) and accepts uncertainties that are not positive, whose
weights are not numbers (`arrays_zero`); `arrays_none_partial` is the part that holds.
-/

namespace Pdffit.C32
open DataRead

variable {K : Type} [Field K] [LinearOrder K]

/-- A line `### start data ...` -/
def IsStart (x : List Char) : Prop := ∃ (k : ℕ) (a b t : List Char), a ≠ [] ∧ b ≠ [] ∧ (∀ c ∈ a ++ b, isSpace c = true) ∧ Brk t ∧
  x = List.replicate (k + 1) '#' ++ a ++ "start".toList ++ b ++ "data".toList ++ t

theorem startData_iff (x : List Char) : startData x = true ↔ IsStart x := by
  constructor
  · intro h
    have hh := startData_hash h
    unfold startData at h
    simp only [Bool.and_eq_true] at h
    obtain ⟨-, h⟩ := h
    match hw : words x with
    | [] => simp [hw] at h
    | [_] => simp [hw] at h
    | [_, _] => simp [hw] at h
    | w0 :: w1 :: w2 :: ws =>
      simp only [hw, Bool.and_eq_true, List.all_eq_true, decide_eq_true_eq] at h
      obtain ⟨⟨h0, rfl⟩, rfl⟩ := h
      obtain ⟨b0, t0, e0, hb0, hne, hns, hk0, hw0⟩ := words_split x _ _ hw
      obtain ⟨b1, t1, e1, hb1, -, -, hk1, hw1⟩ := words_split t0 _ _ hw0
      obtain ⟨b2, t2, e2, hb2, -, -, hk2, -⟩ := words_split t1 _ _ hw1
      have n0 : b0 = [] := by
        cases b0 with
        | nil => rfl
        | cons c b0 =>
          have := hb0 c (by simp)
          rw [e0] at hh
          simp only [hashLine, List.cons_append, List.head?_cons, Option.some.injEq, decide_eq_true_eq] at hh
          rw [hh] at this
          exact absurd this (by decide)
      have n1 : b1 ≠ [] := by
        rintro rfl
        rcases hk0 with rfl | ⟨c, u, rfl, hc⟩
        · simp at e1
        · injection e1 with e1 _
          subst e1
          exact absurd hc (by decide)
      have n2 : b2 ≠ [] := by
        rintro rfl
        rcases hk1 with rfl | ⟨c, u, rfl, hc⟩
        · simp at e2
        · injection e2 with e2 _
          subst e2
          exact absurd hc (by decide)
      obtain ⟨k, hk⟩ : ∃ k, w0.length = k + 1 := Nat.exists_eq_add_one.2 (List.length_pos_iff.2 hne)
      refine ⟨k, b1, b2, t2, n1, n2, ?_, hk2, ?_⟩
      · intro c hc
        rcases List.mem_append.1 hc with hc | hc
        · exact hb1 c hc
        · exact hb2 c hc
      · rw [e0, e1, e2, n0, ← hk, ← List.eq_replicate_length.2 h0]
        simp
  · rintro ⟨k, a, b, t, ha, hb, hs, ht, rfl⟩
    have sa : ∀ c ∈ a, isSpace c = true := fun c hc => hs c (by simp [hc])
    have sb : ∀ c ∈ b, isSpace c = true := fun c hc => hs c (by simp [hc])
    have brk : ∀ (a u : List Char), a ≠ [] → (∀ c ∈ a, isSpace c = true) → Brk (a ++ u) := by
      intro a u h1 h2
      cases a with
      | nil => exact absurd rfl h1
      | cons c a => exact .inr ⟨c, a ++ u, rfl, h2 c (by simp)⟩
    have w2 : words (b ++ ("data".toList ++ t)) = "data".toList :: words t :=
      words_append _ _ _ sb (by decide) (by decide) ht
    have w1 : words (a ++ ("start".toList ++ (b ++ ("data".toList ++ t)))) = "start".toList :: "data".toList :: words t := by
      rw [words_append _ _ _ sa (by decide) (by decide) (brk _ _ hb sb), w2]
    have w0 : words (List.replicate (k + 1) '#' ++ (a ++ ("start".toList ++ (b ++ ("data".toList ++ t))))) =
        List.replicate (k + 1) '#' :: "start".toList :: "data".toList :: words t := by
      have := words_append [] (List.replicate (k + 1) '#') _ (by simp) (by simp) (by
        intro c hc
        rw [List.eq_of_mem_replicate hc]
        decide) (brk a ("start".toList ++ (b ++ ("data".toList ++ t))) ha sa)
      rw [List.nil_append] at this
      rw [this, w1]
    simp only [List.append_assoc]
    unfold startData
    rw [w0]
    simp [hashLine, List.replicate_succ]

theorem not_start {x : List Char} (h : ¬ IsStart x) : startData x = false := by
  rw [← startData_iff] at h
  simpa using h

/-- The lines before the data: `#` lines, or the header of a "History" file up to the line `# start data`, followed by `#`
lines. -/
inductive Header : List (List Char) → Prop
  | hash (hs : List (List Char)) (h : ∀ x ∈ hs, x.head? = some '#') : Header hs
  | history (h : List Char) (pre : List (List Char)) (s : List Char) (hs : List (List Char)) (hH : "History".toList <+: h)
      (hpre : ∀ x ∈ pre, ¬ IsStart x) (hst : IsStart s) (hh : ∀ x ∈ hs, x.head? = some '#') : Header (h :: pre ++ s :: hs)

/-- A text of the header `hs` followed by the data lines `l :: ls`, each with at least two numbers. -/
structure Table (S : Scan K) (hs : List (List Char)) (l : List Char) (ls : List (List Char)) : Prop where
  nl : ∀ x ∈ hs ++ l :: ls, '\n' ∉ x
  hdr : Header hs
  first : l.head? ≠ some '#'
  hist : ¬ "History".toList <+: l
  two : ∀ x ∈ l :: ls, 2 ≤ (nums S x).length

theorem read {S : Scan K} {hs : List (List Char)} {l : List Char} {ls : List (List Char)} (t : Table S hs l ls) (n : ℕ)
    (hn : hs.length < n) : readStream S n (text (hs ++ l :: ls)) = some (readRows (nums S l).length ((l :: ls).map (nums S))) := by
  have e : readStream S n (text (hs ++ l :: ls)) =
      some (readRows (nums S l).length (((l :: ls).map (nums S)).takeWhile fun r => decide (2 ≤ r.length))) := by
    have hl : hashLine l = false := by simp [hashLine, t.first]
    cases t.hdr with
    | hash _ h => exact readStream_text S hs l ls t.nl (fun x hx => by simp [hashLine, h x hx]) hl t.hist n hn
    | history h pre s hs' hH hpre hst hh =>
      refine readStream_history S h pre s hs' l ls t.nl hH (fun x hx => not_start (hpre x hx)) ((startData_iff s).2 hst)
        (fun x hx => by simp [hashLine, hh x hx]) hl n ?_
      simp at hn
      omega
  rw [e]
  have key : ∀ M : List (List K), (∀ r ∈ M, 2 ≤ r.length) → M.takeWhile (fun r => decide (2 ≤ r.length)) = M := by
    intro M
    induction M with
    | nil => intro _; rfl
    | cons a M ih =>
      intro h
      rw [List.takeWhile_cons, if_pos (by simpa using h a (by simp)), ih fun r hr => h r (by simp [hr])]
  rw [key]
  intro r hr
  obtain ⟨x, hx, rfl⟩ := List.mem_map.1 hr
  exact t.two x hx

theorem readRows_wic {ncol : ℕ} {tab : List (List K)} {L : Loaded K} (h : readRows ncol tab = .ok L) :
    L.wic = (wics ncol tab).map some := by
  unfold readRows at h
  dsimp only at h
  split_ifs at h
  injection h with h
  rw [← h]

theorem weight_pos {row : List K} {v : K} (c : ℕ) (hc : c = 2 ∨ c = 3) (h : row[c]? = some v) (hv : 0 < v) :
    weight (c + 1) row = some (1 / v ^ 2) := by
  rcases hc with rfl | rfl <;> simp [weight, h, hv, pow_two]

/-- Common part of `three` and `four`. -/
theorem wics_pos (c : ℕ) (hc : c = 2 ∨ c = 3) (tab : List (List K)) (dG : List K) (hl : dG.length = tab.length)
    (h : ∀ (k : ℕ) (r : List K), tab[k]? = some r → ∃ v, dG[k]? = some v ∧ r[c]? = some v ∧ 0 < v) :
    wics (c + 1) tab = dG.map fun v => 1 / v ^ 2 := by
  have hw : lwei (c + 1) tab = true := by
    unfold lwei
    simp only [Bool.and_eq_true, decide_eq_true_eq, List.all_eq_true]
    refine ⟨by omega, fun r hr => ?_⟩
    obtain ⟨k, hk⟩ := List.mem_iff_getElem?.1 hr
    obtain ⟨v, _, h2, h3⟩ := h k r hk
    rw [weight_pos c hc h2 h3]
    rfl
  unfold wics
  rw [if_pos hw]
  refine List.ext_getElem? fun k => ?_
  rw [List.getElem?_map, List.getElem?_map]
  cases hk : tab[k]? with
  | none =>
    have : dG[k]? = none := by
      rw [List.getElem?_eq_none_iff] at hk ⊢
      omega
    rw [this]
    rfl
  | some r =>
    obtain ⟨v, h1, h2, h3⟩ := h k r hk
    rw [h1]
    simp [weight_pos c hc h2 h3]

/-- **C32**, three columns: if every line has a positive third number the weights are the inverse squares of these
numbers. -/
theorem three (S : Scan K) (hs : List (List Char)) (l : List Char) (ls : List (List Char)) (t : Table S hs l ls) (n : ℕ)
    (hn : hs.length < n) (hcol : (nums S l).length = 3) (dG : List K) (hl : dG.length = (l :: ls).length)
    (h : ∀ (k : ℕ) (x : List Char), (l :: ls)[k]? = some x → ∃ v, dG[k]? = some v ∧ (nums S x)[2]? = some v ∧ 0 < v)
    (L : Loaded K) (hL : readStream S n (text (hs ++ l :: ls)) = some (.ok L)) : L.wic = dG.map fun v => some (1 / v ^ 2) := by
  rw [read t n hn, hcol] at hL
  injection hL with hL
  rw [readRows_wic hL, wics_pos 2 (.inl rfl) _ dG (by simpa using hl)]
  · simp
  · intro k r hr
    rw [List.getElem?_map, Option.map_eq_some_iff] at hr
    obtain ⟨x, hx, rfl⟩ := hr
    exact h k x hx

/-- **C32**, four columns: the uncertainty is the fourth number. -/
theorem four (S : Scan K) (hs : List (List Char)) (l : List Char) (ls : List (List Char)) (t : Table S hs l ls) (n : ℕ)
    (hn : hs.length < n) (hcol : (nums S l).length = 4) (dG : List K) (hl : dG.length = (l :: ls).length)
    (h : ∀ (k : ℕ) (x : List Char), (l :: ls)[k]? = some x → ∃ v, dG[k]? = some v ∧ (nums S x)[3]? = some v ∧ 0 < v)
    (L : Loaded K) (hL : readStream S n (text (hs ++ l :: ls)) = some (.ok L)) : L.wic = dG.map fun v => some (1 / v ^ 2) := by
  rw [read t n hn, hcol] at hL
  injection hL with hL
  rw [readRows_wic hL, wics_pos 3 (.inr rfl) _ dG (by simpa using hl)]
  · simp
  · intro k r hr
    rw [List.getElem?_map, Option.map_eq_some_iff] at hr
    obtain ⟨x, hx, rfl⟩ := hr
    exact h k x hx

/-- **C32**, all other cases: another number of columns, or a line without a positive uncertainty. -/
theorem otherwise (S : Scan K) (hs : List (List Char)) (l : List Char) (ls : List (List Char)) (t : Table S hs l ls) (n : ℕ)
    (hn : hs.length < n)
    (h : (nums S l).length ≠ 3 ∧ (nums S l).length ≠ 4 ∨
      ∃ x ∈ l :: ls, ¬ ∃ v, (nums S x)[(nums S l).length - 1]? = some v ∧ 0 < v)
    (L : Loaded K) (hL : readStream S n (text (hs ++ l :: ls)) = some (.ok L)) : L.wic = (l :: ls).map fun _ => some 1 := by
  rw [read t n hn] at hL
  injection hL with hL
  rw [readRows_wic hL]
  unfold wics
  split_ifs with hw
  · unfold lwei at hw
    simp only [Bool.and_eq_true, decide_eq_true_eq, List.all_eq_true] at hw
    by_cases hc : (nums S l).length ≠ 3 ∧ (nums S l).length ≠ 4
    · simp only [weight, if_neg hc.1, if_neg hc.2, List.map_map]
      rfl
    · rcases h with h | ⟨x, hx, h⟩
      · exact absurd h hc
      exfalso
      have hx' := hw.2 (nums S x) (List.mem_map_of_mem hx)
      refine h ?_
      have hc' : (nums S l).length = 3 ∨ (nums S l).length = 4 := by
        by_contra h'
        exact hc (by omega)
      rcases hc' with e | e
      · rw [e] at hx' ⊢
        cases hv : (nums S x)[2]? with
        | none => simp [weight, hv] at hx'
        | some v =>
          refine ⟨v, rfl, ?_⟩
          by_contra hn
          simp [weight, hv, hn] at hx'
      · rw [e] at hx' ⊢
        cases hv : (nums S x)[3]? with
        | none => simp [weight, hv] at hx'
        | some v =>
          refine ⟨v, rfl, ?_⟩
          by_contra hn
          simp [weight, hv, hn] at hx'
  · rw [List.map_map, List.map_map]
    rfl

/-! ### Arrays -/

/-- Without uncertainties all weights are one. -/
theorem arrays_none_partial (r G : List ℝ) (L : Loaded ℝ) (h : readArrays r G none = .ok L) : L.wic = G.map fun _ => some 1 := by
  unfold readArrays at h
  split at h
  · simp at h
  split at h
  · split at h
    · injection h with h
      rw [← h]
      rfl
    · simp at h
  · simp at h

/-- **C32, violation**: `read_data_arrays` with uncertainty 4 gives the weight 1/2 instead of 1/16. -/
theorem arrays_wrong : ∃ L, readArrays [1, 2] [0, 0] (some [4, 4]) = .ok L ∧ L.wic = [some (1 / 2), some (1 / 2)] ∧
    L.wic ≠ [some (1 / 4 ^ 2), some (1 / 4 ^ 2)] := by
  have hr : isRegular ([1, 2] : List ℝ) = true := by
    simp [isRegular, steps, meanStep, tol]
    norm_num
  have h4 : √(4 : ℝ) = 2 := by rw [show (4 : ℝ) = 2 ^ 2 by norm_num, Real.sqrt_sq (by norm_num)]
  refine ⟨⟨1, 2, some 1, 2, [0, 0], [some (1 / 2), some (1 / 2)], 0, 0⟩, ?_, rfl, ?_⟩
  · unfold readArrays
    rw [if_neg (by simp)]
    simp only [List.head?_cons, List.getLast?_cons_cons, List.getLast?_singleton]
    rw [if_pos hr]
    simp [wicArrays, h4]
    norm_num
  · simp
    norm_num

/-- An uncertainty of zero is accepted by `read_data_arrays`, its weight is not a number. -/
theorem arrays_zero : ∃ L, readArrays [1, 2] [0, 0] (some [1, 0]) = .ok L ∧ none ∈ L.wic := by
  have hr : isRegular ([1, 2] : List ℝ) = true := by
    simp [isRegular, steps, meanStep, tol]
    norm_num
  unfold readArrays
  rw [if_neg (by simp)]
  simp only [List.head?_cons, List.getLast?_cons_cons, List.getLast?_singleton]
  rw [if_pos hr]
  exact ⟨_, rfl, by simp [wicArrays]⟩

/-! ### Example -/

/-- A scanner for numbers of one digit separated by one blank. -/
def digits : Scan ℚ where
  f
    | [] => none
    | c :: l => if c.isDigit then some ((c.toNat - 48 : ℕ), l.drop 1) else none
  lt := by
    intro s x r h
    cases s with
    | nil => simp at h
    | cons c l =>
      dsimp only at h
      split_ifs at h
      simp only [Option.some.injEq, Prod.mk.injEq] at h
      rw [← h.2]
      simp

theorem nums_cons (c : Char) (l : List Char) (h : c.isDigit = true) :
    nums digits (c :: l) = ((c.toNat - 48 : ℕ) : ℚ) :: nums digits (l.drop 1) := by
  rw [nums]
  split
  · rename_i h'; simp [digits, h] at h'
  · rename_i x h'
    simp only [digits, h, if_true, Option.some.injEq] at h'
    rw [← h']

theorem nums_2 : nums digits "1 5 2".toList = [1, 5, 2] := by
  simp only [show "1 5 2".toList = ['1', ' ', '5', ' ', '2'] by decide]
  rw [nums_cons _ _ (by decide)]
  simp only [List.drop_succ_cons, List.drop_zero]
  rw [nums_cons _ _ (by decide)]
  simp only [List.drop_succ_cons, List.drop_zero]
  rw [nums_cons _ _ (by decide)]
  simp only [List.drop_nil, nums_nil]
  simp [Char.toNat]

theorem nums_3 : nums digits "2 6 4".toList = [2, 6, 4] := by
  simp only [show "2 6 4".toList = ['2', ' ', '6', ' ', '4'] by decide]
  rw [nums_cons _ _ (by decide)]
  simp only [List.drop_succ_cons, List.drop_zero]
  rw [nums_cons _ _ (by decide)]
  simp only [List.drop_succ_cons, List.drop_zero]
  rw [nums_cons _ _ (by decide)]
  simp only [List.drop_nil, nums_nil]
  simp [Char.toNat]

/-- The text `#G(r)⏎1 5 2⏎2 6 4` is accepted with the weights 1/4 and 1/16. -/
example : ∃ L : Loaded ℚ, readStream digits 2 "#G(r)\n1 5 2\n2 6 4".toList = some (.ok L) ∧
    L.wic = [some (1 / 4), some (1 / 16)] := by
  have t : Table digits ["#G(r)".toList] "1 5 2".toList ["2 6 4".toList] := by
    refine ⟨by decide, .hash _ (by decide), by decide, by decide, ?_⟩
    intro x hx
    simp only [List.mem_cons, List.not_mem_nil, or_false] at hx
    rcases hx with rfl | rfl
    · rw [nums_2]; decide
    · rw [nums_3]; decide
  have e : "#G(r)\n1 5 2\n2 6 4".toList = text (["#G(r)".toList] ++ "1 5 2".toList :: ["2 6 4".toList]) := by decide
  have hL : ∃ L, readStream digits 2 "#G(r)\n1 5 2\n2 6 4".toList = some (.ok L) := by
    rw [e, read t 2 (by decide), List.map_cons, List.map_cons, List.map_nil, nums_2, nums_3]
    unfold readRows
    dsimp only
    rw [if_pos (by simp [isRegular, steps, meanStep, tol]; norm_num), if_neg (by decide)]
    exact ⟨_, rfl⟩
  obtain ⟨L, hL⟩ := hL
  refine ⟨L, hL, ?_⟩
  rw [e] at hL
  rw [three digits _ _ _ t 2 (by decide) (by rw [nums_2]; rfl) [2, 4] (by decide) ?_ L hL]
  · norm_num
  · intro k x hx
    match k with
    | 0 => simp only [List.getElem?_cons_zero, Option.some.injEq] at hx; subst hx; exact ⟨2, rfl, by rw [nums_2]; rfl, by norm_num⟩
    | 1 => simp only [List.getElem?_cons_succ, List.getElem?_cons_zero, Option.some.injEq] at hx; subst hx; exact ⟨4, rfl, by rw [nums_3]; rfl, by norm_num⟩
    | k + 2 => simp at hx

example : IsStart "#### start data columns".toList :=
  ⟨3, " ".toList, " ".toList, " columns".toList, by decide, by decide, by decide, .inr ⟨' ', "columns".toList, by decide, by decide⟩, by decide⟩

/-- The same data in a "History" file. -/
example : ∃ L : Loaded ℚ, readStream digits 6 "History\n1 2\n## start data\n#L\n1 5 2\n2 6 4".toList = some (.ok L) ∧
    L.wic = [some (1 / 4), some (1 / 16)] := by
  have t : Table digits ("History".toList :: ["1 2".toList] ++ "## start data".toList :: ["#L".toList]) "1 5 2".toList ["2 6 4".toList] := by
    refine ⟨by decide, .history _ _ _ _ (by decide) ?_ ((startData_iff _).1 (by decide)) (by decide), by decide, by decide, ?_⟩
    · intro x hx h
      rw [List.mem_singleton.1 hx] at h
      exact absurd ((startData_iff _).2 h) (by decide)
    · intro x hx
      simp only [List.mem_cons, List.not_mem_nil, or_false] at hx
      rcases hx with rfl | rfl
      · rw [nums_2]; decide
      · rw [nums_3]; decide
  have e : "History\n1 2\n## start data\n#L\n1 5 2\n2 6 4".toList =
      text ("History".toList :: ["1 2".toList] ++ "## start data".toList :: ["#L".toList] ++ "1 5 2".toList :: ["2 6 4".toList]) := by decide
  have hL : ∃ L, readStream digits 6 "History\n1 2\n## start data\n#L\n1 5 2\n2 6 4".toList = some (.ok L) := by
    rw [e, read t 6 (by decide), List.map_cons, List.map_cons, List.map_nil, nums_2, nums_3]
    unfold readRows
    dsimp only
    rw [if_pos (by simp [isRegular, steps, meanStep, tol]; norm_num), if_neg (by decide)]
    exact ⟨_, rfl⟩
  obtain ⟨L, hL⟩ := hL
  refine ⟨L, hL, ?_⟩
  rw [e] at hL
  rw [three digits _ _ _ t 6 (by decide) (by rw [nums_2]; rfl) [2, 4] (by decide) ?_ L hL]
  · norm_num
  · intro k x hx
    match k with
    | 0 => simp only [List.getElem?_cons_zero, Option.some.injEq] at hx; subst hx; exact ⟨2, rfl, by rw [nums_2]; rfl, by norm_num⟩
    | 1 => simp only [List.getElem?_cons_succ, List.getElem?_cons_zero, Option.some.injEq] at hx; subst hx; exact ⟨4, rfl, by rw [nums_3]; rfl, by norm_num⟩
    | k + 2 => simp at hx

end Pdffit.C32
