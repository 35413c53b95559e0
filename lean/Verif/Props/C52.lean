import Verif.Model.Save
import Verif.Props.C31
import Verif.Props.C32

/-!
# C52: a saved curve contains the calculated curve

`columns_partial`: after a calculation (or `getpdf_fit`) `save_pdf` writes one line for each point of the stored fit range with r, the calculated value, zero,
the inverse root of the weight and the difference, the same values as the lists of C31; `dif_columns_partial`: `save_dif` writes the first and last of
these. `reread`: the file read as data has the printed values of the calculated curve and, because it has five columns, unit weights.
`no_set`, `no_file`: the errors.

Violation `not_calculated`: without a calculation the vector `pdftot` is empty and is read outside its bounds.
-/

namespace Pdffit.C52
open Save Lists Det DataRead C31

/-- The operation computes or fills the curve. -/
def Fills : Op → Prop
  | .range _ _ => False
  | _ => True

theorem collect_ok {α β : Type} (f : α → Res β) (g : α → β) (l : List α) (h : ∀ i ∈ l, f i = .ok (g i)) :
    collect f l = .ok (l.map g) := by
  induction l with
  | nil => rfl
  | cons i l ih =>
    unfold collect
    rw [h i (by simp), Res.bind_ok, ih fun j hj => h j (by simp [hj]), Res.bind_ok]
    rfl

theorem readAt_ok {v : List ℝ} {i : ℤ} (h0 : 0 ≤ i) (h1 : i < v.length) : readAt v i = .ok (v.getD i.toNat 0) := by
  unfold readAt
  have hlt : i.toNat < v.length := by omega
  rw [if_pos h0, Res.at?_of_lt hlt]
  simp [hlt]

theorem tot_keep (s : LSet) (o : Op) (h : s.pdftot ≠ []) (hs : Ok s) : (step s o).pdftot ≠ [] := by
  cases o with
  | range lo hi =>
    simp only [step]
    cases s.d.range lo hi <;> exact h
  | determine vals =>
    intro e
    have o' : s.d.D.Ok := ⟨hs.inv.step, hs.inv.lo, hs.inv.ord⟩
    have h4 := nfmax_le_ncmax o'
    have h5 := nfmin_le_nfmax o'
    have h6 := ncmin_nonneg o'
    have h7 := ncmin_le_nfmin o'
    have : ((step s (.determine vals)).pdftot.length : ℤ) = s.d.D.ncmax + 1 := by
      change (((List.range (s.d.D.ncmax + 1).toNat).map vals).length : ℤ) = _
      simp
      omega
    rw [e] at this
    simp at this
    omega
  | getFit =>
    change s.filled.pdftot ≠ []
    unfold LSet.filled
    rw [if_neg h]
    exact h

theorem tot_fill (s : LSet) (o : Op) (ho : Fills o) (hs : Ok s) : (step s o).pdftot ≠ [] := by
  cases o with
  | range lo hi => exact absurd ho (by simp [Fills])
  | determine vals =>
    intro e
    have o' : s.d.D.Ok := ⟨hs.inv.step, hs.inv.lo, hs.inv.ord⟩
    have h4 := nfmax_le_ncmax o'
    have h5 := nfmin_le_nfmax o'
    have h6 := ncmin_nonneg o'
    have h7 := ncmin_le_nfmin o'
    have : ((step s (.determine vals)).pdftot.length : ℤ) = s.d.D.ncmax + 1 := by
      change (((List.range (s.d.D.ncmax + 1).toNat).map vals).length : ℤ) = _
      simp
      omega
    rw [e] at this
    simp at this
    omega
  | getFit =>
    have h1 := filled_len hs
    intro e
    have h2 : s.filled.pdftot = [] := e
    rw [h2] at h1
    have h3 := hs.lo
    have h4 := hs.ord
    simp at h1
    omega

theorem run_filled (s : LSet) (l : List Op) (hs : Ok s) (h : s.pdftot ≠ [] ∨ ∃ o ∈ l, Fills o) : (run s l).pdftot ≠ [] := by
  induction l generalizing s with
  | nil =>
    rcases h with h | ⟨o, ho, -⟩
    · exact h
    · simp at ho
  | cons o l ih =>
    refine ih (step s o) (step_ok hs o) ?_
    rcases h with h | ⟨o', ho, hf⟩
    · exact .inl (tot_keep s o h hs)
    · rcases List.mem_cons.1 ho with rfl | ho
      · exact .inl (tot_fill s o' hf hs)
      · exact .inr ⟨o', ho, hf⟩

/-- The lines of a data set with a calculated curve. -/
theorem rows_of_ok {s : LSet} (h : Ok s) (hne : s.pdftot ≠ []) :
    pdfRows s = .ok ((grid s.nfmin s.nfmax).map fun (i : ℤ) => [some (s.d.D.rmin + (i : ℝ) * s.d.D.deltar), some (s.pdftot.getD i.toNat 0),
      some 0, if 0 < s.d.wic.getD i.toNat 0 then some (1 / √(s.d.wic.getD i.toNat 0)) else none,
      some (s.d.obs.getD i.toNat 0 - s.pdftot.getD i.toNat 0)]) ∧
    difRows s = .ok ((grid s.nfmin s.nfmax).map fun (i : ℤ) => [some (s.d.D.rmin + (i : ℝ) * s.d.D.deltar),
      some (s.d.obs.getD i.toNat 0 - s.pdftot.getD i.toNat 0)]) := by
  have key : ∀ i ∈ grid s.nfmin s.nfmax, 0 ≤ i ∧ i < s.pdftot.length ∧ i < s.d.wic.length ∧ i < s.d.obs.length := by
    intro i hi
    rw [mem_grid] at hi
    have h0 := h.lo
    have h1 := h.hi
    have h2 : s.nfmax < s.pdftot.length := h.tot.resolve_left hne
    rw [h.inv.obs, h.inv.wic]
    omega
  constructor
  · refine collect_ok _ _ _ fun i hi => ?_
    obtain ⟨h0, h1, h2, h3⟩ := key i hi
    unfold pdfRow
    rw [readAt_ok h0 h1, readAt_ok h0 h2, readAt_ok h0 h3]
    simp only [Res.bind_ok]
    rw [add_comm]
  · refine collect_ok _ _ _ fun i hi => ?_
    obtain ⟨h0, h1, h2, h3⟩ := key i hi
    unfold difRow
    rw [readAt_ok h0 h1, readAt_ok h0 h3]
    simp only [Res.bind_ok]
    rw [add_comm]

/-- The lists of C31 as functions of the same indices. -/
theorem lists_of_ok {s : LSet} (h : Ok s) (hne : s.pdftot ≠ []) :
    getObs s = .ok ((grid s.nfmin s.nfmax).map fun (i : ℤ) => s.d.obs.getD i.toNat 0) ∧
    getFit s = .ok ((grid s.nfmin s.nfmax).map fun (i : ℤ) => s.pdftot.getD i.toNat 0) ∧
    getDiff s = .ok ((grid s.nfmin s.nfmax).map fun (i : ℤ) => s.d.obs.getD i.toNat 0 - s.pdftot.getD i.toNat 0) := by
  have h0 := h.lo
  have hf : s.filled = s := by unfold LSet.filled; rw [if_neg hne]
  have eo := readList_ok s.d.obs (grid s.nfmin s.nfmax) fun i hi => by
    rw [mem_grid] at hi; have := h.hi; rw [h.inv.obs]; omega
  have ef := readList_ok s.pdftot (grid s.nfmin s.nfmax) fun i hi => by
    rw [mem_grid] at hi
    have h2 : s.nfmax < s.pdftot.length := h.tot.resolve_left hne
    omega
  refine ⟨eo, ?_, ?_⟩
  · unfold getFit
    rw [hf, ef]
  · unfold getDiff
    rw [hf, eo, Res.bind_ok, ef, Res.bind_ok, List.zipWith_map, List.zipWith_self]

/-- **C52, the part that holds**: after any history with a calculation the file has one line for each point of the lists, with r, the calculated
value, zero, the inverse root of the weight, and the difference. -/
theorem columns_partial (s : LSet) (h : Fresh s) (l : List Op) (hl : ∃ o ∈ l, Fills o) :
    ∃ rows F D, pdfRows (run s l) = .ok rows ∧ getFit (run s l) = .ok F ∧ getDiff (run s l) = .ok D ∧
      (rows.length : ℤ) = (run s l).nfmax - (run s l).nfmin + 1 ∧
      (∀ (k : ℕ) (r : List (Option ℝ)), rows[k]? = some r → r.length = 5 ∧
        r[0]? = some (some ((run s l).d.D.rmin + ((run s l).nfmin + k : ℤ) * (run s l).d.D.deltar)) ∧
        (∃ f, F[k]? = some f ∧ r[1]? = some (some f)) ∧ r[2]? = some (some 0) ∧
        (∃ w, (run s l).d.wic[((run s l).nfmin + k).toNat]? = some w ∧
          r[3]? = some (if 0 < w then some (1 / √w) else none)) ∧
        ∃ d, D[k]? = some d ∧ r[4]? = some (some d)) := by
  have hok := run_ok (fresh_ok h) l
  have hne := run_filled s l (fresh_ok h) (.inr hl)
  set u := run s l
  obtain ⟨h1, -⟩ := rows_of_ok hok hne
  obtain ⟨-, h2, h3⟩ := lists_of_ok hok hne
  refine ⟨_, _, _, h1, h2, h3, ?_, ?_⟩
  · have := hok.ord
    simp only [grid, List.length_map, List.length_range]
    omega
  · intro k r hr
    rw [List.getElem?_map, Option.map_eq_some_iff] at hr
    obtain ⟨i, hi, rfl⟩ := hr
    have hmem : i ∈ grid u.nfmin u.nfmax := List.mem_of_getElem? hi
    rw [mem_grid] at hmem
    have hik : i = u.nfmin + k := by
      unfold grid at hi
      rw [List.getElem?_map, Option.map_eq_some_iff] at hi
      obtain ⟨j, hj, rfl⟩ := hi
      have := List.getElem?_eq_some_iff.1 hj
      obtain ⟨hlt, e⟩ := this
      rw [List.getElem_range] at e
      rw [e]
    have hw : i.toNat < u.d.wic.length := by
      have := hok.lo
      have := hok.hi
      have := hok.inv.wic
      omega
    refine ⟨rfl, by rw [hik]; rfl, ⟨_, by rw [List.getElem?_map, hi]; rfl, rfl⟩, rfl, ⟨u.d.wic.getD i.toNat 0, ?_, rfl⟩,
      ⟨_, by rw [List.getElem?_map, hi]; rfl, rfl⟩⟩
    rw [← hik, List.getElem?_eq_getElem hw]
    simp [hw]

/-- **C52, the part that holds**: the difference file contains the first and the last column. -/
theorem dif_columns_partial (s : LSet) (h : Fresh s) (l : List Op) (hl : ∃ o ∈ l, Fills o) :
    ∃ rows, pdfRows (run s l) = .ok rows ∧ difRows (run s l) = .ok (rows.map fun r => [r.getD 0 none, r.getD 4 none]) := by
  have hok := run_ok (fresh_ok h) l
  have hne := run_filled s l (fresh_ok h) (.inr hl)
  obtain ⟨h1, h2⟩ := rows_of_ok hok hne
  refine ⟨_, h1, ?_⟩
  rw [h2, List.map_map]
  rfl

theorem run_ranges (s : LSet) (l : List Op) (hl : ∀ o ∈ l, ¬ Fills o) : (run s l).pdftot = s.pdftot ∧ (run s l).nfmin = s.nfmin ∧
    (run s l).nfmax = s.nfmax ∧ (run s l).d.obs = s.d.obs := by
  induction l generalizing s with
  | nil => exact ⟨rfl, rfl, rfl, rfl⟩
  | cons o l ih =>
    obtain ⟨h1, h2, h3, h4⟩ := ih (step s o) fun x hx => hl x (by simp [hx])
    have ho := hl o (by simp)
    cases o with
    | range lo hi =>
      change (run (step s (.range lo hi)) l).pdftot = _ ∧ (run (step s (.range lo hi)) l).nfmin = _ ∧
        (run (step s (.range lo hi)) l).nfmax = _ ∧ (run (step s (.range lo hi)) l).d.obs = _
      rw [h1, h2, h3, h4]
      obtain ⟨e1, e2⟩ := old_range s lo hi
      refine ⟨?_, e1, e2, ?_⟩
      · simp only [step]
        cases s.d.range lo hi <;> rfl
      · simp only [step]
        cases hr : s.d.range lo hi with
        | ok d =>
          unfold DSet.range at hr
          split_ifs at hr
          injection hr with hr
          rw [← hr]
          rfl
        | err e => rfl
        | ub => rfl
    | determine vals => exact absurd trivial ho
    | getFit => exact absurd trivial ho

/-- **C52, violation**: saving a curve that has not been calculated reads outside the vector, for every data set, also after changes of the
range. -/
theorem not_calculated (s : LSet) (h : Fresh s) (l : List Op) (hl : ∀ o ∈ l, ¬ Fills o) :
    pdfRows (run s l) = .ub ∧ difRows (run s l) = .ub := by
  obtain ⟨h1, h2, h3, h4⟩ := run_ranges s l hl
  have hok := run_ok (fresh_ok h) l
  have hord := hok.ord
  have hlo := hok.lo
  have hhi := hok.hi
  have hobs := hok.inv.obs
  obtain ⟨g, hg⟩ : ∃ g, grid (run s l).nfmin (run s l).nfmax = (run s l).nfmin :: g := by
    unfold grid
    obtain ⟨n, hn⟩ : ∃ n, ((run s l).nfmax + 1 - (run s l).nfmin).toNat = n + 1 :=
      ⟨((run s l).nfmax - (run s l).nfmin).toNat, by omega⟩
    rw [hn, List.range_succ_eq_map]
    simp
  have hr : readAt (run s l).pdftot (run s l).nfmin = .ub := by
    unfold readAt
    rw [if_pos hlo, h1, h.empty]
    rfl
  constructor
  · unfold pdfRows
    rw [hg]
    unfold collect pdfRow
    rw [hr]
    rfl
  · unfold difRows
    rw [hg]
    unfold collect difRow
    rw [hr, readAt_ok hlo (by omega)]
    rfl

/-- A data set that does not exist. -/
theorem no_set (rows : LSet → Res (List (List (Option ℝ)))) (prt : Option ℝ → List Char) (sets : List LSet) (iset : ℤ) (fname : Option Bool)
    (h : iset < 1 ∨ (sets.length : ℤ) < iset) : save rows prt sets iset fname = .err .unassigned := by
  unfold save
  rw [if_pos h]

/-- A file that cannot be created. -/
theorem no_file (rows : LSet → Res (List (List (Option ℝ)))) (prt : Option ℝ → List Char) (sets : List LSet) (iset : ℤ)
    (h1 : 1 ≤ iset) (h2 : iset ≤ sets.length) : save rows prt sets iset (some false) = .err .io := by
  unfold save
  rw [if_neg (by omega), if_pos rfl]

/-- Otherwise the text is that of the data set with the given number, counted from one. -/
theorem saved (rows : LSet → Res (List (List (Option ℝ)))) (prt : Option ℝ → List Char) (sets : List LSet) (k : ℕ) (s : LSet)
    (hs : sets[k]? = some s) (fname : Option Bool) (hf : fname ≠ some false) (r : List (List (Option ℝ))) (hr : rows s = .ok r) :
    save rows prt sets (k + 1) fname = .ok (file prt r) := by
  obtain ⟨hk, e⟩ := List.getElem?_eq_some_iff.1 hs
  unfold save
  rw [if_neg (by omega), if_neg hf]
  have : ((k : ℤ) + 1 - 1).toNat = k := by omega
  rw [this, Res.at?_of_lt hk, e, Res.bind_ok, hr, Res.bind_ok]

/-! ### The text -/

/-- What is assumed about the printed numbers: they are not empty and consist of the characters of numbers; a number at the beginning of a text is
extracted as `rnd` of the printed one. -/
structure Printer (S : Scan ℝ) (prt : Option ℝ → List Char) (rnd : ℝ → ℝ) : Prop where
  ne : ∀ x, prt x ≠ []
  chars : ∀ x, ∀ c ∈ prt x, c ∈ "0123456789+-.einfa".toList
  scan : ∀ (b t : List Char) (x : ℝ), (∀ c ∈ b, c = ' ') → Brk t → S.f (b ++ (prt (some x) ++ t)) = some (rnd x, t)

theorem nonblank {c : Char} (h : c ∈ "0123456789+-.einfa".toList) : isSpace c = false ∧ c ≠ '\n' ∧ c ≠ '#' ∧ c ≠ 'H' := by
  have : ∀ c ∈ "0123456789+-.einfa".toList, isSpace c = false ∧ c ≠ '\n' ∧ c ≠ '#' ∧ c ≠ 'H' := by decide
  exact this c h

section
variable {S : Scan ℝ} {prt : Option ℝ → List Char} {rnd : ℝ → ℝ} (P : Printer S prt rnd)
include P

theorem line_chars (r : List (Option ℝ)) : ∀ c ∈ line prt r, c = ' ' ∨ c ∈ "0123456789+-.einfa".toList := by
  have pad : ∀ x, ∀ c ∈ Stru.pad 12 (prt x), c = ' ' ∨ c ∈ "0123456789+-.einfa".toList := by
    intro x c hc
    rcases List.mem_append.1 hc with hc | hc
    · exact .inl (List.eq_of_mem_replicate hc)
    · exact .inr (P.chars x c hc)
  induction r with
  | nil => simp [line]
  | cons x r ih =>
    cases r with
    | nil => exact pad x
    | cons y r =>
      intro c hc
      simp only [line, List.mem_append] at hc
      rcases hc with (hc | hc) | hc
      · exact pad x c hc
      · exact .inl (List.eq_of_mem_replicate hc)
      · exact ih c hc

/-- The words of a line are the printed values, one for each column. -/
theorem words_line (r : List (Option ℝ)) : words (line prt r) = r.map prt := by
  induction r with
  | nil => rfl
  | cons x r ih =>
    have hb : ∀ c ∈ List.replicate (12 - (prt x).length) ' ', isSpace c = true := fun c hc => by
      rw [List.eq_of_mem_replicate hc]; decide
    have hx : ∀ c ∈ prt x, isSpace c = false := fun c hc => (nonblank (P.chars x c hc)).1
    cases r with
    | nil =>
      have := words_append _ _ [] hb (P.ne x) hx (.inl rfl)
      simp only [List.append_nil] at this
      simp only [line, Stru.pad, this]
      rfl
    | cons y r =>
      have e : line prt (x :: y :: r) = List.replicate (12 - (prt x).length) ' ' ++ (prt x ++ (List.replicate 4 ' ' ++ line prt (y :: r))) := by
        simp [line, Stru.pad]
      rw [e, words_append _ _ (List.replicate 4 ' ' ++ line prt (y :: r)) hb (P.ne x) hx (.inr ⟨' ', _, rfl, by decide⟩)]
      have : words (List.replicate 4 ' ' ++ line prt (y :: r)) = words (line prt (y :: r)) := by
        simp only [List.replicate, List.cons_append, List.nil_append]
        rw [words_space (by decide), words_space (by decide), words_space (by decide), words_space (by decide)]
      rw [this, ih]
      rfl

/-- The numbers of a line. -/
theorem nums_line (r : List ℝ) (b : List Char) (hb : ∀ c ∈ b, c = ' ') : nums S (b ++ line prt (r.map some)) = if r = [] then nums S b else r.map rnd := by
  induction r generalizing b with
  | nil => simp [line]
  | cons x r ih =>
    rw [if_neg (by simp)]
    have hb' : ∀ c ∈ b ++ List.replicate (12 - (prt (some x)).length) ' ', c = ' ' := by
      intro c hc
      rcases List.mem_append.1 hc with hc | hc
      · exact hb c hc
      · exact List.eq_of_mem_replicate hc
    cases r with
    | nil =>
      have e : b ++ line prt ([x].map some) = (b ++ List.replicate (12 - (prt (some x)).length) ' ') ++ (prt (some x) ++ []) := by
        simp [line, Stru.pad]
      have hs := P.scan _ [] x hb' (.inl rfl)
      rw [← e] at hs
      rw [nums]
      split
      · rename_i h0; rw [hs] at h0; cases h0
      · rename_i y h0
        rw [hs] at h0
        injection h0 with h0
        subst h0
        simp [nums_nil]
    | cons y r =>
      have e : b ++ line prt ((x :: y :: r).map some) =
          (b ++ List.replicate (12 - (prt (some x)).length) ' ') ++ (prt (some x) ++ (List.replicate 4 ' ' ++ line prt ((y :: r).map some))) := by
        simp [line, Stru.pad]
      have hs := P.scan _ (List.replicate 4 ' ' ++ line prt ((y :: r).map some)) x hb' (.inr ⟨' ', _, rfl, by decide⟩)
      rw [← e] at hs
      rw [nums]
      split
      · rename_i h0; rw [hs] at h0; cases h0
      · rename_i z h0
        rw [hs] at h0
        injection h0 with h0
        subst h0
        have := ih (List.replicate 4 ' ') fun c hc => List.eq_of_mem_replicate hc
        rw [if_neg (by simp)] at this
        simp only [this]
        rfl

/-- The file read as data: the printed values, with the number of columns of the first line. -/
theorem reread_rows (r : List ℝ) (rows : List (List ℝ)) (h : ∀ x ∈ r :: rows, 2 ≤ x.length) (n : ℕ) (hn : 0 < n) :
    readStream S n (file prt ((r :: rows).map fun x => x.map some)) =
      some (readRows r.length ((r :: rows).map fun x => x.map rnd)) := by
  have hne : ∀ x ∈ r :: rows, x ≠ [] := fun x hx e => by have := h x hx; rw [e] at this; simp at this
  have hline : ∀ x ∈ r :: rows, nums S (line prt (x.map some)) = x.map rnd := fun x hx => by
    have := nums_line P x [] (by simp)
    rw [List.nil_append, if_neg (hne x hx)] at this
    exact this
  have htext : ∀ L : List (List ℝ), file prt (L.map fun x => x.map some) = text (L.map (fun x => line prt (x.map some)) ++ [[]]) := by
    intro L
    induction L with
    | nil => rfl
    | cons a L ih =>
      have e : file prt ((a :: L).map fun x => x.map some) = line prt (a.map some) ++ '\n' :: file prt (L.map fun x => x.map some) := by
        simp [file]
      rw [e, ih]
      cases L with
      | nil => rfl
      | cons b L => rfl
  have hfirst : ∀ c, (line prt (r.map some)).head? = some c → c ≠ '#' ∧ c ≠ 'H' := by
    intro c hc
    rcases line_chars P (r.map some) c (List.mem_of_head? hc) with rfl | hc
    · decide
    · exact ⟨(nonblank hc).2.2.1, (nonblank hc).2.2.2⟩
  have key := readStream_text S [] (line prt (r.map some)) (rows.map (fun x => line prt (x.map some)) ++ [[]]) (by
      intro x hx
      simp only [List.nil_append, List.mem_cons, List.mem_append, List.mem_map, List.not_mem_nil, or_false] at hx
      have hl : ∀ a : List ℝ, '\n' ∉ line prt (a.map some) := by
        intro a hm
        rcases line_chars P (a.map some) '\n' hm with e | e
        · exact absurd e (by decide)
        · exact (nonblank e).2.1 rfl
      rcases hx with rfl | ⟨a, -, rfl⟩ | rfl
      · exact hl r
      · exact hl a
      · simp) (by simp) (by
      unfold hashLine
      rw [decide_eq_false_iff_not]
      exact fun e => (hfirst _ e).1 rfl) (by
      rintro ⟨t, ht⟩
      have : (line prt (r.map some)).head? = some 'H' := by rw [← ht]; rfl
      exact (hfirst _ this).2 rfl) n (by simpa using hn)
  rw [htext]
  rw [List.nil_append] at key
  have e : (r :: rows).map (fun x => line prt (x.map some)) ++ [[]] = line prt (r.map some) :: (rows.map (fun x => line prt (x.map some)) ++ [[]]) := rfl
  rw [e, key, hline r (by simp), List.length_map]
  congr 2
  have tw : ∀ L : List (List ℝ), (∀ x ∈ L, 2 ≤ x.length ∧ nums S (line prt (x.map some)) = x.map rnd) →
      ((L.map (fun x : List ℝ => line prt (x.map some)) ++ [[]]).map (nums S)).takeWhile (fun r => decide (2 ≤ r.length)) =
        L.map fun x => x.map rnd := by
    intro L
    induction L with
    | nil => intro _; simp [nums_nil]
    | cons a L ih =>
      intro h
      obtain ⟨h1, h2⟩ := h a (by simp)
      simp only [List.map_cons, List.cons_append, h2]
      rw [List.takeWhile_cons_of_pos (by simpa using h1), ih fun x hx => h x (by simp [hx])]
  exact tw (r :: rows) fun x hx => ⟨h x hx, hline x hx⟩

/-- **C52**: a saved curve read as data has the printed values of the curve, and unit weights. -/
theorem reread (r : List ℝ) (rows : List (List ℝ)) (h : ∀ x ∈ r :: rows, x.length = 5) (n : ℕ) (hn : 0 < n) (L : Loaded ℝ)
    (hL : readStream S n (file prt ((r :: rows).map fun x => x.map some)) = some (.ok L)) :
    L.obs = (r :: rows).map (fun x => rnd (x.getD 1 0)) ∧ L.wic = (r :: rows).map fun _ => some 1 := by
  rw [reread_rows P r rows (fun x hx => by rw [h x hx]; decide) n hn, h r (by simp)] at hL
  injection hL with hL
  unfold readRows at hL
  dsimp only at hL
  split_ifs at hL
  injection hL with hL
  subst hL
  constructor
  · dsimp only
    rw [List.map_map]
    refine List.map_congr_left fun x hx => ?_
    have h5 := h x hx
    match x, h5 with
    | [a, b, c, d, e], _ => rfl
  · dsimp only
    have w5 : ∀ x : List ℝ, weight 5 x = some 1 := fun _ => rfl
    unfold wics
    simp [w5, Function.comp_def]

end

/-! ### Examples -/

/-- A printer of the whole part, in strokes. -/
noncomputable def strokes (x : Option ℝ) : List Char :=
  match x with
  | some x => List.replicate (⌊x⌋₊ + 1) '1'
  | none => "inf".toList

theorem drop_blanks (b s : List Char) (hb : ∀ c ∈ b, c = ' ') (c : Char) (t : List Char) (hs : s = c :: t) (hc : c ≠ ' ') :
    (b ++ s).dropWhile (· == ' ') = s := by
  induction b with
  | nil => subst hs; simp [hc]
  | cons a b ih =>
    rw [hb a (by simp)]
    simpa using ih fun x hx => hb x (by simp [hx])

/-- The scanner that counts strokes. -/
def tally : Scan ℝ where
  f s := match s.dropWhile (· == ' ') with
    | '1' :: l => some ((l.takeWhile (· == '1')).length, l.dropWhile (· == '1'))
    | _ => none
  lt := by
    intro s x r h
    have h1 : (s.dropWhile (· == ' ')).length ≤ s.length := (List.dropWhile_sublist _).length_le
    split at h
    · rename_i l e
      simp only [Option.some.injEq, Prod.mk.injEq] at h
      have h2 : (l.dropWhile (· == '1')).length ≤ l.length := (List.dropWhile_sublist _).length_le
      rw [e, List.length_cons] at h1
      rw [← h.2]
      omega
    · simp at h

theorem strokes_printer : Printer tally strokes fun x => (⌊x⌋₊ : ℝ) where
  ne x := by cases x <;> simp [strokes, List.replicate_succ]
  chars x c hc := by
    cases x with
    | none => revert c; decide
    | some x => rw [List.eq_of_mem_replicate hc]; decide
  scan b t x hb ht := by
    have e : strokes (some x) ++ t = '1' :: (List.replicate ⌊x⌋₊ '1' ++ t) := by simp [strokes, List.replicate_succ]
    have ht' : t.takeWhile (· == '1') = [] ∧ t.dropWhile (· == '1') = t := by
      rcases ht with rfl | ⟨c, u, rfl, hc⟩
      · exact ⟨rfl, rfl⟩
      · have : c ≠ '1' := by rintro rfl; exact absurd hc (by decide)
        simp [this]
    have hr : ∀ n : ℕ, ((List.replicate n '1' ++ t).takeWhile (· == '1')).length = n ∧
        (List.replicate n '1' ++ t).dropWhile (· == '1') = t := by
      intro n
      induction n with
      | zero => simp [ht'.1, ht'.2]
      | succ n ih => simp [List.replicate_succ, ih.2, ht'.1]
    change (match (b ++ (strokes (some x) ++ t)).dropWhile (· == ' ') with
      | '1' :: l => some (((l.takeWhile (· == '1')).length : ℝ), l.dropWhile (· == '1'))
      | _ => none) = _
    rw [drop_blanks b _ hb '1' _ e (by decide), e]
    simp only [(hr _).1, (hr _).2]

/-- The grid of five points calculated: a file is written. -/
example (vals : ℕ → ℝ) : ∃ rows, pdfRows (run five [.determine vals]) = .ok rows ∧ rows ≠ [] := by
  obtain ⟨rows, F, D, h, -, -, hl, -⟩ := columns_partial five five_fresh [.determine vals] ⟨.determine vals, by simp, trivial⟩
  refine ⟨rows, h, ?_⟩
  rintro rfl
  have := (run_ok (fresh_ok five_fresh) [.determine vals]).ord
  simp only [List.length_nil, Nat.cast_zero] at hl
  omega

/-- The same without calculation. -/
example : pdfRows five = .ub ∧ difRows five = .ub := not_calculated five five_fresh [] (by simp)

/-- Two lines written and read. -/
example : ∃ L, readStream tally 1 (file strokes [[some 1, some 7, some 0, some 3, some 2], [some 2, some 9, some 0, some 3, some 4]]) = some (.ok L) ∧
    L.obs = [7, 9] ∧ L.wic = [some 1, some 1] := by
  have key := reread_rows strokes_printer [1, 7, 0, 3, 2] [[2, 9, 0, 3, 4]] (by simp) 1 (by decide)
  have hL : ∃ L, readStream tally 1 (file strokes ([[1, 7, 0, 3, 2], [2, 9, 0, 3, 4]].map fun x => x.map some)) = some (.ok L) := by
    rw [key]
    unfold readRows
    dsimp only
    rw [if_pos (by simp [isRegular, steps, meanStep, tol]; norm_num), if_neg (by simp)]
    exact ⟨_, rfl⟩
  obtain ⟨L, hL⟩ := hL
  obtain ⟨h1, h2⟩ := reread strokes_printer [1, 7, 0, 3, 2] [[2, 9, 0, 3, 4]] (by simp) 1 (by decide) L hL
  exact ⟨L, hL, by rw [h1]; simp, by rw [h2]; simp⟩

end Pdffit.C52
