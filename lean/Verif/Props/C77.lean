import Verif.Model.ListArg
import Verif.Props.C26
import Verif.Props.C34
import Mathlib.Tactic.NormNum

/-! # C77: `read_data_lists` takes lists of numbers and nothing else -/

namespace Pdffit.C77
open Api DataRead ListArg
variable {Φ : Type}

/-- A list of numbers as an argument. -/
def nums (l : List ℝ) : Arg := .list (l.map .num)

/-- Optional third argument made of numbers. -/
def optNums : Option (List ℝ) → Arg
  | none => .none
  | some l => nums l

theorem map_double (l : List ℝ) : (l.map Item.num).map Item.double = l := by
  rw [List.map_map]
  exact List.map_id l

theorem any_num (l : List ℝ) : (l.map Item.num).any (fun i => !i.isNum) = false := by
  induction l with
  | nil => rfl
  | cons a l ih => simp [Item.isNum]

theorem array_nums (l : List ℝ) : (nums l).array = (l, false) := by
  show ((l.map Item.num).map Item.double, (l.map Item.num).any fun i => !i.isNum) = _
  rw [map_double, any_num]

theorem third_nums (d : Option (List ℝ)) : third (optNums d) = (d, false) := by
  cases d with
  | none => rfl
  | some l =>
    show (some (nums l).array.1, (nums l).array.2) = _
    rw [array_nums]

theorem size_nums (l : List ℝ) : (nums l).size = l.length := by simp [nums, Arg.size]

/-- Items without a non-number are numbers. -/
theorem all_num {l : List Item} (h : (l.any fun i => !i.isNum) = false) : ∃ x : List ℝ, l = x.map .num := by
  induction l with
  | nil => exact ⟨[], rfl⟩
  | cons a l ih =>
    simp only [List.any_cons, Bool.or_eq_false_iff] at h
    obtain ⟨x, rfl⟩ := ih h.2
    cases a with
    | num v => exact ⟨v :: x, rfl⟩
    | other => simp [Item.isNum] at h

/-- The array of an argument that is a list has the length of the list. -/
theorem array_length {a : Arg} (h : 0 ≤ a.size) : (a.array.1.length : ℤ) = a.size := by
  cases a with
  | none => simp [Arg.size] at h
  | other => simp [Arg.size] at h
  | list l => simp [Arg.array, Arg.size]

theorem of_size {a : Arg} (h : 0 ≤ a.size) : ∃ l, a = .list l := by
  cases a with
  | none => simp [Arg.size] at h
  | other => simp [Arg.size] at h
  | list l => exact ⟨l, rfl⟩

/-- What `readArrays` does to arrays of one length. -/
theorem arrays_cases (r G : List ℝ) (d : Option (List ℝ)) (h1 : r.length = G.length) (h2 : ∀ x, d = some x → x.length = G.length) :
    (r = [] ∧ readArrays r G d = .ub) ∨ (r ≠ [] ∧ isRegular r = false ∧ readArrays r G d = .err .data) ∨
      (r ≠ [] ∧ isRegular r = true ∧ ∃ L, readArrays r G d = .ok L ∧ L.rmin = r.getD 0 0 ∧ L.rmax = r.getD (r.length - 1) 0) := by
  have hc : ¬ (r.length ≠ G.length ∨ ∃ x, d = some x ∧ x.length ≠ G.length) := by
    rintro (h | ⟨x, hx, h⟩)
    · exact h h1
    · exact h (h2 x hx)
  cases hr : r with
  | nil =>
    refine .inl ⟨rfl, ?_⟩
    unfold readArrays
    rw [← hr, if_neg hc]
    simp [hr]
  | cons a l =>
    rw [← hr]
    have hn : r ≠ [] := by simp [hr]
    have hg : r.getLast? = some (r.getD (r.length - 1) 0) := by
      rw [List.getLast?_eq_getElem?, hr]
      simp
    have hh : r.head? = some (r.getD 0 0) := by rw [hr]; rfl
    refine .inr ?_
    unfold readArrays
    rw [if_neg hc, hg, hh]
    dsimp only
    cases he : isRegular r with
    | false => exact .inl ⟨hn, rfl, by simp⟩
    | true => exact .inr ⟨hn, rfl, _, by rw [if_pos rfl], rfl, rfl⟩

theorem dlen_nums (n : ℤ) (d : Option (List ℝ)) : dlen n (optNums d) ≠ n ↔ ∃ x, d = some x ∧ (x.length : ℤ) ≠ n := by
  cases d with
  | none => simp [optNums, dlen]
  | some x =>
    show (nums x).size ≠ n ↔ _
    rw [size_nums]
    simp

/-- The cases of `loadThem` for arrays of one length. -/
theorem load_cases (s : St ℝ Φ) (val : DScal → ℝ) (r G : List ℝ) (d : Option (List ℝ)) (p : Bool) (h1 : r.length = G.length)
    (h2 : ∀ x, d = some x → x.length = G.length) :
    (r = [] ∧ loadThem s val r G d p = (.ub, s, 0)) ∨
      (r ≠ [] ∧ isRegular r = false ∧ loadThem s val r G d p = (.raises .data, s, if d.isNone then 2 else 3)) ∨
      (r ≠ [] ∧ isRegular r = true ∧ loadThem s val r G d p =
        (if p then .systemError else .returns, addData s ⟨val, r.getD 0 0, r.getD (r.length - 1) 0⟩, 0)) := by
  unfold loadThem
  rcases arrays_cases r G d h1 h2 with ⟨h, e⟩ | ⟨h3, h, e⟩ | ⟨h3, h, L, e, e1, e2⟩
  · exact .inl ⟨h, by rw [e]⟩
  · exact .inr (.inl ⟨h3, h, by rw [e]⟩)
  · exact .inr (.inr ⟨h3, h, by rw [e, ← e1, ← e2]⟩)

/-- The cases of the whole call. -/
theorem call_cases (s : St ℝ Φ) (val : DScal → ℝ) (r G dG : Arg) :
    readLists s val r G dG = (.raises .value, s, 0) ∨ readLists s val r G dG = (.dies, s, 0) ∨
    ∃ lr lG, r = .list lr ∧ G = .list lG ∧ lr.length = lG.length ∧ (∀ x, (third dG).1 = some x → x.length = lG.length) ∧
      (dG = .none ∨ ∃ l, dG = .list l) ∧
      readLists s val r G dG = loadThem s val (lr.map Item.double) (lG.map Item.double) (third dG).1
        ((lr.any fun i => !i.isNum) || (lG.any fun i => !i.isNum) || (third dG).2) := by
  unfold readLists
  dsimp only
  split_ifs with h1 h2
  · exact .inl rfl
  · exact .inr (.inl rfl)
  simp only [not_or, ne_eq, not_not, not_lt] at h1 h2
  obtain ⟨lG, rfl⟩ := of_size h2
  obtain ⟨lr, rfl⟩ := of_size (h1.1 ▸ h2)
  have h3 : (lr.length : ℤ) = lG.length := h1.1
  refine .inr (.inr ⟨lr, lG, rfl, rfl, by omega, ?_, ?_, rfl⟩)
  · intro x hx
    cases dG with
    | none => simp [third] at hx
    | other =>
      have := h1.2
      simp [dlen, Arg.size] at this
    | list l =>
      have h4 : (l.length : ℤ) = lG.length := h1.2
      have h5 : some (l.map Item.double) = some x := hx
      injection h5 with h5
      rw [← h5, List.length_map]
      omega
  · cases dG with
    | none => exact .inl rfl
    | other =>
      have := h1.2
      simp [dlen, Arg.size] at this
    | list l => exact .inr ⟨l, rfl⟩

/-- **C77** for lists of numbers. Different lengths raise `ValueError`, irregular values `dataError`; otherwise, unless the lists are
empty, the call returns. The engine is changed only in the last case, and then by the new data set. -/
theorem C77_numbers (s : St ℝ Φ) (val : DScal → ℝ) (r G : List ℝ) (d : Option (List ℝ)) :
    ((r.length ≠ G.length ∨ ∃ x, d = some x ∧ x.length ≠ G.length) →
      readLists s val (nums r) (nums G) (optNums d) = (.raises .value, s, 0)) ∧
    (r.length = G.length → (∀ x, d = some x → x.length = G.length) → r ≠ [] →
      (isRegular r = false → (readLists s val (nums r) (nums G) (optNums d)).1 = .raises .data ∧
        (readLists s val (nums r) (nums G) (optNums d)).2.1 = s) ∧
      (isRegular r = true → readLists s val (nums r) (nums G) (optNums d) =
        (.returns, addData s ⟨val, r.getD 0 0, r.getD (r.length - 1) 0⟩, 0))) := by
  constructor
  · intro h
    unfold readLists
    dsimp only
    rw [size_nums, size_nums, if_pos]
    rw [dlen_nums]
    rcases h with h | ⟨x, hx, h⟩
    · exact .inl (by exact_mod_cast h)
    · exact .inr ⟨x, hx, by exact_mod_cast h⟩
  · intro h1 h2 h3
    have key : readLists s val (nums r) (nums G) (optNums d) = loadThem s val r G d false := by
      unfold readLists
      dsimp only
      rw [size_nums, size_nums, if_neg, if_neg (by omega), third_nums, array_nums, array_nums]
      · rfl
      rw [dlen_nums]
      rintro (h | ⟨x, hx, h⟩)
      · exact h (by exact_mod_cast h1)
      · exact h (by exact_mod_cast h2 x hx)
    rw [key]
    rcases load_cases s val r G d false h1 h2 with ⟨h, -⟩ | ⟨-, h, e⟩ | ⟨-, h, e⟩
    · exact absurd h h3
    · rw [e, h]
      exact ⟨fun _ => ⟨rfl, rfl⟩, fun h => by simp at h⟩
    · rw [e, h]
      exact ⟨fun h => by simp at h, fun _ => rfl⟩

/-- **C77**: the call returns for no other arguments. -/
theorem C77_returns (s : St ℝ Φ) (val : DScal → ℝ) (r G dG : Arg) (h : (readLists s val r G dG).1 = .returns) :
    ∃ (r' G' : List ℝ) (d' : Option (List ℝ)), r = nums r' ∧ G = nums G' ∧ dG = optNums d' ∧ r' ≠ [] ∧
      r'.length = G'.length ∧ (∀ x, d' = some x → x.length = G'.length) ∧ isRegular r' = true := by
  rcases call_cases s val r G dG with e | e | ⟨lr, lG, rfl, rfl, h1, h2, h3, e⟩
  · rw [e] at h
    exact End.noConfusion h
  · rw [e] at h
    exact End.noConfusion h
  rw [e] at h
  rcases load_cases s val (lr.map Item.double) (lG.map Item.double) (third dG).1
      ((lr.any fun i => !i.isNum) || (lG.any fun i => !i.isNum) || (third dG).2) (by simpa using h1)
      (by simpa using h2) with ⟨-, e⟩ | ⟨-, -, e⟩ | ⟨h4, h5, e⟩
  · rw [e] at h
    exact End.noConfusion h
  · rw [e] at h
    exact End.noConfusion h
  rw [e] at h
  dsimp only at h
  split_ifs at h with hp
  simp only [Bool.or_eq_true, not_or, Bool.not_eq_true] at hp
  obtain ⟨G', rfl⟩ := all_num hp.1.2
  obtain ⟨r', rfl⟩ := all_num hp.1.1
  rw [map_double] at h4 h5
  simp only [List.length_map] at h1 h2
  refine ⟨r', G', ?_⟩
  rcases h3 with rfl | ⟨l, rfl⟩
  · exact ⟨none, rfl, rfl, rfl, h4, h1, by simp, h5⟩
  · obtain ⟨d', rfl⟩ := all_num (l := l) hp.2
    refine ⟨some d', rfl, rfl, rfl, h4, h1, ?_, h5⟩
    intro x hx
    injection hx with hx
    subst hx
    have := h2 (d'.map Item.num |>.map Item.double) rfl
    simpa using this

/-- **C77, the part that holds for all objects**: unless the call raises `SystemError` or returns, the engine is unchanged, and the
exception is `ValueError` or `dataError`. -/
theorem C77_no_trace_partial (s : St ℝ Φ) (val : DScal → ℝ) (r G dG : Arg) (h : (readLists s val r G dG).1 ≠ .systemError)
    (h' : (readLists s val r G dG).1 ≠ .returns) :
    (readLists s val r G dG).2.1 = s ∧ ∀ e, (readLists s val r G dG).1 = .raises e → e = .value ∨ e = .data := by
  rcases call_cases s val r G dG with e | e | ⟨lr, lG, rfl, rfl, h1, h2, h3, e⟩
  · rw [e]
    exact ⟨rfl, fun x hx => .inl (by injection hx with hx; exact hx.symm)⟩
  · rw [e]
    exact ⟨rfl, fun x hx => End.noConfusion hx⟩
  rw [e] at h h' ⊢
  rcases load_cases s val (lr.map Item.double) (lG.map Item.double) (third dG).1
      ((lr.any fun i => !i.isNum) || (lG.any fun i => !i.isNum) || (third dG).2) (by simpa using h1)
      (by simpa using h2) with ⟨-, e⟩ | ⟨-, -, e⟩ | ⟨-, -, e⟩
  · rw [e]
    exact ⟨rfl, fun x hx => End.noConfusion hx⟩
  · rw [e]
    exact ⟨rfl, fun x hx => .inr (by injection hx with hx; exact hx.symm)⟩
  · rw [e] at h h'
    dsimp only at h h'
    split_ifs at h h' with hp
    · exact absurd rfl h
    · exact absurd rfl h'

/-- **C77 is violated by an item that is not a number**: in every state and for all regular `r` the call raises although the
data set is loaded, with -1 in place of that item. -/
theorem C77_not_number (s : St ℝ Φ) (val : DScal → ℝ) (r : List ℝ) (G : List Item) (h : r ≠ []) (hr : isRegular r = true)
    (hl : r.length = G.length) (hG : Item.other ∈ G) :
    (readLists s val (nums r) (.list G) .none).1 = .systemError ∧
    (readLists s val (nums r) (.list G) .none).2.1 = addData s ⟨val, r.getD 0 0, r.getD (r.length - 1) 0⟩ ∧
    (readLists s val (nums r) (.list G) .none).2.1.sets.length = s.sets.length + 1 ∧
    ∃ L, readArrays r (G.map Item.double) none = .ok L ∧ (-1) ∈ L.obs := by
  have hb : (G.any fun i => !i.isNum) = true := List.any_eq_true.2 ⟨_, hG, rfl⟩
  have key : readLists s val (nums r) (.list G) .none = loadThem s val r (G.map Item.double) none true := by
    unfold readLists
    dsimp only
    rw [size_nums, if_neg, if_neg, array_nums]
    · show loadThem s val r (G.map Item.double) none (false || (G.any fun i => !i.isNum) || false) = _
      rw [hb]
      rfl
    · simp [Arg.size]
    · simp [Arg.size, hl, dlen]
  have hk : readLists s val (nums r) (.list G) .none =
      (.systemError, addData s ⟨val, r.getD 0 0, r.getD (r.length - 1) 0⟩, 0) := by
    rw [key]
    rcases load_cases s val r (G.map Item.double) none true (by simpa using hl) (by simp) with ⟨h1, -⟩ | ⟨-, h1, -⟩ | ⟨-, -, e⟩
    · exact absurd h1 h
    · rw [h1] at hr
      exact Bool.noConfusion hr
    · exact e
  rw [hk]
  refine ⟨rfl, rfl, ?_, ?_⟩
  · obtain ⟨-, -, -, d, hd⟩ := C26.new_data s.fit s ⟨val, r.getD 0 0, r.getD (r.length - 1) 0⟩
    have e : (addData s ⟨val, r.getD 0 0, r.getD (r.length - 1) 0⟩).sets = s.sets ++ [d] := hd
    rw [e]
    simp
  · rcases arrays_cases r (G.map Item.double) none (by simpa using hl) (by simp) with ⟨h1, -⟩ | ⟨-, h1, -⟩ | ⟨-, -, L, e, -⟩
    · exact absurd h1 h
    · rw [h1] at hr
      exact Bool.noConfusion hr
    · refine ⟨L, e, ?_⟩
      rw [(C34.arrays_ok _ _ _ _ e).2.2.2.2.1]
      exact List.mem_map.2 ⟨_, hG, rfl⟩

/-- **C77 is violated by arguments that are not lists**, such as arrays or tuples: the process ends. -/
theorem C77_not_lists (s : St ℝ Φ) (val : DScal → ℝ) (r G dG : Arg) (h1 : ∀ l, r ≠ .list l) (h2 : ∀ l, G ≠ .list l)
    (h3 : ∀ l, dG ≠ .list l) : (readLists s val r G dG).1 = .dies := by
  have hs : ∀ a : Arg, (∀ l, a ≠ .list l) → a.size = -1 := by
    intro a ha
    cases a with
    | list l => exact absurd rfl (ha l)
    | none => rfl
    | other => rfl
  unfold readLists
  dsimp only
  rw [hs r h1, hs G h2, if_neg, if_pos (by norm_num)]
  cases dG with
  | list l => exact absurd rfl (h3 l)
  | none => simp [dlen]
  | other => simp [dlen, Arg.size]

/-- **C77 is violated by irregular values**: each such call leaves two or three arrays allocated; no other call does. -/
theorem C77_leak (s : St ℝ Φ) (val : DScal → ℝ) (r G dG : Arg) :
    (readLists s val r G dG).2.2 = if (readLists s val r G dG).1 = .raises .data then (if dG.size = -1 then 2 else 3) else 0 := by
  rcases call_cases s val r G dG with e | e | ⟨lr, lG, rfl, rfl, h1, h2, h3, e⟩
  · rw [e]
    rfl
  · rw [e]
    rfl
  rw [e]
  rcases load_cases s val (lr.map Item.double) (lG.map Item.double) (third dG).1
      ((lr.any fun i => !i.isNum) || (lG.any fun i => !i.isNum) || (third dG).2) (by simpa using h1)
      (by simpa using h2) with ⟨-, e⟩ | ⟨-, -, e⟩ | ⟨-, -, e⟩
  · rw [e]
    rfl
  · rw [e]
    rcases h3 with rfl | ⟨l, rfl⟩
    · rfl
    · have : ((Arg.list l).size = -1) = False := by simp [Arg.size]
      simp [third, this]
  · rw [e]
    dsimp only
    split_ifs <;> simp_all

/-- Three values without and with a string among them, two tuples, values that are not equidistant. -/
example (s : St ℝ Φ) (val : DScal → ℝ) :
    (readLists s val (nums [1, 2, 3]) (nums [5, 6, 7]) .none).1 = .returns ∧
    (readLists s val (nums [1, 2, 3]) (.list [.num 5, .other, .num 7]) .none).1 = .systemError ∧
    (readLists s val (nums [1, 2, 3]) (.list [.num 5, .other, .num 7]) .none).2.1.sets.length = s.sets.length + 1 ∧
    (readLists s val .other .other .none).1 = .dies ∧
    (readLists s val (nums [1, 2, 3]) (nums [5, 6]) .none) = (.raises .value, s, 0) ∧
    (readLists s val (nums [1, 2, 4]) (nums [5, 6, 7]) .none) = (.raises .data, s, 2) := by
  have hr : isRegular [(1 : ℝ), 2, 3] = true := by
    simp [isRegular, steps, meanStep, tol]
    norm_num
  have hi : isRegular [(1 : ℝ), 2, 4] = false := by
    simp [isRegular, steps, meanStep, tol]
    norm_num
  have h1 := C77_numbers s val [1, 2, 3] [5, 6, 7] none
  have h2 := C77_not_number s val [1, 2, 3] [.num 5, .other, .num 7] (by simp) hr rfl (by simp)
  have h3 := C77_numbers s val [1, 2, 4] [5, 6, 7] none
  have h4 := (h3.2 rfl (by simp) (by simp)).1 hi
  refine ⟨by rw [show (Arg.none) = optNums none from rfl, (h1.2 rfl (by simp) (by simp)).2 hr], h2.1, h2.2.2.1,
    C77_not_lists s val _ _ _ (by simp) (by simp) (by simp), (C77_numbers s val [1, 2, 3] [5, 6] none).1 (by simp), ?_⟩
  refine Prod.ext h4.1 (Prod.ext h4.2 ?_)
  rw [C77_leak]
  erw [if_pos h4.1]
  rfl

end Pdffit.C77

/-! ## Consequences for C28 -/

namespace Pdffit.C28
open Api DataRead ListArg C77
variable {Φ : Type}

/-- **C28 is violated by `read_data_lists`** for every state: with an item that is not a number the call raises and the data set is there. -/
theorem lists_trace (s : St ℝ Φ) (val : DScal → ℝ) (x : ℝ) :
    (readLists s val (nums [x]) (.list [.other]) .none).1 = .systemError ∧
    (readLists s val (nums [x]) (.list [.other]) .none).2.1.sets.length = s.sets.length + 1 := by
  have h := C77_not_number s val [x] [.other] (by simp) (by simp [isRegular]) rfl (by simp)
  exact ⟨h.1, h.2.2.1⟩

/-- Writing when every `write` raises. -/
theorem run_fail (f : Outp.File) : ∀ (ms : List Outp.Text) (o : Outp.St), o.pout = some .py → o.sb = some f → o.pending = true →
    ∃ o', Outp.run ⟨fun _ => true, fun _ _ => false⟩ o (ms.map .engine) = .ok o' ∧ o'.pending = true
  | [], o, _, _, h => ⟨o, rfl, h⟩
  | m :: ms, o, h1, h2, h3 => by
    have e : Outp.step ⟨fun _ => true, fun _ _ => false⟩ o (.engine m) = .ok { o with pending := true } := by
      simp [Outp.step, h1, h2, Outp.St.write]
    obtain ⟨o', h4, h5⟩ := run_fail f ms { o with pending := true } h1 h2 rfl
    refine ⟨o', ?_, h5⟩
    simp only [List.map_cons, Outp.run, e]
    exact h4

/-- **C28 is violated by messages that cannot be written**: after redirection to a file whose `write` raises, as that of a closed file
does, every load that prints something raises, and the phase or the data set is there. -/
theorem write_trace (fit0 : Φ) (s : St ℝ Φ) (f : Outp.File) (p : Ph ℝ) (r : Raw ℝ) (m : Outp.Text) (ms : List Outp.Text) :
    ∃ o o1 o2, Outp.run ⟨fun _ => true, fun _ _ => false⟩ Outp.init [.redirect f] = .ok o ∧
    printing fit0 ⟨fun _ => true, fun _ _ => false⟩ o (m :: ms) s (.readStruct (.ok p)) = .ok (.systemError, addPhase s p, o1) ∧
    (addPhase s p).phases.length = s.phases.length + 1 ∧
    printing fit0 ⟨fun _ => true, fun _ _ => false⟩ o (m :: ms) s (.readData (.ok r)) = .ok (.systemError, addData s r, o2) ∧
    (addData s r).sets.length = s.sets.length + 1 := by
  obtain ⟨o, h1, h2, h3⟩ : ∃ o, Outp.run ⟨fun _ => true, fun _ _ => false⟩ Outp.init [.redirect f] = .ok o ∧ o.pout = some .py ∧
      o.sb = some f := ⟨_, rfl, rfl, rfl⟩
  have e : Outp.step ⟨fun _ => true, fun _ _ => false⟩ o (.engine m) = .ok { o with pending := true } := by
    simp [Outp.step, h2, h3, Outp.St.write]
  obtain ⟨o', h4, h5⟩ := run_fail f ms { o with pending := true } h2 h3 rfl
  have h6 : Outp.run ⟨fun _ => true, fun _ _ => false⟩ o ((m :: ms).map .engine) = .ok o' := by
    simp only [List.map_cons, Outp.run, e]
    exact h4
  refine ⟨o, o', o', h1, ?_, ?_, ?_, ?_⟩
  · unfold printing
    rw [h6]
    dsimp only
    rw [h5]
    rfl
  · have : (addPhase s p).phases = s.phases ++ [p] := by rw [addPhase_eq]
    rw [this]
    simp
  · unfold printing
    rw [h6]
    dsimp only
    rw [h5]
    rfl
  · obtain ⟨-, -, -, d, hd⟩ := C26.new_data fit0 s r
    have e : (addData s r).sets = s.sets ++ [d] := hd
    rw [e]
    simp

end Pdffit.C28
