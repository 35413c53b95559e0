import Verif.Model.Banner
import Mathlib.Tactic.Common

/-!
# C109: the banner of `intro()`

Observable content: the banner is a box. Each line has 78 characters and begins and ends with a star, for every version and date
(`C109_box_partial`), and shows version and date (`C109_version_partial`, `C109_date_partial`).

This is not true for versions of more than 30 characters, which development builds have (`C109_box_violated`), nor for an empty date, see C108
(`C109_date_violated`).
-/

namespace Pdffit.C109
open Banner

/-- A line of the box. -/
def Boxed (l : List Char) : Prop := l.length = 78 ∧ l.head? = some '*' ∧ l.getLast? = some '*'

instance (l : List Char) : Decidable (Boxed l) := by unfold Boxed; infer_instance

theorem rstrip_prefix (l : List Char) : rstrip l <+: l := by
  unfold rstrip
  rw [← List.reverse_suffix, List.reverse_reverse]
  exact List.dropWhile_suffix _

theorem rstrip_append {l b : List Char} (hb : ∀ c ∈ b, edge c = true) : rstrip (l ++ b) = rstrip l := by
  unfold rstrip
  rw [List.reverse_append, List.dropWhile_append_of_pos (fun c hc => hb c (List.mem_reverse.mp hc))]

theorem rstrip_last {l : List Char} {c : Char} (hc : edge c = false) : rstrip (l ++ [c]) = l ++ [c] := by
  simp [rstrip, hc]

theorem rstrip_ne {l : List Char} (h : ∃ c ∈ l, edge c = false) : rstrip l ≠ [] := by
  obtain ⟨c, hc, he⟩ := h
  intro h0
  have h1 : l.reverse.dropWhile edge = [] := by
    have := congrArg List.reverse h0
    simpa only [rstrip, List.reverse_reverse, List.reverse_nil] using this
  have h2 : ∀ (m : List Char), c ∈ m → m.dropWhile edge ≠ [] := by
    intro m hm
    induction m with
    | nil => exact absurd hm (by simp)
    | cons x xs ih =>
      by_cases hx : edge x = true
      · rw [List.dropWhile_cons_of_pos hx]
        rcases List.mem_cons.mp hm with h | h
        · rw [← h, he] at hx
          exact absurd hx (by decide)
        · exact ih h
      · rw [List.dropWhile_cons_of_neg hx]
        exact List.cons_ne_nil _ _
  exact h2 _ (List.mem_reverse.mpr hc) h1

theorem head_star {a : List Char} (h : a.head? = some '*') (b : List Char) : (a ++ b).head? = some '*' := by
  rw [List.head?_append, h]
  rfl

/-- A line that is filled up. -/
theorem boxed_fill (a b : List Char) (hb : ∀ c ∈ b, edge c = true) (hl : b.getLast? = some '*') (ha : a.head? = some '*')
    (hn : a.length ≤ 77) (hc : ∃ c ∈ a, edge c = false) : Boxed (fill (a ++ b)) := by
  have hh : (a ++ b).head? = some '*' := by
    rw [List.head?_append, ha]
    rfl
  unfold fill
  split
  · have h1 := rstrip_prefix a
    have h2 : (rstrip a).length ≤ a.length := h1.length_le
    have h3 := rstrip_ne hc
    rw [rstrip_append hb]
    refine ⟨?_, ?_, by simp⟩
    · simp only [ljust, List.length_append, List.length_replicate, List.length_singleton]
      omega
    · obtain ⟨t, ht⟩ := h1
      obtain ⟨x, xs, hx⟩ := List.exists_cons_of_ne_nil h3
      rw [hx] at ht ⊢
      rw [← ht] at ha
      simpa [ljust] using ha
  · rename_i h
    refine ⟨?_, hh, ?_⟩
    · have : (a ++ b) ≠ [] := by
        intro h0
        rw [h0] at hh
        exact absurd hh (by simp)
      have := List.length_pos_iff.mpr this
      omega
    · rw [List.getLast?_append, hl]
      rfl

/-- A line that is filled up behind a text with the given end. -/
theorem fill_eq (a : List Char) (x : Char) (k : ℕ) (hx : edge x = false) (hn : a.length ≤ 76) :
    fill (a ++ [x] ++ (List.replicate k ' ' ++ ['*'])) = a ++ [x] ++ List.replicate (76 - a.length) ' ' ++ ['*'] := by
  have hb : ∀ c ∈ List.replicate k ' ' ++ ['*'], edge c = true := by
    intro c hc
    simp only [List.mem_append, List.mem_replicate, List.mem_singleton] at hc
    rcases hc with ⟨-, h⟩ | h <;> subst h <;> decide
  unfold fill
  split
  · rw [rstrip_append hb, rstrip_last hx]
    simp only [ljust, List.length_append, List.length_singleton]
    congr 3
    omega
  · rename_i h
    simp only [List.length_append, List.length_singleton, List.length_replicate] at h
    have : k = 76 - a.length := by omega
    subst this
    simp only [List.append_assoc]

/-- **C109.** The banner is a box of 78 columns. Missing: versions of more than 30 characters, dates of blanks and stars only. -/
theorem C109_box_partial (version date : List Char) (hv : version.length ≤ 30) (hd : ∃ c ∈ date.take 10, c ≠ ' ' ∧ c ≠ '*') :
    ∀ l ∈ intro version date, Boxed l := by
  have h10 : (date.take 10).length ≤ 10 := List.length_take_le _ _
  unfold intro
  generalize date.take 10 = d at hd h10
  generalize hy : (if d.take 4 = [] then "2019".toList else d.take 4) = y
  have hy4 : y.length ≤ 4 := by
    rw [← hy]
    split
    · decide
    · exact List.length_take_le _ _
  intro l hl
  simp only [template, List.map_cons, List.map_nil, List.mem_cons, List.not_mem_nil, or_false] at hl
  rcases hl with h | h | h | h | h | h | h | h | h | h | h | h | h | h | h <;> subst h
  · decide +kernel
  · refine boxed_fill _ _ (by decide +kernel) (by decide +kernel) (head_star (by decide +kernel) _) ?_ ⟨'V', ?_, by decide⟩
    · rw [List.length_append, show "*                      P D F F I T   Version   ".toList.length = 47 by decide +kernel]
      omega
    · exact List.mem_append_left _ (by decide +kernel)
  · obtain ⟨c, hc, h1, h2⟩ := hd
    refine boxed_fill _ _ (by decide +kernel) (by decide +kernel) (head_star (by decide +kernel) _) ?_ ⟨c, ?_, by simp [edge, h1, h2]⟩
    · rw [List.length_append, show "*                                              ".toList.length = 47 by decide +kernel]
      omega
    · exact List.mem_append_right _ hc
  · decide +kernel
  · decide +kernel
  · have e : "* (c) 2008-".toList ++ y ++ " Trustees of the Columbia University                      *".toList =
        ("* (c) 2008-".toList ++ y ++ " Trustees of the Columbia University".toList) ++ "                      *".toList := by
      rw [List.append_assoc _ _ "                      *".toList]
      congr 1
    rw [e]
    refine boxed_fill _ _ (by decide +kernel) (by decide +kernel) (by rw [List.append_assoc]; exact head_star (by decide +kernel) _) ?_
      ⟨'T', ?_, by decide⟩
    · rw [List.length_append, List.length_append, show "* (c) 2008-".toList.length = 11 by decide +kernel,
        show " Trustees of the Columbia University".toList.length = 36 by decide +kernel]
      omega
    · exact List.mem_append_right _ (by decide +kernel)
  all_goals decide +kernel

/-- **C109.** The second line shows the version, followed by blanks up to the star. -/
theorem C109_version_partial (v : List Char) (x : Char) (date : List Char) (hx : x ≠ ' ' ∧ x ≠ '*') (hv : (v ++ [x]).length ≤ 30) :
    (intro (v ++ [x]) date)[1]? =
      some ("*                      P D F F I T   Version   ".toList ++ (v ++ [x]) ++ List.replicate (30 - (v ++ [x]).length) ' ' ++ ['*']) := by
  rw [List.length_append, List.length_singleton] at hv
  have h := fill_eq ("*                      P D F F I T   Version   ".toList ++ v) x 19 (by simp [edge, hx])
    (by rw [List.length_append, show "*                      P D F F I T   Version   ".toList.length = 47 by decide +kernel]; omega)
  rw [List.length_append, show "*                      P D F F I T   Version   ".toList.length = 47 by decide +kernel] at h
  have hn : 30 - (v ++ [x]).length = 76 - (47 + v.length) := by
    rw [List.length_append, List.length_singleton]
    omega
  have hs : "                   *".toList = List.replicate 19 ' ' ++ ['*'] := by decide +kernel
  rw [hn, ← List.append_assoc _ v [x], ← h]
  unfold intro template
  simp only [List.map_cons, List.getElem?_cons_succ, List.getElem?_cons_zero]
  rw [hs, ← List.append_assoc _ v [x]]

/-- **C109.** The third line shows the first ten characters of the date. -/
theorem C109_date_partial (version d : List Char) (x : Char) (rest : List Char) (hx : x ≠ ' ' ∧ x ≠ '*') (hd : d.length = 9) :
    (intro version (d ++ [x] ++ rest))[2]? =
      some ("*                                              ".toList ++ (d ++ [x]) ++ List.replicate 20 ' ' ++ ['*']) := by
  have ht : (d ++ [x] ++ rest).take 10 = d ++ [x] := by
    rw [List.take_append_of_le_length (by simp [hd]), List.take_of_length_le (by simp [hd])]
  have h := fill_eq ("*                                              ".toList ++ d) x 22 (by simp [edge, hx])
    (by rw [List.length_append, show "*                                              ".toList.length = 47 by decide +kernel]; omega)
  rw [List.length_append, show "*                                              ".toList.length = 47 by decide +kernel, hd] at h
  have hs : "                      *".toList = List.replicate 22 ' ' ++ ['*'] := by decide +kernel
  rw [← List.append_assoc _ d [x], show (20 : ℕ) = 76 - (47 + 9) by rfl, ← h]
  unfold intro template
  rw [ht]
  simp only [List.map_cons, List.getElem?_cons_succ, List.getElem?_cons_zero]
  rw [hs, ← List.append_assoc _ d [x]]

/-- **C109 fails** for each version of more than 30 characters that does not end in blanks or stars: the line is longer than the others. -/
theorem C109_box_violated (v : List Char) (x : Char) (date : List Char) (hx : x ≠ ' ' ∧ x ≠ '*') (hv : 30 < (v ++ [x]).length) :
    ∃ l ∈ intro (v ++ [x]) date, 78 < l.length := by
  rw [List.length_append, List.length_singleton] at hv
  refine ⟨_, List.mem_map_of_mem (List.mem_cons_of_mem _ List.mem_cons_self), ?_⟩
  have hs : "                   *".toList = List.replicate 19 ' ' ++ ['*'] := by decide +kernel
  have hb : ∀ c ∈ List.replicate 19 ' ' ++ ['*'], edge c = true := by decide +kernel
  have h47 : "*                      P D F F I T   Version   ".toList.length = 47 := by decide +kernel
  rw [hs, ← List.append_assoc _ v [x]]
  unfold fill
  rw [if_pos (.inr (by simp only [List.length_append, h47, List.length_replicate, List.length_singleton]; omega)), rstrip_append hb,
    rstrip_last (by simp [edge, hx])]
  simp only [ljust, List.length_append, h47, List.length_replicate, List.length_singleton]
  omega

/-- **C109 fails** for an empty date: the line has lost its first star. -/
theorem C109_date_violated : ∃ l ∈ intro "1.5.1".toList [], ¬ Boxed l :=
  ⟨List.replicate 77 ' ' ++ ['*'], by decide +kernel, by decide +kernel⟩

/-- A release, and a development build. -/
example : (intro "1.5.1".toList "2024-05-06".toList)[1]? =
    some "*                      P D F F I T   Version   1.5.1                         *".toList := by decide +kernel

example : ((intro "1.5.2rc1.dev12+gabcdef012.d20260101".toList "2024-05-06".toList).map List.length).take 3 = [78, 83, 78] := by decide +kernel

end Pdffit.C109
