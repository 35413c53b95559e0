import Verif.Model.FParse
import Verif.Lemmas.Parser
import Verif.Lemmas.ParserRefs
import Verif.Lemmas.Constr

/-! # The text parser satisfies what the constraint results ask for -/

namespace Pdffit.Parser
variable {K : Type} [Field K]

theorem dropWhile_append_of_not {s t : List Char} (h : '@' ∉ s) :
    (s ++ t).dropWhile (· ≠ '@') = t.dropWhile (· ≠ '@') := by
  induction s with
  | nil => rfl
  | cons c s ih =>
    have hc : c ≠ '@' := fun e => h (by simp [e])
    have : '@' ∉ s := fun hm => h (by simp [hm])
    rw [List.cons_append, List.dropWhile_cons_of_pos (by simpa using hc), ih this]

theorem atIds_append {s t : List Char} (h : '@' ∉ s) (fuel : Nat) : atIds fuel (s ++ t) = atIds fuel t := by
  cases fuel with
  | zero => rfl
  | succ fuel => rw [atIds, atIds, dropWhile_append_of_not h]

omit [Field K] in
theorem substLoop_used (par : ParStore K) (fuel : Nat) : ∀ (used : List Nat) (s : List Char) (used' : List Nat)
    (t : List Char), substLoop par fuel used s = some (.ok (used', t)) → used.Nodup →
    (∀ j ∈ used, j < par.p.length) →
    used'.Nodup ∧ (∀ j ∈ used', j < par.p.length) ∧
    ∀ j, j ∈ used' ↔ j ∈ used ∨ ∃ n ∈ atIds fuel s, par.parfind n = some j := by
  induction fuel with
  | zero => intro used s used' t h; cases h
  | succ fuel ih =>
    intro used s used' t h hnd hlt
    rw [substLoop] at h
    dsimp only at h
    rw [atIds]
    rcases hd : s.dropWhile (· ≠ '@') with - | ⟨x, r⟩
    · simp only [hd, Option.some.injEq, Res.ok.injEq, Prod.mk.injEq] at h
      obtain ⟨rfl, rfl⟩ := h
      exact ⟨hnd, hlt, by simp⟩
    · simp only [hd] at h ⊢
      rcases hr : readInt r with - | ⟨id, r'⟩
      · simp [hr] at h
      · simp only [hr] at h ⊢
        split at h
        · simp at h
        · rcases hp : par.parfind (toUnsigned id) with - | ipar
          · simp [hp] at h
          · simp only [hp] at h
            split at h
            · rename_i hip
              have hpre : '@' ∉ s.takeWhile (· ≠ '@') ++ stackvar ((if ipar ∈ used then used else used ++ [ipar]).idxOf ipar) := by
                rw [List.mem_append]
                rintro (hm | hm)
                · have := takeWhile_imp hm
                  simp at this
                · exact List.count_eq_zero.1 (count_stackvar (by decide) (by decide) _) hm
              obtain ⟨h1, h2, h3⟩ := ih _ _ _ _ h (by
                  split
                  · exact hnd
                  · rename_i hn
                    rw [List.nodup_append]
                    refine ⟨hnd, by simp, ?_⟩
                    rintro a ha b hb rfl
                    simp at hb
                    subst hb
                    exact hn ha) (by
                  intro j hj
                  split at hj
                  · exact hlt j hj
                  · rcases List.mem_append.1 hj with h | h
                    · exact hlt j h
                    · simp at h; subst h; exact hip)
              refine ⟨h1, h2, fun j => ?_⟩
              rw [h3, atIds_append hpre]
              have hm : j ∈ (if ipar ∈ used then used else used ++ [ipar]) ↔ j ∈ used ∨ ipar = j := by
                split
                · rename_i hi
                  exact ⟨Or.inl, fun h => h.elim (fun h => h) fun e => e ▸ hi⟩
                · simp [eq_comm]
              rw [hm]
              constructor
              · rintro ((h | h) | ⟨n, hn, h⟩)
                · exact Or.inl h
                · exact Or.inr ⟨toUnsigned id, by simp, by rw [hp, h]⟩
                · exact Or.inr ⟨n, by simp [hn], h⟩
              · rintro (h | ⟨n, hn, h⟩)
                · exact Or.inl (Or.inl h)
                · rcases List.mem_cons.1 hn with rfl | hn
                  · rw [hp] at h
                    exact Or.inl (Or.inr (Option.some.inj h))
                  · exact Or.inr ⟨n, hn, h⟩
            · simp at h

/-- `used` after a successful evaluation. -/
theorem parse_used {tab : BTab K} {par : ParStore K} {s : List Char} {a : Num K} {used : List Nat}
    (h : parse tab par s = some (.ok (a, used))) :
    used.Nodup ∧ (∀ j ∈ used, j < par.p.length) ∧
      ∀ j, j ∈ used ↔ ∃ n ∈ textIds s, par.parfind n = some j := by
  unfold parse at h
  split at h
  · simp at h
  · split at h
    · simp at h
    · simp at h
    · simp at h
    · rename_i used' line' hs
      split at h
      · simp at h
      · simp at h
      · simp at h
      · simp only [Option.some.injEq, Res.ok.injEq, Prod.mk.injEq] at h
        obtain ⟨-, rfl⟩ := h
        obtain ⟨h1, h2, h3⟩ := substLoop_used par _ _ _ _ _ hs (by simp) (by simp)
        exact ⟨h1, h2, by simpa [textIds] using h3⟩

theorem fparse_ok {tab : BTab K} {par : ParStore K} {s : List Char} {x : K} {ders : List (Nat × K)}
    (h : fparse tab s par = .ok (x, ders)) :
    ∃ d used, parse tab par s = some (.ok ((x, d), used)) ∧
      ders = used.mapIdx fun i j => (j, d.getD i 0) := by
  unfold fparse at h
  split at h
  · rename_i a used hp
    simp only [Except.ok.injEq, Prod.mk.injEq] at h
    obtain ⟨rfl, rfl⟩ := h
    exact ⟨a.2, used, hp, rfl⟩
  · simp at h
  · simp at h

theorem map_fst_mapIdx {α β : Type} (f : Nat → α → β) (l : List α) :
    (l.mapIdx fun i j => (j, f i j)).map Prod.fst = l := by
  induction l generalizing f with
  | nil => rfl
  | cons a l ih => simp only [List.mapIdx_cons, List.map_cons, ih fun i => f (i + 1)]

theorem fparse_parserOK (tab : BTab K) : ParserOK (fparse tab) := by
  intro f par x ders _ h e he
  obtain ⟨d, used, h1, rfl⟩ := fparse_ok h
  have := List.mem_map_of_mem (f := Prod.fst) he
  rw [map_fst_mapIdx] at this
  exact (parse_used h1).2.1 _ this

end Pdffit.Parser
