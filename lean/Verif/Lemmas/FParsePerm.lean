import Verif.Lemmas.FParse

/-! A formula does not see the order of the parameters. -/

namespace Pdffit.Parser
variable {K : Type} [Field K]

/-- Second store with the same parameters at other positions. -/
structure Moved (ρ : Equiv.Perm ℕ) (par par' : ParStore K) : Prop where
  find : ∀ n, par'.parfind n = (par.parfind n).map ρ
  len : ∀ j, ρ j < par'.p.length ↔ j < par.p.length
  ip : ∀ j, j < par.p.length → par'.ip.getD (ρ j) false = par.ip.getD j false
  val : ∀ j, j < par.p.length → par'.p.getD (ρ j) 0 = par.p.getD j 0

variable {ρ : Equiv.Perm ℕ} {par par' : ParStore K}

theorem idxOf_map_perm (ρ : Equiv.Perm ℕ) (l : List ℕ) (a : ℕ) : (l.map ρ).idxOf (ρ a) = l.idxOf a := by
  induction l with
  | nil => rfl
  | cons b l ih => simp only [List.map_cons, List.idxOf_cons, ih, beq_eq_beq.2 (ρ.injective.eq_iff (a := b) (b := a))]

/-- The used positions of a result, moved. -/
def mvUsed (ρ : Equiv.Perm ℕ) {α : Type} : Option (Res (List ℕ × α)) → Option (Res (List ℕ × α))
  | some (.ok (u, t)) => some (.ok (u.map ρ, t))
  | x => x

theorem substLoop_moved (h : Moved ρ par par') (fuel : ℕ) : ∀ (used : List ℕ) (s : List Char),
    substLoop par' fuel (used.map ρ) s = mvUsed ρ (substLoop par fuel used s) := by
  induction fuel with
  | zero => intro used s; rfl
  | succ fuel ih =>
    intro used s
    rw [substLoop, substLoop]
    dsimp only
    rcases s.dropWhile (· ≠ '@') with - | ⟨x, r⟩
    · rfl
    · dsimp only
      rcases readInt r with - | ⟨id, r'⟩
      · rfl
      · dsimp only
        split
        · rfl
        · rw [h.find]
          rcases par.parfind (toUnsigned id) with - | j
          · rfl
          · dsimp only [Option.map]
            by_cases hj : j < par.p.length
            · rw [if_pos hj, if_pos ((h.len j).2 hj)]
              have hu : (if ρ j ∈ used.map ρ then used.map ρ else used.map ρ ++ [ρ j]) =
                  (if j ∈ used then used else used ++ [j]).map ρ := by
                by_cases hm : j ∈ used
                · rw [if_pos hm, if_pos (List.mem_map_of_mem hm)]
                · rw [if_neg hm, if_neg]
                  · simp
                  · intro hx
                    obtain ⟨k, hk, he⟩ := List.mem_map.1 hx
                    exact hm (ρ.injective he ▸ hk)
              rw [hu, idxOf_map_perm, ih]
            · rw [if_neg hj, if_neg (fun hx => hj ((h.len j).1 hx))]
              rfl

theorem any_moved (h : Moved ρ par par') {used : List ℕ} (hu : ∀ j ∈ used, j < par.p.length) :
    ((used.map ρ).any fun j => par'.ip.getD j false) = used.any fun j => par.ip.getD j false := by
  rw [List.any_map]
  induction used with
  | nil => rfl
  | cons a l ih =>
    rw [List.any_cons, List.any_cons, ih (fun j hj => hu j (List.mem_cons_of_mem _ hj)), Function.comp, h.ip a (hu a (by simp))]

theorem initStack_moved (h : Moved ρ par par') {used : List ℕ} (hu : ∀ j ∈ used, j < par.p.length) :
    initStack par' (used.map ρ) = initStack par used := by
  unfold initStack
  dsimp only
  rw [any_moved h hu, List.length_map]
  apply List.ext_getElem
  · simp
  · intro i h1 h2
    simp only [List.length_mapIdx] at h2
    simp only [List.getElem_mapIdx, List.getElem_map]
    rw [h.val _ (hu _ (List.getElem_mem h2)), h.ip _ (hu _ (List.getElem_mem h2))]

theorem parse_moved (h : Moved ρ par par') (tab : BTab K) (s : List Char) :
    parse tab par' s = match parse tab par s with
      | some (.ok (a, used)) => some (.ok (a, used.map ρ))
      | x => x := by
  unfold parse
  split
  · rfl
  · have h1 := substLoop_moved h (s.count '@' + 1) [] s
    rw [List.map_nil] at h1
    rw [h1]
    have h2 := substLoop_used par (s.count '@' + 1) [] s
    rcases hs : substLoop par (s.count '@' + 1) [] s with - | (⟨u, t⟩ | e | -)
    · rfl
    · have hu := (h2 u t hs List.nodup_nil (by simp)).2.1
      simp only [mvUsed]
      have he : envOf tab par' (u.map ρ) = envOf tab par u := by
        unfold envOf
        rw [any_moved h hu, List.length_map]
      rw [he, initStack_moved h hu]
      rcases brackets (envOf tab par u) (2 * t.length + 2) (initStack par u) t with - | (a | e | -) <;> rfl
    · rfl
    · rfl

/-- The value of a formula is the same; the derivatives belong to the moved positions. -/
theorem fparse_moved (h : Moved ρ par par') (tab : BTab K) (f : List Char) :
    fparse tab f par' = (fparse tab f par).map fun r => (r.1, r.2.map fun e => (ρ e.1, e.2)) := by
  unfold fparse
  rw [parse_moved h]
  rcases parse tab par f with - | (⟨a, u⟩ | e | -)
  · rfl
  · simp only [Except.map]
    congr 2
    apply List.ext_getElem
    · simp
    · intro i h1 h2
      simp
  · rfl
  · rfl

end Pdffit.Parser
