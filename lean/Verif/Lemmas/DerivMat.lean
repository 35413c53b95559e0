import Verif.Model.DerivMat
import Verif.Lemmas.DerivFin
import Verif.Lemmas.DetSum
import Verif.Props.C47
import Verif.Props.C48

/-! # Helper lemmas about the matrices of derivatives -/

namespace Pdffit.DMat
open Det Deriv Layout

section
variable {α β : Type}

theorem collect_ok (f : α → Res (List β)) (g : α → List β) (l : List α) (h : ∀ a ∈ l, f a = .ok (g a)) :
    collect f l = .ok (l.flatMap g) := by
  induction l with
  | nil => rfl
  | cons a l ih =>
    rw [collect, h a (by simp), Res.bind_ok, ih fun b hb => h b (by simp [hb]), Res.bind_ok, List.flatMap_cons]

/-- The results related to those of another function. -/
theorem collect_rel {γ : Type} (R : β → γ → Prop) (f : α → Res (List β)) (g : α → List γ) (l : List α)
    (h : ∀ a ∈ l, ∃ x, f a = .ok x ∧ List.Forall₂ R x (g a)) :
    ∃ x, collect f l = .ok x ∧ List.Forall₂ R x (l.flatMap g) := by
  induction l with
  | nil => exact ⟨[], rfl, .nil⟩
  | cons a l ih =>
    obtain ⟨x, e, hx⟩ := h a (by simp)
    obtain ⟨y, e', hy⟩ := ih fun b hb => h b (by simp [hb])
    refine ⟨x ++ y, ?_, ?_⟩
    · rw [collect, e, Res.bind_ok, e', Res.bind_ok]
    · rw [List.flatMap_cons]
      exact List.rel_append hx hy

end

/-! ## Entries -/

/-- A matrix of `R` rows and `n` columns with the entries `E`. -/
structure Has (A : Mat ℝ) (R n : ℕ) (E : ℕ → ℕ → ℝ) : Prop where
  rows : A.rows = R
  cols : A.cols = n
  wf : A.WF
  get : ∀ i c, i < R → c < n → A.get i c = .ok (E i c)

theorem Has.holds {A : Mat ℝ} {R n : ℕ} {E : ℕ → ℕ → ℝ} (h : Has A R n E) :
    C48.Holds A (fun (i : Fin R) (c : Fin n) => E i c) :=
  ⟨h.rows, h.cols, h.wf, fun i j => h.get i j i.2 j.2⟩

theorem Has.getZ {A : Mat ℝ} {R n : ℕ} {E : ℕ → ℕ → ℝ} (h : Has A R n E) {i : ℤ} {c : ℕ} (h0 : 0 ≤ i) (hi : i < R) (hc : c < n) :
    DMat.getZ A i c = .ok (E i.toNat c) := by
  unfold DMat.getZ
  rw [if_pos h0, h.get _ _ (by omega) hc]

theorem Has.setZ {A : Mat ℝ} {R n : ℕ} {E : ℕ → ℕ → ℝ} (h : Has A R n E) {i : ℤ} {c : ℕ} (h0 : 0 ≤ i) (hi : i < R) (hc : c < n)
    (x : ℝ) : ∃ B, DMat.setZ A i c x = .ok B ∧ Has B R n (fun r d => if (r : ℤ) = i ∧ d = c then x else E r d) := by
  have hi' : i.toNat < R := by omega
  obtain ⟨B, e, hB⟩ := C48.C48_element_assignment A _ h.holds ⟨i.toNat, hi'⟩ ⟨c, hc⟩ x
  refine ⟨B, ?_, hB.rows, hB.cols, hB.wf, ?_⟩
  · unfold DMat.setZ
    rw [if_pos h0]
    exact e
  · intro r d hr hd
    have := hB.get ⟨r, hr⟩ ⟨d, hd⟩
    dsimp only at this
    rw [this]
    congr 1
    by_cases hc : (r : ℤ) = i ∧ d = c
    · rw [if_pos hc, if_pos ⟨Fin.ext (by dsimp only; omega), Fin.ext hc.2⟩]
    · rw [if_neg hc, if_neg]
      rintro ⟨e1, e2⟩
      apply hc
      have := congrArg Fin.val e1
      have := congrArg Fin.val e2
      dsimp only at *
      omega

theorem Has.congr {A : Mat ℝ} {R n : ℕ} {E E' : ℕ → ℕ → ℝ} (h : Has A R n E) (he : ∀ i c, i < R → c < n → E i c = E' i c) : Has A R n E' :=
  ⟨h.rows, h.cols, h.wf, fun i c hi hc => by rw [h.get i c hi hc, he i c hi hc]⟩

/-- `resize` and assignment of zero. -/
theorem reset_has (old : Mat ℝ) (ho : old.WF) (R n : ℕ) : ∃ A, old.resize R n 0 = .ok A ∧ Has (A.fill 0) R n (fun _ _ => 0) := by
  have hold : C48.Holds old (fun (i : Fin old.rows) (c : Fin old.cols) =>
      old.data[(i : ℕ) * old.cols + c]'(by rw [ho]; exact flat_lt i.2 c.2)) := by
    refine ⟨rfl, rfl, ho, fun i j => ?_⟩
    unfold Mat.get
    rw [Res.at?_of_lt]
  obtain ⟨A, e, hA⟩ := C48.C48_resize old _ hold R n 0
  refine ⟨A, e, hA.rows, hA.cols, ?_, ?_⟩
  · unfold Mat.WF Mat.fill
    rw [List.length_map]
    exact hA.wf
  · intro i c hi hc
    have hl : i * A.cols + c < A.data.length := by
      rw [hA.wf, hA.rows, hA.cols]
      exact flat_lt hi hc
    unfold Mat.get Mat.fill
    dsimp only
    rw [Res.at?_of_lt (by rw [List.length_map]; exact hl), List.getElem_map]

/-! ## Statements -/

/-- The value of an entry after statements. -/
def foldAt (rv : List (Option ℕ)) (i c : ℕ) (ops : List Op) (x : ℝ) : ℝ :=
  ops.foldl (fun x op => if op.row = (i : ℤ) ∧ rv[op.slot]? = some (some c) then op.f x else x) x

theorem exec_has (rv : List (Option ℕ)) (R n : ℕ) (hrv : ∀ c, some c ∈ rv → c < n) (ops : List Op)
    (hops : ∀ op ∈ ops, 0 ≤ op.row ∧ op.row < R ∧ op.slot < rv.length) (A : Mat ℝ) (E : ℕ → ℕ → ℝ) (hA : Has A R n E) :
    ∃ B, execAll rv ops A = .ok B ∧ Has B R n (fun i c => foldAt rv i c ops (E i c)) := by
  induction ops generalizing A E with
  | nil => exact ⟨A, rfl, hA⟩
  | cons op ops ih =>
    obtain ⟨h0, h1, h2⟩ := hops op (by simp)
    have hr : rv[op.slot]? = some rv[op.slot] := List.getElem?_eq_getElem h2
    have key : ∃ B, exec1 rv op A = .ok B ∧
        Has B R n (fun i c => if op.row = (i : ℤ) ∧ rv[op.slot]? = some (some c) then op.f (E i c) else E i c) := by
      unfold exec1
      rw [Res.at?_of_lt h2, Res.bind_ok]
      cases hv : rv[op.slot] with
      | none =>
        refine ⟨A, rfl, hA.congr fun i c _ _ => ?_⟩
        rw [if_neg]
        rw [hr, hv]
        simp
      | some d =>
        have hd : d < n := hrv d (hv ▸ List.getElem_mem h2)
        dsimp only
        rw [hA.getZ h0 h1 hd, Res.bind_ok]
        obtain ⟨B, e, hB⟩ := hA.setZ h0 h1 hd (op.f (E op.row.toNat d))
        refine ⟨B, e, hB.congr fun i c _ _ => ?_⟩
        rw [hr, hv]
        by_cases hc : (i : ℤ) = op.row ∧ c = d
        · obtain ⟨hc1, rfl⟩ := hc
          have : op.row.toNat = i := by omega
          rw [if_pos ⟨hc1, rfl⟩, if_pos ⟨hc1.symm, rfl⟩, this]
        · rw [if_neg hc, if_neg]
          rintro ⟨e1, e2⟩
          simp only [Option.some.injEq] at e2
          exact hc ⟨e1.symm, e2.symm⟩
    obtain ⟨B, e, hB⟩ := key
    obtain ⟨C, e', hC⟩ := ih (fun o ho => hops o (by simp [ho])) B _ hB
    refine ⟨C, ?_, hC⟩
    rw [execAll, e, Res.bind_ok]
    exact e'

/-! ## The statements by variable -/

/-- A statement with the variable in place of the position. -/
abbrev AOp := ℤ × RVar × (ℝ → ℝ)

/-- Same statement. -/
def OpRel (slots : List RVar) (op : Op) (a : AOp) : Prop := op.row = a.1 ∧ slots[op.slot]? = some a.2.1 ∧ op.f = a.2.2

/-- The value of the column of `v` at the grid point `i`. -/
def runAt (i : ℤ) (v : RVar) (l : List AOp) (x : ℝ) : ℝ := l.foldl (fun x a => if a.1 = i ∧ a.2.1 = v then a.2.2 x else x) x

theorem runAt_append (i : ℤ) (v : RVar) (l m : List AOp) (x : ℝ) : runAt i v (l ++ m) x = runAt i v m (runAt i v l x) := by
  unfold runAt
  rw [List.foldl_append]

theorem foldAt_eq {slots : List RVar} (hn : slots.Nodup) {rv : List (Option ℕ)} {k c : ℕ} {v : RVar} (hk : slots[k]? = some v)
    (hc : ∀ j, rv[j]? = some (some c) ↔ j = k) {ops : List Op} {l : List AOp} (h : List.Forall₂ (OpRel slots) ops l) (i : ℕ)
    (x : ℝ) : foldAt rv i c ops x = runAt i v l x := by
  induction h generalizing x with
  | nil => rfl
  | @cons op a ops l h1 h2 ih =>
    obtain ⟨e1, e2, e3⟩ := h1
    have hv : op.slot = k ↔ a.2.1 = v := by
      constructor
      · intro e
        rw [e, hk] at e2
        exact (Option.some.inj e2).symm
      · intro e
        rw [e] at e2
        obtain ⟨a1, a2⟩ := List.getElem?_eq_some_iff.1 e2
        obtain ⟨b1, b2⟩ := List.getElem?_eq_some_iff.1 hk
        exact (List.Nodup.getElem_inj_iff hn).1 (a2.trans b2.symm)
    have step : (if op.row = (i : ℤ) ∧ rv[op.slot]? = some (some c) then op.f x else x) =
        if a.1 = (i : ℤ) ∧ a.2.1 = v then a.2.2 x else x := by
      rw [e1, e3]
      congr 1
      rw [hc, hv]
    show foldAt rv i c ops (if op.row = (i : ℤ) ∧ rv[op.slot]? = some (some c) then op.f x else x) = _
    rw [step]
    exact ih _

theorem foldAt_none {rv : List (Option ℕ)} {c : ℕ} (hc : some c ∉ rv) (ops : List Op) (i : ℕ) (x : ℝ) : foldAt rv i c ops x = x := by
  induction ops generalizing x with
  | nil => rfl
  | cons op ops ih =>
    show foldAt rv i c ops _ = x
    dsimp only
    rw [if_neg]
    · exact ih x
    · rintro ⟨-, h⟩
      exact hc (List.mem_of_getElem? h)

/-- The additions of `pdf_derivative` by variable. -/
noncomputable def pairA (D : Data) (ph : PPhase) (is ip : ℕ) (x : (ℕ × ℕ) × (ℤ × ℤ × ℤ)) : List AOp :=
  match eventOf D ph x with
  | .peak dist sig => (grid (ib D dist sig) (ie D ph dist sig)).flatMap fun ig =>
      ((pk D ph x dist sig ig).adds is ip x.1.1 x.1.2).map fun y => (ig, y.1, (· + y.2))
  | _ => []

noncomputable def rawA (D : Data) (is : ℕ) : List (Option (PPhase × Sel)) → ℕ → List AOp
  | [], _ => []
  | none :: l, ip => rawA D is l (ip + 1)
  | some x :: l, ip => (visited D x.1 x.2).flatMap (pairA D x.1 is ip) ++ rawA D is l (ip + 1)

/-- The statements for one grid point by variable. -/
noncomputable def pointA (D : Data) (is : ℕ) (l : List (Option Calced)) (i : ℤ) : List AOp :=
  (stmts D is i l).map fun y => (i, y.1, y.2)

theorem runAt_adds (i ig : ℤ) (v : RVar) (l : List (RVar × ℝ)) (x : ℝ) :
    runAt i v (l.map fun y => (ig, y.1, (· + y.2))) x = x + if ig = i then valOf v l else 0 := by
  unfold runAt valOf
  induction l generalizing x with
  | nil => simp
  | cons y l ih =>
    rw [List.map_cons, List.foldl_cons, ih]
    dsimp only
    by_cases h1 : ig = i
    · by_cases h2 : y.1 = v
      · simp [h1, h2]; ring
      · simp [h1, h2]
    · simp [h1]

theorem runAt_pair (D : Data) (ph : PPhase) (is ip : ℕ) (x : (ℕ × ℕ) × (ℤ × ℤ × ℤ)) (i : ℤ) (v : RVar) (z : ℝ) :
    runAt i v (pairA D ph is ip x) z = z + sumAt (dincs D ph is ip v x) i := by
  unfold pairA dincs
  cases eventOf D ph x with
  | peak dist sig =>
    dsimp only
    generalize grid _ _ = g
    induction g generalizing z with
    | nil => simp [runAt]
    | cons a g ih =>
      rw [List.flatMap_cons, runAt_append, runAt_adds, ih, List.map_cons, sumAt_cons]
      ring
  | _ => simp [runAt]

theorem runAt_flat {α : Type} (i : ℤ) (v : RVar) (l : List α) (f : α → List AOp) (g : α → List (ℤ × ℝ))
    (h : ∀ a z, runAt i v (f a) z = z + sumAt (g a) i) (z : ℝ) : runAt i v (l.flatMap f) z = z + sumAt (l.flatMap g) i := by
  induction l generalizing z with
  | nil => simp [runAt]
  | cons a l ih =>
    rw [List.flatMap_cons, runAt_append, h, ih, List.flatMap_cons, sumAt_append]
    ring

theorem runAt_raw (D : Data) (is : ℕ) (psel : List (Option (PPhase × Sel))) (k : ℕ) (i : ℤ) (v : RVar) (z : ℝ) :
    runAt i v (rawA D is psel k) z = z + sumAt (rawIncs D is v psel k) i := by
  induction psel generalizing k z with
  | nil => simp [rawA, rawIncs, runAt]
  | cons a l ih =>
    cases a with
    | none => exact ih (k + 1) z
    | some x =>
      rw [rawA, rawIncs, runAt_append, ih, sumAt_append,
        runAt_flat i v _ _ _ fun a z => runAt_pair D x.1 is k a i v z]
      ring

theorem runAt_point (D : Data) (is : ℕ) (l : List (Option Calced)) (i j : ℤ) (v : RVar) (z : ℝ) :
    runAt i v (pointA D is l j) z = if j = i then runOn v (stmts D is i l) z else z := by
  unfold runAt pointA
  split
  · rename_i h
    subst h
    unfold runOn
    rw [List.foldl_map]
    simp
  · rename_i h
    rw [List.foldl_map]
    simp [h]

theorem runAt_points (D : Data) (is : ℕ) (l : List (Option Calced)) (i : ℤ) (v : RVar) (g : List ℤ) (hg : g.Nodup) (z : ℝ) :
    runAt i v (g.flatMap (pointA D is l)) z = if i ∈ g then runOn v (stmts D is i l) z else z := by
  induction g generalizing z with
  | nil => simp [runAt]
  | cons a g ih =>
    rw [List.nodup_cons] at hg
    rw [List.flatMap_cons, runAt_append, ih hg.2, runAt_point]
    by_cases h : a = i
    · subst h; simp [hg.1]
    · simp [h, Ne.symm h]

/-! ## Offsets -/

section
variable {F : Type} (addr : RVar → ℕ) (cons : List (Constr F)) (natoms : List ℕ) (nset : ℕ)

theorem lay_phase (ip n : ℕ) (h : natoms[ip]? = some n) : ∃ o, (layOf addr cons natoms nset).phase ip = .ok o ∧
    ∀ j v, (globals ip)[j]? = some v → (setup natoms nset).slots[o + j]? = some v := by
  obtain ⟨o, h1, h2, -⟩ := C47.phase_offsets natoms nset ip n h
  exact ⟨o, at?_some h1, h2⟩

theorem lay_atom (ip n ia : ℕ) (h : natoms[ip]? = some n) (hi : ia < n) : ∃ o, (layOf addr cons natoms nset).atom ip ia = .ok o ∧
    ∀ j v, (atomVars ip ia)[j]? = some v → (setup natoms nset).slots[o + j]? = some v := by
  obtain ⟨-, -, -, ao, h3, h4⟩ := C47.phase_offsets natoms nset ip n h
  obtain ⟨o, h5, h6⟩ := h4 ia hi
  refine ⟨o, ?_, h6⟩
  unfold Lay.atom layOf
  dsimp only
  rw [at?_some h3, Res.bind_ok, at?_some h5]

theorem lay_set (is : ℕ) (h : is < nset) : ∃ o, (layOf addr cons natoms nset).set is = .ok o ∧
    ∀ j v, (setVars is)[j]? = some v → (setup natoms nset).slots[o + j]? = some v := by
  obtain ⟨o, h1, h2⟩ := C47.set_offsets natoms nset is h
  exact ⟨o, at?_some h1, h2⟩

theorem pairOps_rel (D : Data) (ph : PPhase) (is ip : ℕ) (x : (ℕ × ℕ) × (ℤ × ℤ × ℤ)) (n : ℕ) (hn : natoms[ip]? = some n)
    (his : is < nset) (h1 : x.1.1 < n) (h2 : x.1.2 < n) :
    ∃ ops, pairOps (layOf addr cons natoms nset) D ph is ip x = .ok ops ∧
      List.Forall₂ (OpRel (setup natoms nset).slots) ops (pairA D ph is ip x) := by
  unfold pairOps pairA
  cases eventOf D ph x with
  | peak dist sig =>
    dsimp only
    obtain ⟨oi, e1, g1⟩ := lay_atom addr cons natoms nset ip n x.1.1 hn h1
    obtain ⟨oj, e2, g2⟩ := lay_atom addr cons natoms nset ip n x.1.2 hn h2
    obtain ⟨op, e3, g3⟩ := lay_phase addr cons natoms nset ip n hn
    obtain ⟨os, e4, g4⟩ := lay_set addr cons natoms nset is his
    refine collect_rel _ _ _ _ fun ig _ => ⟨_, by rw [e1, Res.bind_ok, e2, Res.bind_ok, e3, Res.bind_ok, e4, Res.bind_ok], ?_⟩
    have a0 := g1 0 _ rfl
    have b0 := g2 0 _ rfl
    have c0 := g3 0 _ rfl
    rw [Nat.add_zero] at a0 b0 c0
    unfold derivSlots Pk.adds
    simp only [List.map_cons, List.map_nil, List.zip_cons_cons, List.zip_nil_right, List.forall₂_cons, OpRel, true_and, and_true,
      List.Forall₂.nil]
    exact ⟨a0, b0, g1 1 _ rfl, g2 1 _ rfl, g1 2 _ rfl, g2 2 _ rfl, g1 3 _ rfl, g2 3 _ rfl, g1 4 _ rfl, g2 4 _ rfl,
      g1 5 _ rfl, g2 5 _ rfl, g1 6 _ rfl, g2 6 _ rfl, g1 7 _ rfl, g2 7 _ rfl, g1 8 _ rfl, g2 8 _ rfl, g1 9 _ rfl, g2 9 _ rfl,
      c0, g3 1 _ rfl, g3 2 _ rfl, g3 3 _ rfl, g3 4 _ rfl, g3 5 _ rfl, g3 6 _ rfl, g3 7 _ rfl, g3 10 _ rfl, g4 2 _ rfl⟩
  | _ => exact ⟨[], rfl, .nil⟩

/-- The selected phases are those known to `fit_setup`, from number `k` on. -/
def Known (psel : List (Option (PPhase × Sel))) (k : ℕ) : Prop :=
  ∀ ip x, psel[ip]? = some (some x) → natoms[k + ip]? = some x.1.atom.length

theorem Known.tail {natoms : List ℕ} {a : Option (PPhase × Sel)} {l : List (Option (PPhase × Sel))} {k : ℕ} (h : Known natoms (a :: l) k) :
    Known natoms l (k + 1) := by
  intro ip x hx
  have := h (ip + 1) x (by simpa using hx)
  rwa [show k + (ip + 1) = k + 1 + ip by omega] at this

theorem rawOps_rel (D : Data) (is : ℕ) (his : is < nset) (psel : List (Option (PPhase × Sel))) (k : ℕ) (hk : Known natoms psel k) :
    ∃ ops, rawOps (layOf addr cons natoms nset) D is psel k = .ok ops ∧
      List.Forall₂ (OpRel (setup natoms nset).slots) ops (rawA D is psel k) := by
  induction psel generalizing k with
  | nil => exact ⟨[], rfl, .nil⟩
  | cons a l ih =>
    obtain ⟨b, e, hb⟩ := ih (k + 1) hk.tail
    cases a with
    | none => exact ⟨b, e, hb⟩
    | some x =>
      have hn := hk 0 x rfl
      obtain ⟨a, e', ha⟩ := collect_rel (OpRel (setup natoms nset).slots) (pairOps (layOf addr cons natoms nset) D x.1 is k)
        (pairA D x.1 is k) (visited D x.1 x.2) fun y hy => by
          rw [mem_visited, mem_halfPairs] at hy
          have hy := hy.1
          exact pairOps_rel addr cons natoms nset D x.1 is k y _ hn his (by omega) (by omega)
      refine ⟨a ++ b, ?_, List.rel_append ha hb⟩
      rw [rawOps, e', Res.bind_ok, e, Res.bind_ok]

/-- Position of a statement. -/
def SlotRel (slots : List RVar) (o : ℕ) (st : RVar × (ℝ → ℝ)) : Prop := slots[o]? = some st.1

theorem phaseSlots_rel (D : Data) (ph : PPhase) (s : Sel) (ip : ℕ) (r c : ℝ) (hn : natoms[ip]? = some ph.atom.length) :
    ∃ a, phaseSlots (layOf addr cons natoms nset) ip ph.atom.length = .ok a ∧
      List.Forall₂ (SlotRel (setup natoms nset).slots) a (phaseStmts D ph s ip r c) := by
  obtain ⟨a, e1, h1⟩ := collect_rel (SlotRel (setup natoms nset).slots) (fun ia => do
    let o ← (layOf addr cons natoms nset).atom ip ia
    .ok [o, o + 1, o + 2, o + 3, o + 4, o + 5, o + 6, o + 7, o + 8, o + 9]) (atomStmts D ph s ip r c)
    (List.range ph.atom.length) fun ia hia => by
      obtain ⟨o, e, g⟩ := lay_atom addr cons natoms nset ip _ ia hn (List.mem_range.1 hia)
      refine ⟨_, by rw [e, Res.bind_ok], ?_⟩
      have g0 := g 0 _ rfl
      rw [Nat.add_zero] at g0
      simp only [atomStmts, List.forall₂_cons, SlotRel, List.Forall₂.nil, and_true]
      exact ⟨g0, g 1 _ rfl, g 2 _ rfl, g 3 _ rfl, g 4 _ rfl, g 5 _ rfl, g 6 _ rfl, g 7 _ rfl, g 8 _ rfl, g 9 _ rfl⟩
  obtain ⟨o, e, g⟩ := lay_phase addr cons natoms nset ip _ hn
  refine ⟨a ++ [o, o + 1, o + 2, o + 3, o + 4, o + 5, o + 6, o + 7, o + 8, o + 9, o + 10], ?_, ?_⟩
  · unfold phaseSlots
    rw [e1, Res.bind_ok, e, Res.bind_ok]
  · unfold phaseStmts
    refine List.rel_append h1 ?_
    have g0 := g 0 _ rfl
    rw [Nat.add_zero] at g0
    simp only [List.forall₂_cons, SlotRel, List.Forall₂.nil, and_true]
    exact ⟨g0, g 1 _ rfl, g 2 _ rfl, g 3 _ rfl, g 4 _ rfl, g 5 _ rfl, g 6 _ rfl, g 7 _ rfl, g 8 _ rfl, g 9 _ rfl, g 10 _ rfl⟩

/-- The same for phases with their curves. -/
def KnownC (l : List (Option Calced)) (k : ℕ) : Prop :=
  ∀ ip x, l[ip]? = some (some x) → natoms[k + ip]? = some x.1.atom.length

theorem calcs_known {natoms : List ℕ} {D : Data} {psel : List (Option (PPhase × Sel))} {l : List (Option Calced)} {k : ℕ}
    (hk : Known natoms psel k) (h : calcs D psel = .ok l) : KnownC natoms l k := by
  induction psel generalizing k l with
  | nil =>
    rw [calcs] at h
    cases h
    intro ip x hx
    simp at hx
  | cons a m ih =>
    have tail : ∀ r, calcs D m = .ok r → ∀ ip x, r[ip]? = some (some x) → natoms[k + (ip + 1)]? = some x.1.atom.length := by
      intro r hr ip x hx
      have := ih hk.tail hr ip x hx
      rwa [show k + (ip + 1) = k + 1 + ip by omega]
    cases a with
    | none =>
      rw [calcs, Res.bind_eq_ok] at h
      obtain ⟨r, hr, h⟩ := h
      cases h
      intro ip x hx
      cases ip with
      | zero => simp at hx
      | succ ip => exact tail r hr ip x (by simpa using hx)
    | some y =>
      rw [calcs, Res.bind_eq_ok] at h
      obtain ⟨p, -, h⟩ := h
      rw [Res.bind_eq_ok] at h
      obtain ⟨r, hr, h⟩ := h
      cases h
      intro ip x hx
      cases ip with
      | zero =>
        simp only [List.getElem?_cons_zero, Option.some.injEq] at hx
        subst hx
        exact hk 0 y rfl
      | succ ip => exact tail r hr ip x (by simpa using hx)

theorem phasesSlots_rel (D : Data) (i : ℤ) (l : List (Option Calced)) (k : ℕ) (hk : KnownC natoms l k) :
    ∃ a, phasesSlots (layOf addr cons natoms nset) l k = .ok a ∧
      List.Forall₂ (SlotRel (setup natoms nset).slots) a (phasesStmts D i l k) := by
  induction l generalizing k with
  | nil => exact ⟨[], rfl, .nil⟩
  | cons a l ih =>
    obtain ⟨b, e, hb⟩ := ih (k + 1) (fun ip x hx => by
      have := hk (ip + 1) x (by simpa using hx)
      rwa [show k + (ip + 1) = k + 1 + ip by omega] at this)
    cases a with
    | none => exact ⟨b, e, hb⟩
    | some x =>
      obtain ⟨a, e', ha⟩ := phaseSlots_rel addr cons natoms nset D x.1 x.2.1 k (D.r i) (x.2.2 i) (hk 0 x rfl)
      refine ⟨a ++ b, ?_, List.rel_append ha hb⟩
      rw [phasesSlots, e', Res.bind_ok, e, Res.bind_ok]

theorem zip_rel {slots : List RVar} {i : ℤ} {a : List ℕ} {st : List (RVar × (ℝ → ℝ))} (h : List.Forall₂ (SlotRel slots) a st) :
    List.Forall₂ (OpRel slots) ((a.zip (st.map Prod.snd)).map fun y => ⟨i, y.1, y.2⟩) (st.map fun y => (i, y.1, y.2)) := by
  induction h with
  | nil => exact .nil
  | cons h1 _ ih =>
    simp only [List.map_cons, List.zip_cons_cons, List.forall₂_cons]
    exact ⟨⟨rfl, h1, rfl⟩, ih⟩

theorem pointOps_rel (D : Data) (is : ℕ) (his : is < nset) (l : List (Option Calced)) (hk : KnownC natoms l 0) (i : ℤ) :
    ∃ ops, pointOps (layOf addr cons natoms nset) D is l i = .ok ops ∧
      List.Forall₂ (OpRel (setup natoms nset).slots) ops (pointA D is l i) := by
  obtain ⟨a, e, ha⟩ := phasesSlots_rel addr cons natoms nset D i l 0 hk
  obtain ⟨o, e', g⟩ := lay_set addr cons natoms nset is his
  refine ⟨_, by unfold pointOps; rw [e, Res.bind_ok, e', Res.bind_ok], ?_⟩
  unfold pointA
  refine zip_rel ?_
  unfold stmts
  refine List.rel_append ha ?_
  have g0 := g 0 _ rfl
  rw [Nat.add_zero] at g0
  simp only [List.forall₂_cons, SlotRel, List.Forall₂.nil, and_true]
  exact ⟨g0, g 1 _ rfl, g 2 _ rfl⟩

/-! ## Range of the statements -/

theorem rawA_range {D : Data} (h : D.Ok) (is : ℕ) (psel : List (Option (PPhase × Sel))) (k : ℕ) :
    ∀ a ∈ rawA D is psel k, D.ncmin ≤ a.1 ∧ a.1 ≤ D.ncmax := by
  induction psel generalizing k with
  | nil => intro a ha; simp [rawA] at ha
  | cons y l ih =>
    cases y with
    | none => exact ih (k + 1)
    | some x =>
      intro a ha
      rw [rawA, List.mem_append, List.mem_flatMap] at ha
      rcases ha with ⟨z, -, ha⟩ | ha
      · unfold pairA at ha
        split at ha
        · rw [List.mem_flatMap] at ha
          obtain ⟨ig, hig, ha⟩ := ha
          rw [List.mem_map] at ha
          obtain ⟨y, -, rfl⟩ := ha
          rw [mem_grid] at hig
          exact ⟨(ib_ge h _ _).trans hig.1, hig.2.trans (ie_le h _ _ _)⟩
        · simp at ha
      · exact ih (k + 1) a ha

theorem rel_range {slots : List RVar} {ops : List Op} {l : List AOp} (h : List.Forall₂ (OpRel slots) ops l) {lo hi : ℤ}
    (hl : ∀ a ∈ l, lo ≤ a.1 ∧ a.1 ≤ hi) : ∀ op ∈ ops, lo ≤ op.row ∧ op.row ≤ hi ∧ op.slot < slots.length := by
  induction h with
  | nil => simp
  | @cons op' b ops l h1 _ ih =>
    intro op ho
    rcases List.mem_cons.1 ho with rfl | ho
    · obtain ⟨e1, e2, -⟩ := h1
      have := hl b (by simp)
      exact ⟨e1 ▸ this.1, e1 ▸ this.2, (List.getElem?_eq_some_iff.1 e2).1⟩
    · exact ih (fun a ha => hl a (by simp [ha])) op ho

end

/-! ## The termination filter -/

theorem filterCol_has {D : Data} (h : D.Ok) (hq : 0 < D.qmax) {A : Mat ℝ} {R n : ℕ} {E : ℕ → ℕ → ℝ} (hR : (R : ℤ) = D.ncmax + 1)
    (hA : Has A R n E) (c : ℕ) (hc : c < n) :
    ∃ B, filterCol D c A = .ok B ∧ ∃ E', Has B R n E' ∧ (∀ i d, d ≠ c → E' i d = E i d) ∧
      ∀ i : ℕ, D.ncmin ≤ i → (i : ℤ) ≤ D.ncmax → E' i c = filt D (fun j => E j.toNat c) i := by
  have h0 := ncmin_nonneg h
  have hle := ncmin_le_ncmax h
  have hlen : (nclen D : ℤ) = D.ncmax - D.ncmin + 1 := by unfold nclen; omega
  have hread : collect (fun n : ℕ => getZ A (D.ncmin + n) c >>= fun x => .ok [x]) (List.range (nclen D)) =
      .ok ((List.range (nclen D)).flatMap fun n : ℕ => [E (D.ncmin + n).toNat c]) := by
    refine collect_ok _ _ _ fun n hn => ?_
    rw [List.mem_range] at hn
    rw [hA.getZ (by omega) (by omega) hc, Res.bind_ok]
  have hflat : ((List.range (nclen D)).flatMap fun n : ℕ => [E (D.ncmin + n).toNat c]) =
      (List.range (nclen D)).map fun n : ℕ => E (D.ncmin + n).toNat c := by
    generalize List.range (nclen D) = l
    induction l with
    | nil => rfl
    | cons a l ih => rw [List.flatMap_cons, ih]; rfl
  have hpad : ∀ y : ℕ → ℝ, (∀ m, m < nclen D → y m = E (D.ncmin + m).toNat c) →
      ∃ z, Qmax.applyQmaxCutoff D.deltar D.qmax (nclen D) y = some z ∧
        ∀ i : ℤ, D.ncmin ≤ i → i ≤ D.ncmax → z (i - D.ncmin).toNat = filt D (fun j => E j.toNat c) i := by
    intro y hy
    obtain ⟨z, hz, -⟩ := C42.total h.step hq (nclen_pos h) y
    refine ⟨z, hz, fun i hi hi' => ?_⟩
    have := filt_congr h (c := fun j => y (j - D.ncmin).toNat) (d := fun j => E j.toNat c) (fun j hj hj' => by
      rw [hy _ (by omega)]
      congr 2
      omega) i hi hi'
    rw [← this]
    unfold filt
    rw [if_pos hq]
    have he : (fun n : ℕ => (fun j => y (j - D.ncmin).toNat) (D.ncmin + (n : ℤ))) = y := by
      funext n
      dsimp only
      congr 1
      omega
    rw [he, hz]
    rfl
  obtain ⟨z, hz, hzv⟩ := hpad (fun n => ((List.range (nclen D)).map fun n : ℕ => E (D.ncmin + n).toNat c).getD n 0) (by
    intro m hm
    rw [getD_lt _ (by rw [List.length_map, List.length_range]; exact hm), List.getElem_map, List.getElem_range])
  unfold filterCol
  rw [hread, Res.bind_ok, hflat]
  rw [hz]
  dsimp only
  obtain ⟨B, e, E', hB, k1, k2, -⟩ := Res.forN_inv (fun m (B : Mat ℝ) => ∃ E', Has B R n E' ∧ (∀ i d, d ≠ c → E' i d = E i d) ∧
      (∀ i : ℕ, D.ncmin ≤ i → (i : ℤ) < D.ncmin + m → E' i c = z (i - D.ncmin).toNat) ∧ True) (nclen D)
    (fun n A => setZ A (D.ncmin + n) c (z n)) A ⟨E, hA, fun _ _ _ => rfl, fun i hi hi' => by omega, trivial⟩ (by
      rintro m B hm ⟨E', hB, k1, k2, -⟩
      obtain ⟨C, e, hC⟩ := hB.setZ (i := D.ncmin + m) (by omega) (by omega) hc (z m)
      refine ⟨C, e, _, hC, ?_, ?_, trivial⟩
      · intro i d hd
        rw [if_neg (by tauto), k1 i d hd]
      · intro i hi hi'
        by_cases he : (i : ℤ) = D.ncmin + m
        · rw [if_pos ⟨he, rfl⟩]
          congr 1
          omega
        · rw [if_neg (by tauto)]
          exact k2 i hi (by push_cast at hi'; omega))
  refine ⟨B, e, E', hB, k1, fun i hi hi' => ?_⟩
  rw [k2 i hi (by omega), hzv i hi hi']

theorem filterCols_has {D : Data} (h : D.Ok) (vref : List Bool) {A : Mat ℝ} {R : ℕ} {E : ℕ → ℕ → ℝ} (hR : (R : ℤ) = D.ncmax + 1)
    (hA : Has A R vref.length E) :
    ∃ B, filterCols D vref A = .ok B ∧ ∃ E', Has B R vref.length E' ∧
      ∀ (c i : ℕ), c < vref.length → D.ncmin ≤ i → (i : ℤ) ≤ D.ncmax →
        E' i c = if vref.getD c false then filt D (fun j => E j.toNat c) i else E i c := by
  have h0 := ncmin_nonneg h
  unfold filterCols
  by_cases hq : 0 < D.qmax
  · rw [if_pos hq]
    obtain ⟨B, e, E', hB, k1, k2⟩ := Res.forN_inv (fun m (B : Mat ℝ) => ∃ E', Has B R vref.length E' ∧
        (∀ c i : ℕ, m ≤ c → E' i c = E i c) ∧ ∀ (c i : ℕ), c < m → c < vref.length → D.ncmin ≤ i → (i : ℤ) ≤ D.ncmax →
          E' i c = if vref.getD c false then filt D (fun j => E j.toNat c) i else E i c) vref.length
      (fun c A => do
        let b ← Res.at? vref c
        if b then filterCol D c A else .ok A) A ⟨E, hA, fun _ _ _ => rfl, fun c i hc => by omega⟩ (by
        rintro m B hm ⟨E', hB, k1, k2⟩
        rw [Res.at?_of_lt hm, Res.bind_ok]
        have hg : vref.getD m false = vref[m] := by simp [List.getD, hm]
        by_cases hb : vref[m] = true
        · rw [if_pos hb]
          obtain ⟨C, e, E'', hC, l1, l2⟩ := filterCol_has h hq hR hB m hm
          refine ⟨C, e, E'', hC, fun c i hc => ?_, fun c i hc hc' hi hi' => ?_⟩
          · rw [l1 i c (by omega), k1 c i (by omega)]
          · by_cases he : c = m
            · subst he
              rw [l2 i hi hi', hg, if_pos hb]
              congr 1
              funext j
              exact k1 c _ le_rfl
            · rw [l1 i c he, k2 c i (by omega) hc' hi hi']
        · rw [if_neg hb]
          refine ⟨B, rfl, E', hB, fun c i hc => k1 c i (by omega), fun c i hc hc' hi hi' => ?_⟩
          by_cases he : c = m
          · subst he
            rw [k1 c i le_rfl, hg, if_neg hb]
          · exact k2 c i (by omega) hc' hi hi')
    exact ⟨B, e, E', hB, fun c i hc hi hi' => k2 c i hc hc hi hi'⟩
  · rw [if_neg hq]
    refine ⟨A, rfl, E, hA, fun c i hc hi hi' => ?_⟩
    unfold filt
    rw [if_neg hq]
    simp

end Pdffit.DMat
