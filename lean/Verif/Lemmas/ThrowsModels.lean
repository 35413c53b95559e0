import Verif.Model.Scat
import Verif.Model.Stru
import Verif.Model.DataRead
import Verif.Model.FParse
import Verif.Model.Refine
import Verif.Model.Bonds
import Verif.Model.Api
import Verif.Model.Determine
import Verif.Props.C11

/-!
# Errors that the modelled functions raise
-/

namespace Pdffit

/-- Every error of `r` is in the list. -/
def Res.Only {α : Type*} (r : Res α) (l : List Exc) : Prop := ∀ e, r = .err e → e ∈ l

namespace Res

theorem only_ok {α : Type*} (a : α) (l : List Exc) : (Res.ok a).Only l := by intro e h; cases h
theorem only_ub {α : Type*} (l : List Exc) : (Res.ub : Res α).Only l := by intro e h; cases h
theorem only_err {α : Type*} {x : Exc} {l : List Exc} (h : x ∈ l) : (Res.err x : Res α).Only l := by
  intro e he; cases he; exact h

theorem only_bind {α β : Type} {r : Res α} {f : α → Res β} {l : List Exc} (h : r.Only l) (g : ∀ a, (f a).Only l) :
    (r >>= f).Only l := by
  cases r with
  | ok a => exact g a
  | err e => intro e' he; exact h e' (by simpa using he)
  | ub => intro e' he; cases he

theorem only_at {α : Type*} (s : List α) (i : Nat) (l : List Exc) : (Res.at? s i).Only l := by
  unfold Res.at?
  split
  · exact only_ok _ _
  · exact only_ub _

theorem Only.mono {α : Type*} {r : Res α} {l m : List Exc} (h : r.Only l) (hlm : ∀ e ∈ l, e ∈ m) : r.Only m :=
  fun e he => hlm e (h e he)

end Res
open Res

/-! ## Scattering factors -/

namespace Scat

theorem toValue_only {α : Type} {r : Res α} (h : r.Only [.runtime]) : (toValue r).Only [.value] := by
  intro e he
  cases r with
  | ok a => simp [toValue] at he
  | ub => simp [toValue] at he
  | err x =>
    have := h x rfl
    simp only [List.mem_singleton] at this
    subst this
    simp only [toValue, Res.err.injEq] at he
    simp [he]

theorem lookup_only (p : PT) (s : Bytes) : (p.lookup s).Only [.runtime] := by
  unfold PT.lookup
  split
  · exact only_ok _ _
  · split
    · exact only_ok _ _
    · exact only_err (by simp)

theorem symbol_only (p : PT) (s : Bytes) : (p.symbol s).Only [.runtime] := by
  unfold PT.symbol
  split
  · exact only_ok _ _
  · exact only_err (by simp)

theorem local_symbol_only (p : PT) (l : Local) (s : Bytes) : (local_symbol p l s).Only [.value] := by
  unfold local_symbol
  split
  · exact only_ok _ _
  · exact only_bind (toValue_only (symbol_only p s)) fun _ => only_ok _ _

theorem llookup_only (p : PT) (l : Local) (s : Bytes) : (llookup p l s).Only [.value] :=
  only_bind (toValue_only (lookup_only p s)) fun _ => local_symbol_only _ _ _

theorem lset_only (p : PT) (l : Local) (s : Bytes) (f : AtomType → AtomType) : (lset p l s f).Only [.value] :=
  only_bind (local_symbol_only _ _ _) fun _ => only_ok _ _

theorem lreset_only (p : PT) (l : Local) (s : Bytes) : (lreset p l s).Only [.value] :=
  only_bind (toValue_only (symbol_only p s)) fun _ => only_ok _ _

theorem sf_only (e : AtomType) (tp : Char) : (e.sf tp).Only [.runtime] := by
  unfold AtomType.sf
  split_ifs
  · exact only_ok _ _
  · exact only_ok _ _
  · exact only_err (by simp)

theorem set_scat_only (p : PT) (l : Local) (tp : Char) (pat : Bytes) (v : Rat) :
    (set_scat p l tp pat v).Only [.value, .runtime] := by
  refine only_bind ((llookup_only p l pat).mono (by simp)) fun x => ?_
  split_ifs
  · exact (lset_only _ _ _ _).mono (by simp)
  · exact (lset_only _ _ _ _).mono (by simp)
  · exact only_err (by simp)

theorem reset_scat_only (p : PT) (l : Local) (pat : Bytes) : (reset_scat p l pat).Only [.value] :=
  only_bind (llookup_only p l pat) fun _ => lreset_only _ _ _

theorem get_scat_only (p : PT) (l : Local) (tp : Char) (pat : Bytes) : (get_scat p l tp pat).Only [.value] :=
  only_bind (llookup_only p l pat) fun _ => only_bind (toValue_only (sf_only _ _)) fun _ => only_ok _ _

theorem readAtoms_only (p : PT) : ∀ (as : List Bytes) (c l : Local), (readAtoms p c l as).2.Only [.value] := by
  intro as
  induction as with
  | nil => intro c l; exact only_ok _ _
  | cons a as ih =>
    intro c l
    have h1 := llookup_only p c a
    simp only [readAtoms]
    rcases hx : llookup p c a with x | e | _
    · have h2 := local_symbol_only p l x.1.symbol
      simp only
      rcases hy : local_symbol p l x.1.symbol with y | e | _
      · exact ih _ _
      · rw [hy] at h2; intro e' he; exact h2 e' (by simpa using he)
      · exact only_ub _
    · rw [hx] at h1; intro e' he; exact h1 e' (by simpa using he)
    · exact only_ub _

end Scat

/-! ## Structure files -/

namespace Stru
variable {α σ : Type} (E : Env α σ)

theorem orErr_only {β : Type} (o : Option β) : (orErr o).Only [.structure] := by
  cases o
  · exact only_err (by simp)
  · exact only_ok _ _

theorem readShape_only (h : Hdr α) (r : List Char) : (readShape E h r).Only [.structure] := by
  simp only [readShape]
  split_ifs
  · exact orErr_only _
  · exact orErr_only _
  · exact only_err (by simp)

theorem exec_only (h : Hdr α) (c r : List Char) : (exec E h c r).Only [.structure] := by
  unfold exec
  refine dite_only _ (only_ok _ _) (dite_only _ (only_ok _ _) (dite_only _ (orErr_only _) (dite_only _ (orErr_only _)
    (dite_only _ (only_ok _ _) (dite_only _ (readShape_only _ _ _) (dite_only _ (only_ok _ _) (dite_only _ (orErr_only _)
    (dite_only _ (orErr_only _) (dite_only _ (orErr_only _) (only_ok _ _))))))))))
where
  dite_only {β : Type} {p : Prop} [Decidable p] (l : List Exc) {a b : Res β} (ha : a.Only l) (hb : b.Only l) :
      (if p then a else b).Only l := by
    split
    · exact ha
    · exact hb

theorem header_only (h : Hdr α) (b : List Char) (st : DataRead.IS) (line : List Char) : (Stru.header E h b st line).Only [.structure] := by
  induction h, b, st, line using Stru.header.induct with
  | case1 h b st line hf => rw [Stru.header, dif_pos hf]; exact only_ok _ _
  | case2 h b st line hf x hx => rw [Stru.header, dif_neg hf]; simp only; rw [if_pos hx]; exact only_ok _ _
  | case3 h b st line hf x hx ih =>
    rw [Stru.header, dif_neg hf]
    simp only
    rw [if_neg hx]
    exact only_bind (exec_only _ _ _ _) fun h' => ih h'

theorem readAtoms_only (discus : Bool) (s : List Char) : (readAtoms E discus s).Only [.value] := by
  induction s using readAtoms.induct (E := E) (discus := discus) with
  | case1 s hw => rw [readAtoms, dif_pos hw]; exact only_ok _ _
  | case2 s hw hn => rw [dite_eq_ite] at hn; rw [readAtoms, dif_neg hw]; split <;> [exact only_ok _ _; (rename_i x h; rw [hn] at h; cases h)]
  | case3 s hw x hn hl =>
    rw [readAtoms, dif_neg hw]
    split
    · exact only_ok _ _
    · split
      · exact only_err (by simp)
      · rename_i e he; rw [hl] at he; cases he
  | case4 s hw x hn e hl ih =>
    rw [readAtoms, dif_neg hw]
    split
    · exact only_ok _ _
    · rename_i y hy
      rw [dite_eq_ite] at hn
      rw [hn] at hy
      cases hy
      split
      · exact only_err (by simp)
      · exact only_bind ih fun _ => only_ok _ _

theorem read_only (lat : Hdr α → Res Unit) (hl : ∀ h, (lat h).Only [.structure]) (text : List Char) :
    (Stru.read E lat text).Only [.structure, .value] := by
  unfold Stru.read
  refine only_bind ((header_only E _ _ _ _).mono (m := [.structure, .value]) (by simp)) fun x => ?_
  refine only_bind ((readAtoms_only E _ _).mono (by simp)) fun l => ?_
  refine only_bind ((hl _).mono (by simp)) fun _ => ?_
  split_ifs
  · exact only_err (by simp)
  · exact only_ok _ _

end Stru

theorem Geom.lattice_only (c : Geom.Cell) : (Geom.lattice c).Only [.structure] := by
  unfold Geom.lattice
  split_ifs
  · exact only_err (by simp)
  · exact only_ok _ _

/-! ## Data -/

namespace DataRead

theorem readRows_only {K : Type} [Field K] [LinearOrder K] (n : ℕ) (t : List (List K)) : (readRows n t).Only [.data] := by
  unfold readRows
  simp only
  split_ifs
  · exact only_err (by simp)
  · exact only_ok _ _
  · exact only_err (by simp)

theorem readArrays_only (r G : List ℝ) (dG : Option (List ℝ)) : (readArrays r G dG).Only [.value, .data] := by
  unfold readArrays
  split
  · exact only_err (by simp)
  · split
    · split
      · exact only_ok _ _
      · exact only_err (by simp)
    · exact only_ub _

end DataRead

/-! ## Formulas and constraints -/

namespace Parser
variable {K : Type} [Field K]

/-- Errors of an evaluation that may not have ended. -/
def OOnly {α : Type} (r : Option (Res α)) (l : List Exc) : Prop := ∀ e, r = some (.err e) → e ∈ l

omit [Field K] in
theorem stackAt_only (st : List (Num K)) (id : ℤ) (l : List Exc) : (stackAt st id).Only l := by
  unfold stackAt
  split_ifs
  · exact only_at _ _ _
  · exact only_ub _

theorem getfac_only (E : Env K) (st : List (Num K)) (s : List Char) : (getfac E st s).Only [.parse] := by
  unfold getfac
  split
  · exact only_err (by simp)
  · split
    · split
      · exact only_err (by simp)
      · split
        · exact only_err (by simp)
        · split
          · exact only_err (by simp)
          · exact only_bind (stackAt_only _ _ _) fun _ => only_ok _ _
    · split
      · split
        · exact only_err (by simp)
        · exact only_bind (stackAt_only _ _ _) fun _ => only_ok _ _
      · split
        · exact only_err (by simp)
        · exact only_ok _ _

theorem getnum_only (E : Env K) (st : List (Num K)) (s : List Char) : (getnum E st s).Only [.parse] := by
  induction s with
  | nil => exact only_err (by simp)
  | cons c s ih =>
    simp only [getnum]
    split_ifs
    · exact ih
    · exact only_bind ih fun _ => only_ok _ _
    · exact ih
    · exact getfac_only _ _ _

theorem pass1_only (E : Env K) : ∀ (n : ℕ) (st : List (Num K)) (pre s : List Char), OOnly (pass1 E n st pre s) [.parse] := by
  intro n
  induction n with
  | zero => intro st pre s e h; simp [pass1] at h
  | succ n ih =>
    intro st pre s e h
    simp only [pass1] at h
    have h1 := getnum_only E st s
    rcases hx : getnum E st s with ⟨a, r⟩ | x | _ <;> rw [hx] at h h1 <;> simp only at h
    · split at h
      · simp at h
      · split at h
        · simp only [Option.some.injEq, Res.err.injEq] at h; simp [← h]
        · split at h
          · exact ih _ _ _ e h
          · rename_i op r2 _ _ _
            have h2 := getnum_only E st r2
            rcases hy : getnum E st r2 with ⟨b, r3⟩ | y | _ <;> rw [hy] at h h2 <;> simp only at h
            · exact ih _ _ _ e h
            · simp only [Option.some.injEq, Res.err.injEq] at h; rw [← h]; exact h2 y rfl
            · simp at h
    · simp only [Option.some.injEq, Res.err.injEq] at h; rw [← h]; exact h1 x rfl
    · simp at h

theorem pass2_only (E : Env K) : ∀ (n : ℕ) (st : List (Num K)) (s : List Char), OOnly (pass2 E n st s) [.parse] := by
  intro n
  induction n with
  | zero => intro st s e h; simp [pass2] at h
  | succ n ih =>
    intro st s e h
    simp only [pass2] at h
    have h1 := getnum_only E st s
    rcases hx : getnum E st s with ⟨a, r⟩ | x | _ <;> rw [hx] at h h1 <;> simp only at h
    · split at h
      · simp at h
      · split at h
        · simp only [Option.some.injEq, Res.err.injEq] at h; simp [← h]
        · rename_i op r2 _ _
          have h2 := getnum_only E st r2
          rcases hy : getnum E st r2 with ⟨b, r3⟩ | y | _ <;> rw [hy] at h h2 <;> simp only at h
          · exact ih _ _ e h
          · simp only [Option.some.injEq, Res.err.injEq] at h; rw [← h]; exact h2 y rfl
          · simp at h
    · simp only [Option.some.injEq, Res.err.injEq] at h; rw [← h]; exact h1 x rfl
    · simp at h

theorem compute_only (E : Env K) (st : List (Num K)) (s : List Char) : OOnly (compute E st s) [.parse] := by
  intro e h
  simp only [compute] at h
  have h1 := pass1_only E (nops s + 1) st [] s
  rcases hx : pass1 E (nops s + 1) st [] s with _ | ⟨⟨st1, s1⟩⟩ | x | _ <;> rw [hx] at h h1 <;> simp only at h
  · simp at h
  · exact pass2_only _ _ _ _ e h
  · simp only [Option.some.injEq, Res.err.injEq] at h; rw [← h]; exact h1 x rfl
  · simp at h

theorem brackets_only (E : Env K) : ∀ (n : ℕ) (st : List (Num K)) (s : List Char), OOnly (brackets E n st s) [.parse] := by
  intro n
  induction n with
  | zero => intro st s e h; simp [brackets] at h
  | succ n ih =>
    intro st s e h
    simp only [brackets] at h
    split at h
    · have h1 := compute_only E st s
      rcases hx : compute E st s with _ | ⟨⟨st1, a⟩⟩ | x | _ <;> rw [hx] at h h1 <;> simp only at h
      · simp at h
      · simp at h
      · simp only [Option.some.injEq, Res.err.injEq] at h; rw [← h]; exact h1 x rfl
      · simp at h
    · split at h
      all_goals
        split at h
        · simp only [Option.some.injEq, Res.err.injEq] at h; simp [← h]
        · rename_i l inner _
          have h1 := compute_only E st inner
          rcases hx : compute E st inner with _ | ⟨⟨st1, a⟩⟩ | x | _ <;> rw [hx] at h h1 <;> simp only at h
          · simp at h
          · exact ih _ _ e h
          · simp only [Option.some.injEq, Res.err.injEq] at h; rw [← h]; exact h1 x rfl
          · simp at h

omit [Field K] in
theorem substLoop_only (par : ParStore K) : ∀ (n : ℕ) (used : List ℕ) (s : List Char),
    OOnly (substLoop par n used s) [.parse, .constraint] := by
  intro n
  induction n with
  | zero => intro u s e h; simp [substLoop] at h
  | succ n ih =>
    intro u s e h
    simp only [substLoop] at h
    split at h
    · simp at h
    · split at h
      · simp only [Option.some.injEq, Res.err.injEq] at h; simp [← h]
      · split at h
        · simp only [Option.some.injEq, Res.err.injEq] at h; simp [← h]
        · split at h
          · simp only [Option.some.injEq, Res.err.injEq] at h; simp [← h]
          · split at h
            · exact ih _ _ e h
            · simp at h

theorem parse_only (tab : BTab K) (par : ParStore K) (line : List Char) : OOnly (parse tab par line) [.parse, .constraint] := by
  intro e h
  simp only [parse] at h
  split at h
  · simp only [Option.some.injEq, Res.err.injEq] at h; simp [← h]
  · have h1 := substLoop_only par (line.count '@' + 1) [] line
    rcases hx : substLoop par (line.count '@' + 1) [] line with _ | ⟨⟨used, line'⟩⟩ | x | _ <;> rw [hx] at h h1 <;> simp only at h
    · simp at h
    · have h2 := brackets_only (envOf tab par used) (2 * line'.length + 2) (initStack par used) line'
      rcases hy : brackets (envOf tab par used) (2 * line'.length + 2) (initStack par used) line' with _ | a | y | _ <;>
        rw [hy] at h h2 <;> simp only at h
      · simp at h
      · simp at h
      · simp only [Option.some.injEq, Res.err.injEq] at h
        have := h2 y rfl
        simp only [List.mem_singleton] at this
        simp [← h, this]
      · simp at h
    · simp only [Option.some.injEq, Res.err.injEq] at h; rw [← h]; exact h1 x rfl
    · simp at h

theorem fparse_only (tab : BTab K) (par : ParStore K) (f : List Char) (hub : parse tab par f ≠ some .ub) (e : Exc)
    (h : fparse tab f par = .error e) : e ∈ [Exc.parse, .constraint] := by
  unfold fparse at h
  have h0 := parse_only tab par f
  have h1 := C11.terminates tab par f
  rcases hx : parse tab par f with _ | a | x | _
  · exact absurd hx h1
  · rw [hx] at h; simp at h
  · rw [hx] at h; simp only [Except.error.injEq] at h; rw [← h]; exact h0 x hx
  · exact absurd hx hub

end Parser

section
variable {F K : Type} [Ring K]

theorem storeDers_stop (ip : List Bool) (i : ℕ) : ∀ (l : List (ℕ × K)) (r : Bool) (m : Mat K) (e : Exc),
    (storeDers ip i l r m).2.2 ≠ some (.exc e) := by
  intro l
  induction l with
  | nil => intro r m e; simp [storeDers]
  | cons a l ih =>
    intro r m e
    obtain ⟨j, d⟩ := a
    simp only [storeDers]
    split
    · simp
    · split
      · exact ih _ _ _
      · simp
    · exact ih _ _ _

theorem fillOne_exc (parse : FParser F K) (par : ParStore K) (i : ℕ) (c : Constr F) (v : ℕ → K) (m : Mat K) (L : List Exc)
    (hc : Exc.constraint ∈ L) (hp : ∀ f, c.form = some f → ∀ e, parse f par = .error e → e ∈ L) (e : Exc)
    (h : (fillOne parse par i c v m).2.2.2 = some (.exc e)) : e ∈ L := by
  unfold fillOne at h
  split at h
  · rename_i f hf
    split at h
    · rename_i x hx
      simp only [Option.some.injEq, Stop.exc.injEq] at h
      rw [← h]; exact hp f hf x hx
    · exact absurd h (storeDers_stop _ _ _ _ _ _)
  · split at h
    · simp only [Option.some.injEq, Stop.exc.injEq] at h; rw [← h]; exact hc
    · split at h
      · simp only at h
        repeat' split at h
        all_goals simp at h
      · simp at h

theorem fillLoop_exc (parse : FParser F K) (par : ParStore K) (L : List Exc) (hc : Exc.constraint ∈ L) :
    ∀ (cs : List (Constr F)) (i : ℕ) (v : ℕ → K) (m : Mat K),
      (∀ c ∈ cs, ∀ f, c.form = some f → ∀ e, parse f par = .error e → e ∈ L) → ∀ e,
      (fillLoop parse par i cs v m).2.2.2 = some (.exc e) → e ∈ L := by
  intro cs
  induction cs with
  | nil => intro i v m _ e h; simp [fillLoop] at h
  | cons c cs ih =>
    intro i v m hp e h
    simp only [fillLoop] at h
    have h1 := fillOne_exc parse par i c v m L hc (hp c (by simp))
    rcases hx : fillOne parse par i c v m with ⟨c', v', m', _ | s⟩ <;> rw [hx] at h h1 <;> simp only at h
    · exact ih _ _ _ (fun c hc => hp c (by simp [hc])) e h
    · exact h1 e h

theorem fillVariables_exc (parse : FParser F K) (par : ParStore K) (cs : List (Constr F)) (v : ℕ → K) (m : Mat K) (L : List Exc)
    (hc : Exc.constraint ∈ L) (hp : ∀ c ∈ cs, ∀ f, c.form = some f → ∀ e, parse f par = .error e → e ∈ L) (e : Exc)
    (h : (fillVariables parse par cs v m).2.2.2 = some (.exc e)) : e ∈ L := by
  unfold fillVariables at h
  split at h
  · exact fillLoop_exc parse par L hc cs _ _ _ hp e h
  · simp at h

end

/-! ## Refinement -/

section
variable {K W : Type} [Field K] [LinearOrder K]

theorem gjStep_only {n m : ℕ} (s : GJ n m K) : (gjStep s).Only [.calculation] := by
  unfold gjStep
  split
  · exact only_ub _
  · simp only
    split_ifs
    · exact only_err (by simp)
    · exact only_ok _ _

theorem gjLoop_only {n m : ℕ} : ∀ (k : ℕ) (s : GJ n m K), (gjLoop k s).Only [.calculation]
  | 0, _ => only_ok _ _
  | k + 1, s => only_bind (gjStep_only s) fun s' => gjLoop_only k s'

theorem gaussj_only {n m : ℕ} (a : Matrix (Fin n) (Fin n) K) (b : Matrix (Fin n) (Fin m) K) : (gaussj a b).Only [.calculation] := by
  intro e h
  unfold gaussj at h
  have h1 := gjLoop_only n (GJ.mk a b (fun _ => 0) none [])
  rcases hx : gjLoop n (GJ.mk a b (fun _ => 0) none []) with s | x | _ <;> rw [hx] at h h1 <;> simp only at h
  · cases h
  · cases h; exact h1 _ rfl
  · cases h

theorem solveNormal_only (mfit : ℕ) (m : ℕ → ℕ → K) (beta : ℕ → K) (covar : ℕ → ℕ → K) (da : ℕ → K) :
    (solveNormal mfit m beta covar da).Only [.calculation] := by
  intro e h
  unfold solveNormal at h
  have h1 := gaussj_only (n := mfit) (m := 1) (fun i j => m i j) (fun i _ => beta i)
  rcases hx : gaussj (n := mfit) (m := 1) (fun i j => m i j) (fun i _ => beta i) with s | x | _ <;> rw [hx] at h h1 <;>
    simp only at h
  · cases h
  · cases h; exact h1 _ rfl
  · cases h

variable (th : Theory K W) (L : List Exc)

omit [LinearOrder K] in
theorem mrqcof_exc (he : ∀ p w e, (th.eval p w).2 = some e → e ∈ L) (g : Eng K W) (a : ℕ → K) (al : ℕ → ℕ → K) (be : ℕ → K) (e : Exc)
    (h : (mrqcof th g a al be).2 = .error e) : e ∈ L := by
  simp only [mrqcof] at h
  have h1 := he (g.setP a).par (g.setP a).world
  rcases hx : th.eval (g.setP a).par (g.setP a).world with ⟨w, _ | x⟩ <;> rw [hx] at h h1 <;> simp only at h
  · cases h
  · cases h; exact h1 _ rfl

omit [LinearOrder K] in
theorem mrqInit_exc (he : ∀ p w e, (th.eval p w).2 = some e → e ∈ L) (old : Option (Work K)) (g : Eng K W) (e : Exc)
    (h : (mrqInit th old g).2.2 = some e) : e ∈ L := by
  simp only [mrqInit] at h
  have h1 := mrqcof_exc th L he { g with alambda := 1 / 1000 } ({ g with alambda := 1 / 1000 } : Eng K W).a g.alpha (fun _ => 0)
  rcases hx : mrqcof th { g with alambda := 1 / 1000 } ({ g with alambda := 1 / 1000 } : Eng K W).a g.alpha (fun _ => 0) with
    ⟨e2, x | ⟨al, be⟩⟩ <;> rw [hx] at h h1 <;> simp only at h
  · cases h; exact h1 _ rfl
  · cases h

theorem mrqTry_exc (hcal : Exc.calculation ∈ L) (he : ∀ p w e, (th.eval p w).2 = some e → e ∈ L) (wk : Work K) (g : Eng K W) (e : Exc)
    (h : (mrqTry th wk g).2.2 = .exc e) : e ∈ L := by
  unfold mrqTry at h
  have h1 := solveNormal_only wk.mfit (augmented g) wk.beta g.covar wk.da
  rcases hx : solveNormal wk.mfit (augmented g) wk.beta g.covar wk.da with ⟨cov, da⟩ | x | _ <;> rw [hx] at h h1 <;> simp only at h
  · split at h
    · split at h <;> cases h
    · split at h
      · rename_i e1 x hm
        cases h
        exact mrqcof_exc th L he _ _ _ _ e (by rw [hm])
      · split at h <;> cases h
  · cases h
    have := h1 e rfl
    simp only [List.mem_singleton] at this
    rw [this]; exact hcal
  · cases h

theorem mrqmin_exc (hcal : Exc.calculation ∈ L) (he : ∀ p w e, (th.eval p w).2 = some e → e ∈ L) (old : Option (Work K)) (g : Eng K W)
    (e : Exc) (h : (mrqmin th old g).2.2 = .exc e) : e ∈ L := by
  unfold mrqmin at h
  split at h
  · split at h
    · rename_i wk e1 x hm
      cases h
      exact mrqInit_exc th L he old g e (by rw [hm])
    · exact mrqTry_exc th L hcal he _ _ e h
  · split at h
    · cases h
    · split at h
      · exact mrqTry_exc th L hcal he _ _ e h
      · cases h

theorem refineBody_exc (hcal : Exc.calculation ∈ L) (he : ∀ p w e, (th.eval p w).2 = some e → e ∈ L) (toler : K)
    (work : Option (Work K)) (g : Eng K W) (e : Exc) (h : (refineBody th toler work g).2.2 = .exc e) : e ∈ L := by
  unfold refineBody at h
  split at h
  · split at h
    · cases h
    · rename_i o wk hne hm
      exact mrqmin_exc th L hcal he _ _ e ((congrArg (fun t => t.2.2) hm).trans h)
  · split at h
    · rename_i wk e1 hm
      simp only at h
      split at h
      · rename_i w x hw
        cases h
        exact he _ _ e (by rw [hw])
      · cases h
    · rename_i o wk hne hm
      exact mrqmin_exc th L hcal he _ _ e ((congrArg (fun t => t.2.2) hm).trans h)

theorem refineStep_exc (hcal : Exc.calculation ∈ L) (hs : ∀ p w e, (th.setup p w).2 = some e → e ∈ L)
    (he : ∀ p w e, (th.eval p w).2 = some e → e ∈ L) (toler : K) (s : Statics K) (g : Eng K W) (e : Exc)
    (h : (refineStep th toler s g).2.2 = .exc e) : e ∈ L := by
  unfold refineStep at h
  split at h
  · exact refineBody_exc th L hcal he _ _ _ e h
  · simp only at h
    split at h
    · rename_i w x hw
      cases h
      exact hs _ _ e (by rw [hw])
    · exact refineBody_exc th L hcal he _ _ _ e h

end

/-! ## Parameters, calls, bonds, alloc -/

theorem ParStore.getpar_only {K : Type} (s : ParStore K) (n : ℕ) : (s.getpar n).Only [.unassigned] := by
  unfold ParStore.getpar
  split
  · exact only_at _ _ _
  · exact only_err (by simp)

theorem ParStore.setflag_only {K : Type} (s : ParStore K) (i : ℤ) (b : Bool) : (s.setflag i b).Only [.unassigned] := by
  unfold ParStore.setflag
  split
  · exact only_ok _ _
  · split
    · split
      · exact only_ok _ _
      · exact only_ub _
    · exact only_err (by simp)

namespace Api
variable {K Φ : Type}

theorem optSt_only (r : Option (St K Φ)) : (optSt r).Only [.unassigned] := by
  cases r
  · exact only_err (by simp)
  · exact only_ok _ _

theorem lift_only {s : St K Φ} {r : Res (St K Φ)} {l : List Exc} (h : r.Only l) : (lift s r).1.Only l := by
  cases r with
  | ok _ => exact only_ok _ _
  | err e => intro e' he; exact h e' (by simpa [lift] using he)
  | ub => exact only_ub _

theorem checkSel_only (s : St K Φ) (ip : ℤ) (ij : Char) (a : ℤ) : (checkSel s ip ij a).Only [.unassigned, .value] := by
  unfold checkSel
  split
  · exact only_err (by simp)
  · split
    · exact only_ub _
    · split
      · exact only_err (by simp)
      · split
        · exact only_err (by simp)
        · split
          · split
            · exact only_ub _
            · split
              · exact only_err (by simp)
              · exact only_ok _ _
          · exact only_ub _

variable [LinearOrder K]

theorem range_only (s : St K Φ) (is : ℤ) (a b : K) : (Api.range s is a b).1.Only [.value] := by
  unfold Api.range
  split
  · exact only_err (by simp)
  · split
    · simp only
      split
      · exact only_ok _ _
      · exact only_err (by simp)
    · split
      · split
        · exact only_ub _
        · split
          · exact only_err (by simp)
          · exact only_ok _ _
      · exact only_err (by simp)

end Api

theorem Bonds.bondLengthAtoms_only (p : Bonds.Phs) (i j : ℤ) : (Bonds.bondLengthAtoms p i j).Only [.value] := by
  unfold Bonds.bondLengthAtoms
  split_ifs
  · exact only_err (by simp)
  · exact only_bind (only_at _ _ _) fun _ => only_bind (only_at _ _ _) fun _ => only_ok _ _

theorem Bonds.bondAngle_only (p : Bonds.Phs) (i j k : ℤ) : (Bonds.bondAngle p i j k).Only [.value] := by
  unfold Bonds.bondAngle
  split_ifs
  · exact only_err (by simp)
  · exact only_err (by simp)
  · exact only_bind (only_at _ _ _) fun _ => only_bind (only_at _ _ _) fun _ => only_bind (only_at _ _ _) fun _ => only_ok _ _

theorem Bonds.selectAtomsOf_only (lk : String → Option ℕ) (a : List Bonds.Atm) (s : String) :
    (Bonds.selectAtomsOf lk a s).Only [.value] := by
  unfold Bonds.selectAtomsOf
  split_ifs
  · exact only_ok _ _
  · split
    · exact only_err (by simp)
    · exact only_ok _ _

theorem Bonds.bondLengthTypes_only (lk : String → Option ℕ) (p : Bonds.Phs) (s t : String) (lo hi : ℝ) :
    (Bonds.bondLengthTypes lk p s t lo hi).Only [.value] :=
  only_bind (Bonds.selectAtomsOf_only _ _ _) fun _ => only_bind (Bonds.selectAtomsOf_only _ _ _) fun _ => only_ok _ _

theorem Det.alloc_only (qmax qdamp rmin rmax : ℝ) (bin : ℤ) : (Det.alloc qmax qdamp rmin rmax bin).Only [.value] := by
  unfold Det.alloc
  split_ifs
  · exact only_err (by simp)
  · exact only_err (by simp)
  · exact only_err (by simp)
  · exact only_err (by simp)
  · exact only_ok _ _

end Pdffit
