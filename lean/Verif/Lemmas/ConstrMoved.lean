import Verif.Lemmas.ConstrEqui
import Verif.Lemmas.FParsePerm

/-! The same constraints, with the parameters at other positions. -/

namespace Pdffit
set_option linter.unusedSectionVars false

/-- Position in `b` of the number at position `l` of `a`. -/
def moveTo (a b : List ℕ) (l : ℕ) : ℕ := if h : l < a.length then b.idxOf a[l] else l

theorem moveTo_inv {a b : List ℕ} (h : a.Perm b) (ha : a.Nodup) (l : ℕ) : moveTo b a (moveTo a b l) = l := by
  by_cases hl : l < a.length
  · have hm : a[l] ∈ b := h.mem_iff.1 (List.getElem_mem hl)
    have hi := List.idxOf_lt_length_of_mem hm
    have h1 : moveTo a b l = b.idxOf a[l] := dif_pos hl
    rw [h1]
    unfold moveTo
    rw [dif_pos hi, List.getElem_idxOf, ha.idxOf_getElem]
  · have h1 : moveTo a b l = l := dif_neg hl
    rw [h1]
    exact dif_neg (by rw [← h.length_eq]; exact hl)

/-- The permutation of the positions. -/
def movePerm {a b : List ℕ} (h : a.Perm b) (ha : a.Nodup) (hb : b.Nodup) : Equiv.Perm ℕ where
  toFun := moveTo a b
  invFun := moveTo b a
  left_inv := moveTo_inv h ha
  right_inv := moveTo_inv h.symm hb

theorem moveTo_lt {a b : List ℕ} (h : a.Perm b) (l : ℕ) : moveTo a b l < a.length ↔ l < a.length := by
  unfold moveTo
  by_cases hl : l < a.length
  · rw [dif_pos hl]
    have hm : a[l] ∈ b := h.mem_iff.1 (List.getElem_mem hl)
    exact ⟨fun _ => hl, fun _ => by rw [h.length_eq]; exact List.idxOf_lt_length_of_mem hm⟩
  · rw [dif_neg hl]

theorem moveTo_id {a b : List ℕ} (h : a.Perm b) (l : ℕ) : b[moveTo a b l]? = a[l]? := by
  unfold moveTo
  by_cases hl : l < a.length
  · rw [dif_pos hl]
    have hm : a[l] ∈ b := h.mem_iff.1 (List.getElem_mem hl)
    rw [List.getElem?_eq_getElem hl, List.getElem?_eq_getElem (List.idxOf_lt_length_of_mem hm), List.getElem_idxOf]
  · have := h.length_eq
    rw [dif_neg hl, List.getElem?_eq_none (by omega), List.getElem?_eq_none (by omega)]

theorem parfind_moved {K : Type} {par par' : ParStore K} (hw' : par'.Wf) {ρ : Equiv.Perm ℕ}
    (hid : ∀ l, par'.id[ρ l]? = par.id[l]?) (n : ℕ) : par'.parfind n = (par.parfind n).map ρ := by
  rcases h : par.parfind n with - | j
  · have h1 := ParStore.parfind_none h
    rw [Option.map_none]
    apply ParStore.parfind_isNone_of_not_mem
    intro hm
    obtain ⟨i, hi, he⟩ := List.getElem_of_mem hm
    have h2 := hid (ρ.symm i)
    rw [Equiv.apply_symm_apply, List.getElem?_eq_getElem hi, he] at h2
    exact h1 (List.mem_of_getElem? h2.symm)
  · obtain ⟨hj, he⟩ := ParStore.parfind_some h
    have h2 := hid j
    rw [List.getElem?_eq_getElem hj, he] at h2
    obtain ⟨hi, he'⟩ := List.getElem?_eq_some_iff.1 h2
    rw [← he', ParStore.parfind_of_getElem hw' hi]
    rfl

variable {K : Type} [Field K] [LinearOrder K] [IsStrictOrderedRing K]

theorem rowAfter_moved (ρ : Equiv.Perm ℕ) (es : List (ℕ × K)) (l : ℕ) : ∀ o : Option K,
    rowAfter (es.map fun e => (ρ e.1, e.2)) (ρ l) o = rowAfter es l o := by
  induction es with
  | nil => intro o; rfl
  | cons e es ih =>
    intro o
    simp only [List.map_cons, rowAfter, List.foldl_cons] at ih ⊢
    rw [show (if ρ e.1 = ρ l then some e.2 else o) = if e.1 = l then some e.2 else o from by
      simp only [ρ.injective.eq_iff]]
    exact ih _

theorem option_map_one (o : Option K) : o.map (· * (1 : K)) = o := by
  cases o <;> simp

/-- A constraint evaluates to the same when the parameters are at other positions. -/
theorem cresRel_moved (tab : Parser.BTab K) {E : Redescr K} (hs : ∀ l, E.s l = 1) (ht : ∀ l, E.t l = 0)
    (ia : ℕ → Bool) {par par' : ParStore K} (hw : par.Wf) (hw' : par'.Wf) (hid : ∀ l, par'.id[E.ρ l]? = par.id[l]?)
    (h : ParRel E par par') (c : Constr (List Char)) :
    CresRel E ia (cres (Parser.fparse tab) par c) (cres (Parser.fparse tab) par' c) := by
  have hmv : Parser.Moved E.ρ par par' := by
    refine ⟨parfind_moved hw' hid, fun j => ?_, fun j hj => ?_, fun j hj => ?_⟩
    · rw [h.len, h.len']; exact E.hρ j
    · rw [h.len] at hj; exact h.ip j hj
    · rw [h.len] at hj
      have := h.val j hj
      rwa [hs, ht, one_mul, add_zero] at this
  unfold cres
  cases hf : c.form with
  | some f =>
    dsimp only
    have ho := Parser.fparse_parserOK tab f par
    rw [Parser.fparse_moved hmv]
    rcases hq : Parser.fparse tab f par with x | ⟨x, ds⟩
    · exact rfl
    · have hlt := ho x ds hw hq
      have hfil : (ds.map fun e => (E.ρ e.1, e.2)).filter (fun e => par'.ip.getD e.1 false) =
          (ds.filter fun e => par.ip.getD e.1 false).map fun e => (E.ρ e.1, e.2) := by
        rw [List.filter_map]
        congr 1
        exact List.filter_congr fun e he => hmv.ip e.1 (hlt e he)
      have hany : (ds.map fun e => (E.ρ e.1, e.2)).any (fun e => par'.ip.getD e.1 false) =
          ds.any fun e => par.ip.getD e.1 false := by
        rw [List.any_map, Bool.eq_iff_iff, List.any_eq_true, List.any_eq_true]
        refine exists_congr fun e => and_congr_right fun he => ?_
        rw [Function.comp, hmv.ip e.1 (hlt e he)]
      refine ⟨rfl, hany, ?_⟩
      intro l _ _ o o' ho'
      simp only [hs, option_map_one] at ho' ⊢
      rw [hfil, rowAfter_moved, ho']
  | none =>
    dsimp only
    rw [hmv.find]
    rcases hq : par.parfind (toUnsigned c.idef) with - | j
    · exact rfl
    · obtain ⟨hj, -⟩ := ParStore.parfind_some hq
      have hjp : j < par.p.length := by rw [hw.lp]; exact hj
      dsimp only [Option.map]
      have e1 := hmv.ip j hjp
      have e2 := hmv.val j hjp
      have key : ∀ (v v' : Option K) (d d' : K), v' = v → d' = d →
          CresRel E ia (.ok (v, par.ip.getD j false, [(j, d)]))
            (.ok (v', par'.ip.getD (E.ρ j) false, [(E.ρ j, d')])) := by
        rintro v v' d d' rfl rfl
        refine ⟨rfl, e1, ?_⟩
        intro l _ _ o o' ho'
        simp only [hs, option_map_one] at ho' ⊢
        rw [show [(E.ρ j, d')] = [(j, d')].map (fun e : ℕ × K => (E.ρ e.1, e.2)) from rfl, rowAfter_moved, ho']
      cases c.ctype with
      | ident => exact key _ _ _ _ (by rw [e2]) rfl
      | fcomp => exact key _ _ _ _ (by rw [e2]) rfl
      | fsqr => exact key _ _ _ _ (by rw [e2]) (by rw [e2])
      | user =>
        refine ⟨rfl, e1, ?_⟩
        intro l _ _ o o' ho'
        simp only [hs, option_map_one] at ho' ⊢
        exact ho'

end Pdffit
