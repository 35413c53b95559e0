import Verif.Props.Text

/-! # Constraints when one free parameter changes -/

namespace Pdffit
open Filter Formula C09 C10 Parser

/-- The parameter at position `k` set to `t`. -/
def ParStore.move {K : Type} (par : ParStore K) (k : ℕ) (t : K) : ParStore K := { par with p := par.p.set k t }

theorem ParStore.wf_move {K : Type} {par : ParStore K} (hw : par.Wf) (k : ℕ) (t : K) : (par.move k t).Wf :=
  ⟨by simp [ParStore.move, hw.lp], hw.li, hw.nd⟩

theorem ParStore.move_self {K : Type} {par : ParStore K} {k : ℕ} {x : K} (hx : par.p[k]? = some x) : par.move k x = par := by
  obtain ⟨h1, h2⟩ := List.getElem?_eq_some_iff.1 hx
  unfold ParStore.move
  rw [← h2, List.set_getElem_self]

/-- A point inside the domains, if the constraint is a formula. -/
def FormOk (par : ParStore ℝ) (c : Constr (List Char)) : Prop :=
  ∀ line, c.form = some line → ∃ e, IsFormula e line ∧ Inside (parVal par) e

theorem parVal_move {par : ParStore ℝ} (hw : par.Wf) {k n : ℕ} (hn : par.id[k]? = some n) (t : ℝ) :
    parVal (par.move k t) = Function.update (parVal par) n (some t) := by
  funext m
  have hf := (C08.parfind_id hw).2 hn
  have hk : k < par.p.length := by rw [hw.lp]; exact (List.getElem?_eq_some_iff.1 hn).1
  have hpf : (par.move k t).parfind m = par.parfind m := rfl
  by_cases hm : m = n
  · subst hm
    unfold parVal ParStore.getpar
    rw [hpf, hf]
    simp [ParStore.move, Res.at?, List.getElem?_set_self hk]
  · rw [Function.update_of_ne hm]
    unfold parVal ParStore.getpar
    rw [hpf]
    cases hq : par.parfind m with
    | none => rfl
    | some j =>
      have : k ≠ j := by
        rintro rfl
        rw [C08.parfind_id hw, hn] at hq
        exact hm (Option.some.inj hq).symm
      simp [ParStore.move, Res.at?, List.getElem?_set_ne this]

theorem cres_of_value {F : Type} {parse : FParser F ℝ} {par : ParStore ℝ} {c : Constr F} {y : ℝ}
    (h : c.value parse par = some y) : ∃ r, cres parse par c = .ok r := by
  unfold Constr.value at h
  unfold cres
  cases hf : c.form with
  | some f =>
    rw [hf] at h
    dsimp only at h ⊢
    cases hp : parse f par with
    | error x => rw [hp] at h; cases h
    | ok r => exact ⟨_, rfl⟩
  | none =>
    rw [hf] at h
    dsimp only at h ⊢
    unfold ParStore.getpar at h
    cases hp : par.parfind (toUnsigned c.idef) with
    | none => rw [hp] at h; cases h
    | some j => cases c.ctype <;> exact ⟨_, rfl⟩

section
variable {par : ParStore ℝ} (hw : par.Wf) {k : ℕ} {x : ℝ} (hx : par.p[k]? = some x) (hfree : par.ip[k]? = some true)
include hw hx hfree

/-- The value of a constraint near the current value of a free parameter. -/
theorem value_move (c : Constr (List Char)) (hc : c.assigns) (hok : FormOk par c)
    (hv : ∃ y, c.value (fparse builtinTab) par = some y) :
    ∃ g : ℝ → ℝ, (∀ᶠ t in nhds x, c.value (fparse builtinTab) (par.move k t) = some (g t)) ∧
      HasDerivAt g (C08.deriv (fparse builtinTab) par c k) x ∧
      ((cmark (fparse builtinTab) par c).vref = false → ∀ t, g t = g x) := by
  have hk : k < par.p.length := (List.getElem?_eq_some_iff.1 hx).1
  obtain ⟨n, hn⟩ : ∃ n, par.id[k]? = some n := ⟨par.id[k]'(by rw [← hw.lp]; exact hk), List.getElem?_eq_getElem _⟩
  have hpk : ∀ t, (par.move k t).p[k]? = some t := fun t => List.getElem?_set_self hk
  obtain ⟨y, hy⟩ := hv
  cases hf : c.form with
  | some line =>
    obtain ⟨e, he, hin⟩ := hok line hf
    obtain ⟨x0, d, used, g1, gnd, g2, g3⟩ := gradient par hw e line he hin
    have hder : C08.deriv (fparse builtinTab) par c k = ((used.mapIdx fun i j => (j, d.getD i 0)).lookup k).getD 0 := by
      simp [C08.deriv, hf, fparse, g1]
    have hval : ∀ t z, e.val (Function.update (parVal par) n (some t)) mathPartial = some z →
        c.value (fparse builtinTab) (par.move k t) = some z := by
      intro t z hz
      rw [← parVal_move hw hn] at hz
      exact C05.C05_text_value _ (ParStore.wf_move hw k t) c line hf e he z hz
    by_cases hm : k ∈ used
    · obtain ⟨i, hi, rfl⟩ := List.getElem_of_mem hm
      obtain ⟨g, h1, h2⟩ := ((g3 i hi n x hn hx).1 hfree).2
      refine ⟨g, h1.mono fun t ht => hval t _ ht, ?_, fun h => ?_⟩
      · rw [hder, C08.lookup_of_mem (d := d.getD i 0)]
        · exact h2
        · rw [map_fst_mapIdx]; exact gnd
        · rw [List.mem_mapIdx]
          exact ⟨i, hi, rfl⟩
      · exfalso
        have : (cmark (fparse builtinTab) par c).vref = true := by
          unfold cmark cres
          simp only [hf, fparse, g1]
          rw [List.any_eq_true]
          refine ⟨(used[i], d.getD i 0), ?_, ?_⟩
          · rw [List.mem_mapIdx]; exact ⟨i, hi, rfl⟩
          · simp [List.getD, hfree]
        rw [this] at h
        cases h
    · obtain ⟨z, hz⟩ := inside_val e hin
      refine ⟨fun _ => z, .of_forall fun t => ?_, ?_, fun _ _ => rfl⟩
      · refine hval t z ?_
        rw [← hz]
        refine val_congr _ e fun m hm' => ?_
        by_cases hmn : m = n
        · subst hmn
          exact absurd ((g2 k).2 ⟨m, hm', hn⟩) hm
        · simp [hmn]
      · rw [hder, C08.lookup_none (by rw [map_fst_mapIdx]; exact hm)]
        exact hasDerivAt_const _ _
  | none =>
    cases hp : par.parfind (toUnsigned c.idef) with
    | none => simp [Constr.value, hf, ParStore.getpar, hp] at hy
    | some j =>
      have hp' : ∀ t, (par.move k t).parfind (toUnsigned c.idef) = some j := fun _ => hp
      by_cases hj : j = k
      · subst hj
        have hg : ∀ t, (par.move j t).getpar (toUnsigned c.idef) = .ok t := fun t => by
          simp [ParStore.getpar, hp' t, Res.at?, hpk t]
        have hvr : ∀ b, (cmark (fparse builtinTab) par c).vref = b → b = true := by
          intro b hb
          rw [← hb]
          unfold cmark cres
          rw [hf]
          simp only [hp]
          cases c.ctype <;> simp [List.getD, hfree]
        have hxd : par.p.getD j 0 = x := by simp [List.getD, hx]
        unfold C08.deriv
        rw [hf]
        simp only [hp, if_true]
        cases ht : c.ctype with
        | user => simp [Constr.assigns, hf, ht] at hc
        | ident =>
          refine ⟨fun t => t, .of_forall fun t => ?_, hasDerivAt_id' x, fun h => absurd (hvr _ h) (by simp)⟩
          simp [Constr.value, hf, hg t, ht]
        | fcomp =>
          refine ⟨fun t => 1 - t, .of_forall fun t => ?_, (hasDerivAt_id' x).const_sub 1, fun h => absurd (hvr _ h) (by simp)⟩
          simp [Constr.value, hf, hg t, ht]
        | fsqr =>
          refine ⟨fun t => t * t, .of_forall fun t => ?_, ?_, fun h => absurd (hvr _ h) (by simp)⟩
          · simp [Constr.value, hf, hg t, ht]
          · rw [hxd]
            exact ((hasDerivAt_id' x).fun_mul (hasDerivAt_id' x)).congr_deriv (by ring)
      · refine ⟨fun _ => y, .of_forall fun t => ?_, ?_, fun _ _ => rfl⟩
        · rw [← hy]
          unfold Constr.value
          rw [hf]
          have : (par.move k t).getpar (toUnsigned c.idef) = par.getpar (toUnsigned c.idef) := by
            simp only [ParStore.getpar, hp, hp' t, Res.at?]
            simp [ParStore.move, List.getElem?_set_ne (Ne.symm hj)]
          simp only [this]
        · unfold C08.deriv
          rw [hf]
          simp only [hp, Option.some.injEq, hj, if_false]
          exact hasDerivAt_const _ _

/-- The variables near the current value of a free parameter. -/
theorem fill_move (cs : List (Constr (List Char))) (v : ℕ → ℝ) (m : Mat ℝ) (hm : m.WF) (hn : (cs.map Constr.addr).Nodup)
    (hc : ∀ c ∈ cs, c.assigns) (hok : ∀ c ∈ cs, FormOk par c)
    (hfill : (fillVariables (fparse builtinTab) par cs v m).2.2.2 = none) :
    ∃ g : ℕ → ℝ → ℝ,
      (∀ᶠ t in nhds x, (fillVariables (fparse builtinTab) (par.move k t) cs v m).2.2.2 = none ∧
        (∀ i c, cs[i]? = some c → (fillVariables (fparse builtinTab) (par.move k t) cs v m).2.1 c.addr = g i t) ∧
        ∀ a, (∀ c ∈ cs, c.addr ≠ a) → (fillVariables (fparse builtinTab) (par.move k t) cs v m).2.1 a = v a) ∧
      ∀ i c, cs[i]? = some c → HasDerivAt (g i) (C08.deriv (fparse builtinTab) par c k) x ∧
        ((cmark (fparse builtinTab) par c).vref = false → ∀ t, g i t = g i x) := by
  have hval : ∀ c ∈ cs, ∃ y, c.value (fparse builtinTab) par = some y := by
    obtain ⟨-, -, h⟩ := fillVariables_value (parse := fparse builtinTab) (par := par) (cs := cs) (v := v) (m := m)
      (Prod.ext rfl (Prod.ext rfl (Prod.ext rfl hfill)))
    exact fun c hm => h c hm (hc c hm)
  have H : ∀ i : ℕ, ∃ g : ℝ → ℝ, ∀ c, cs[i]? = some c → (∀ᶠ t in nhds x, c.value (fparse builtinTab) (par.move k t) = some (g t)) ∧
      HasDerivAt g (C08.deriv (fparse builtinTab) par c k) x ∧
      ((cmark (fparse builtinTab) par c).vref = false → ∀ t, g t = g x) := by
    intro i
    cases hi : cs[i]? with
    | none => exact ⟨fun _ => 0, fun c h => by cases h⟩
    | some c =>
      have hm := List.mem_of_getElem? hi
      obtain ⟨g, hg⟩ := value_move hw hx hfree c (hc c hm) (hok c hm) (hval c hm)
      exact ⟨g, fun c' h => by cases h; exact hg⟩
  choose g hg using H
  refine ⟨g, ?_, fun i c hi => (hg i c hi).2⟩
  have hev : ∀ᶠ t in nhds x, ∀ i ∈ Finset.range cs.length, ∀ c, cs[i]? = some c →
      c.value (fparse builtinTab) (par.move k t) = some (g i t) := by
    rw [eventually_all_finset]
    intro i hi
    have hi' : i < cs.length := Finset.mem_range.1 hi
    filter_upwards [(hg i cs[i] (List.getElem?_eq_getElem hi')).1] with t ht c hc
    rw [List.getElem?_eq_getElem hi'] at hc
    cases hc
    exact ht
  filter_upwards [hev] with t ht
  have hall : ∀ i c, cs[i]? = some c → c.value (fparse builtinTab) (par.move k t) = some (g i t) := fun i c hi =>
    ht i (Finset.mem_range.2 (List.getElem?_eq_some_iff.1 hi).1) c hi
  obtain ⟨m', e, -⟩ := fillVariables_ok (fparse_parserOK builtinTab) (ParStore.wf_move hw k t) cs v m hm fun c hm => by
    obtain ⟨i, hi, rfl⟩ := List.getElem_of_mem hm
    exact cres_of_value (hall i _ (List.getElem?_eq_getElem hi))
  obtain ⟨-, h2, -⟩ := fillVariables_value e
  rw [e]
  dsimp only
  rw [h2]
  refine ⟨rfl, fun i c hi => ?_, fun a ha => foldl_value_other cs a ha v⟩
  have hi' := (List.getElem?_eq_some_iff.1 hi).1
  have hci := (List.getElem?_eq_some_iff.1 hi).2
  have hsplit : cs = cs.take i ++ c :: cs.drop (i + 1) := by
    rw [← hci, List.cons_getElem_drop_succ, List.take_append_drop]
  rw [hsplit]
  refine foldl_value_last _ _ c ?_ (hall i c hi) v
  intro c' hc' he
  obtain ⟨j, hj, hje⟩ := List.getElem_of_mem hc'
  rw [List.getElem_drop] at hje
  rw [List.length_drop] at hj
  have h3 := (List.Nodup.getElem_inj_iff hn (i := i) (j := i + 1 + j) (hi := by simpa using hi') (hj := by rw [List.length_map]; omega)).1 (by
    simp only [List.getElem_map]
    rw [hci, hje, he])
  omega

end
end Pdffit
