import Verif.Lemmas.Constr
import Verif.Lemmas.ConstrVal
import Verif.Lemmas.RefineChi

/-! With constraints, the model evaluation is a function of the parameter values. -/

namespace Pdffit
set_option linter.unusedSectionVars false
variable {F K C : Type} [Field K] [LinearOrder K] [IsStrictOrderedRing K] [FloorRing K]

/-- What is needed from `determine`: success and chi-square are functions of the variables, the
normalisation is constant (on curves that satisfy `J`). -/
structure CStatic.DetOK (S : CStatic F K C) (J : C → Prop) (cv : (Nat → K) → Option K) (wn : K) :
    Prop where
  inv : ∀ v rv vr m c, J c → J (S.det v rv vr m c).1
  fails : ∀ v rv vr m c x, J c → (S.det v rv vr m c).2 = some x → cv v = none
  value : ∀ v rv vr m c, J c → (S.det v rv vr m c).2 = none →
    cv v = some (chisqOf (S.pts (S.det v rv vr m c).1)) ∧ wnormOf (S.pts (S.det v rv vr m c).1) = wn

theorem cstep_other {parse : FParser F K} {par : ParStore K} (cs : List (Constr F)) (a : Nat)
    (h : ∀ c ∈ cs, c.addr = a → ¬ c.assigns) : ∀ v : Nat → K,
    (cs.foldl (cstep parse par) v) a = v a := by
  induction cs with
  | nil => intro v; rfl
  | cons c cs ih =>
    intro v
    rw [List.foldl_cons, ih (fun c' hc' => h c' (List.mem_cons_of_mem _ hc'))]
    unfold cstep
    rcases heq : cres parse par c with y | ⟨_ | x, fr, en⟩
    · rfl
    · rfl
    · dsimp only
      by_cases ha : c.addr = a
      · exfalso
        have := h c (by simp) ha
        unfold Constr.assigns at this
        push Not at this
        obtain ⟨h1, h2⟩ := this
        unfold cres at heq
        cases hf : c.form with
        | some f => rw [hf] at h1; simp at h1
        | none =>
          rw [hf] at heq
          dsimp only at heq
          split at heq
          · cases heq
          · rw [h2] at heq
            simp at heq
      · simp [upd, Ne.symm ha]

/-- Values of assigned variables do not depend on the values before. -/
theorem cstep_assigned {parse : FParser F K} {par : ParStore K} (cs : List (Constr F)) (a : Nat)
    (hok : ∀ c ∈ cs, ∃ r, cres parse par c = .ok r) : ∀ v v' : Nat → K,
    ((∃ c ∈ cs, c.addr = a ∧ c.assigns) ∨ v a = v' a) →
    (cs.foldl (cstep parse par) v) a = (cs.foldl (cstep parse par) v') a := by
  induction cs with
  | nil =>
    intro v v' h
    rcases h with ⟨c, hc, _⟩ | h
    · simp at hc
    · exact h
  | cons c cs ih =>
    intro v v' h
    rw [List.foldl_cons, List.foldl_cons]
    apply ih (fun c' hc' => hok c' (List.mem_cons_of_mem _ hc'))
    by_cases hex : ∃ c' ∈ cs, c'.addr = a ∧ c'.assigns
    · exact Or.inl hex
    · right
      obtain ⟨⟨val, fr, en⟩, hr⟩ := hok c (by simp)
      unfold cstep
      rw [hr]
      cases val with
      | some x =>
        dsimp only [upd]
        by_cases ha : a = c.addr
        · rw [if_pos ha, if_pos ha]
        · rw [if_neg ha, if_neg ha]
          rcases h with ⟨c', hm, h1, h2⟩ | h
          · rcases List.mem_cons.1 hm with rfl | hm
            · exact absurd h1.symm ha
            · exact absurd ⟨c', hm, h1, h2⟩ hex
          · exact h
      | none =>
        dsimp only
        rcases h with ⟨c', hm, h1, h2⟩ | h
        · rcases List.mem_cons.1 hm with rfl | hm
          · exfalso
            unfold cres at hr
            cases hf : c'.form with
            | some f =>
              rw [hf] at hr
              dsimp only at hr
              split at hr
              · cases hr
              · simp at hr
            | none =>
              rw [hf] at hr
              dsimp only at hr
              unfold Constr.assigns at h2
              rw [hf] at h2
              split at hr
              · cases hr
              · cases ht : c'.ctype <;> rw [ht] at hr h2 <;> simp at hr h2
          · exact absurd ⟨c', hm, h1, h2⟩ hex
        · exact h

theorem cres_core {parse : FParser F K} {par : ParStore K} {c c' : Constr F}
    (h : c.core = c'.core) : cres parse par c = cres parse par c' := by
  obtain ⟨a, f, i, t, v⟩ := c
  obtain ⟨a', f', i', t', v'⟩ := c'
  simp only [Constr.core, Prod.mk.injEq] at h
  obtain ⟨rfl, rfl, rfl, rfl⟩ := h
  rfl

theorem cstep_core {parse : FParser F K} {par : ParStore K} {c c' : Constr F}
    (h : c.core = c'.core) (v : Nat → K) : cstep parse par v c = cstep parse par v c' := by
  have ha : c.addr = c'.addr := congrArg (·.1) h
  unfold cstep
  rw [cres_core h, ha]

theorem cmark_core (parse : FParser F K) (par : ParStore K) (c : Constr F) :
    (cmark parse par c).core = c.core := by
  unfold cmark; split <;> rfl

theorem assigns_core {c c' : Constr F} (h : c.core = c'.core) : c.assigns ↔ c'.assigns := by
  have e1 : c.form = c'.form := congrArg (·.2.1) h
  have e2 : c.ctype = c'.ctype := congrArg (·.2.2.2) h
  unfold Constr.assigns
  rw [e1, e2]

theorem foldl_cstep_core {parse : FParser F K} {par : ParStore K} :
    ∀ (cs cs' : List (Constr F)), cs.map Constr.core = cs'.map Constr.core → ∀ v : Nat → K,
    cs.foldl (cstep parse par) v = cs'.foldl (cstep parse par) v := by
  intro cs
  induction cs with
  | nil => intro cs' h v; cases cs' with
    | nil => rfl
    | cons _ _ => simp at h
  | cons c cs ih =>
    intro cs' h v
    cases cs' with
    | nil => simp at h
    | cons c' cs' =>
      simp only [List.map_cons, List.cons.injEq] at h
      rw [List.foldl_cons, List.foldl_cons, cstep_core h.1, ih cs' h.2]

theorem allok_core {parse : FParser F K} {par : ParStore K} {cs cs' : List (Constr F)}
    (h : cs.map Constr.core = cs'.map Constr.core) (ha : ∀ c ∈ cs, ∃ r, cres parse par c = .ok r) :
    ∀ c ∈ cs', ∃ r, cres parse par c = .ok r := by
  intro c hc
  have : c.core ∈ cs.map Constr.core := by rw [h]; exact List.mem_map_of_mem hc
  obtain ⟨c2, hm, he⟩ := List.mem_map.1 this
  rw [← cres_core he]
  exact ha c2 hm

/-- `w` is a world with the constraints `cs0` that agrees with `v0` on the variables that no constraint sets. -/
structure CInv (S : CStatic F K C) (J : C → Prop) (cs0 : List (Constr F)) (v0 : Nat → K)
    (w : CWorld F K C) : Prop where
  cons : w.cons.map Constr.core = cs0.map Constr.core
  vars : ∀ a, (∀ c ∈ cs0, c.addr = a → ¬ c.assigns) → wrapVars S.icc w.vars a = wrapVars S.icc v0 a
  wf : w.dvdp.WF
  curve : J w.curve

open Classical in
/-- Chi-square as function of the parameter values. -/
noncomputable def chiOf (S : CStatic F K C) (cv : (Nat → K) → Option K) (p0 : ParStore K)
    (cs0 : List (Constr F)) (v0 : Nat → K) (p : List K) : Option K :=
  if ∀ c ∈ cs0, ∃ r, cres S.parse { p0 with p := p } c = .ok r then
    cv (wrapVars S.icc (cs0.foldl (cstep S.parse { p0 with p := p }) v0))
  else none

theorem wf_sameKeys {p0 par : ParStore K} (h0 : p0.Wf) (hk : SameKeys p0 par) : par.Wf :=
  ⟨by rw [hk.2.2, hk.2.1, h0.lp], by rw [hk.1, hk.2.1, h0.li], by rw [hk.2.1]; exact h0.nd⟩

theorem sameKeys_eq {p0 par : ParStore K} (hk : SameKeys p0 par) : { p0 with p := par.p } = par := by
  obtain ⟨p, ip, id⟩ := par
  obtain ⟨h1, h2, -⟩ := hk
  dsimp only at h1 h2 ⊢
  rw [h1, h2]

theorem wrapVars_idem {S : CStatic F K C} (hicc : ∀ a n, S.icc a = some n → 0 < n) (v : Nat → K)
    (a : Nat) : wrapVars S.icc (wrapVars S.icc v) a = wrapVars S.icc v a := by
  cases h : S.icc a with
  | none => simp [wrapVars, h]
  | some n => simp only [wrapVars, h]; exact fmodK_idem _ (hicc a n h)

/-- Filling the variables keeps the invariant, apart from the curve. -/
theorem fill_inv {S : CStatic F K C} (hp : ParserOK S.parse) {J : C → Prop} {p0 par : ParStore K}
    (h0 : p0.Wf) (hk : SameKeys p0 par) {cs0 : List (Constr F)} {v0 : Nat → K} {w : CWorld F K C}
    (hi : CInv S J cs0 v0 w) :
    ∃ cs' v' m' so, fillVariables S.parse par w.cons w.vars w.dvdp = (cs', v', m', so) ∧
      CInv S J cs0 v0 { w with cons := cs', vars := v', dvdp := m' } ∧
      (so = none → (∀ c ∈ cs0, ∃ r, cres S.parse par c = .ok r) ∧
        wrapVars S.icc v' = wrapVars S.icc (cs0.foldl (cstep S.parse par) v0)) ∧
      (so ≠ none → ¬ ∀ c ∈ cs0, ∃ r, cres S.parse par c = .ok r) ∧ so ≠ some .ub := by
  have hna : ∀ (l : List (Constr F)) (a : Nat), (∀ c ∈ l, ∃ c' ∈ w.cons, c.core = c'.core) →
      (∀ c ∈ cs0, c.addr = a → ¬ c.assigns) → ∀ c ∈ l, c.addr = a → ¬ c.assigns := by
    intro l a hl ha c hc hadr has
    obtain ⟨c', hm, he⟩ := hl c hc
    have : c'.core ∈ cs0.map Constr.core := by rw [← hi.cons]; exact List.mem_map_of_mem hm
    obtain ⟨c2, hm2, he2⟩ := List.mem_map.1 this
    refine ha c2 hm2 ?_ ((assigns_core (he2.trans he.symm)).2 has)
    rw [← hadr]; exact congrArg (·.1) (he2.trans he.symm)
  by_cases hall : ∀ c ∈ w.cons, ∃ r, cres S.parse par c = .ok r
  · obtain ⟨m', h1, -, -, h4, -⟩ := fillVariables_ok hp (wf_sameKeys h0 hk) w.cons w.vars w.dvdp hi.wf hall
    refine ⟨_, _, m', none, h1, ⟨?_, ?_, h4, hi.curve⟩, ?_, by simp, by simp⟩
    · rw [List.map_map, ← hi.cons]
      exact List.map_congr_left fun c _ => cmark_core _ _ c
    · intro a ha
      rw [← hi.vars a ha]
      simp only [wrapVars]
      rw [cstep_other w.cons a (hna w.cons a (fun c hc => ⟨c, hc, rfl⟩) ha)]
    · intro _
      refine ⟨allok_core hi.cons hall, ?_⟩
      rw [foldl_cstep_core w.cons cs0 hi.cons]
      funext a
      by_cases ha : ∃ c ∈ cs0, c.addr = a ∧ c.assigns
      · simp only [wrapVars]
        rw [cstep_assigned cs0 a (allok_core hi.cons hall) w.vars v0 (Or.inl ha)]
      · have ha' : ∀ c ∈ cs0, c.addr = a → ¬ c.assigns := fun c hc h1 h2 => ha ⟨c, hc, h1, h2⟩
        have := hi.vars a ha'
        simp only [wrapVars] at this ⊢
        rw [cstep_other cs0 a ha', cstep_other cs0 a ha']
        exact this
  · obtain ⟨l, c, r, x, m', e1, e2, e3, h1, -, -, h4, -⟩ :=
      fillVariables_err hp (wf_sameKeys h0 hk) w.cons w.vars w.dvdp hi.wf hall
    refine ⟨_, _, m', _, h1, ⟨?_, ?_, h4, hi.curve⟩, by simp, ?_, by simp⟩
    · rw [← hi.cons, e1]
      simp only [List.map_append, List.map_cons, List.map_map, cmark_core]
      congr 1
      exact List.map_congr_left fun c _ => cmark_core _ _ c
    · intro a ha
      rw [← hi.vars a ha]
      simp only [wrapVars]
      rw [cstep_other l a (hna l a (fun c hc => ⟨c, by rw [e1]; simp [hc], rfl⟩) ha)]
    · intro _ hh
      exact hall (allok_core hi.cons.symm hh)

/-- The refinement machine with constraints satisfies the determinism needed in C04, C06. -/
theorem constr_det {S : CStatic F K C} (hp : ParserOK S.parse)
    (hicc : ∀ a n, S.icc a = some n → 0 < n) {J : C → Prop} {cv : (Nat → K) → Option K} {wn : K}
    (hd : S.DetOK J cv wn) {p0 : ParStore K} (h0 : p0.Wf) (cs0 : List (Constr F)) (v0 : Nat → K) :
    (constrTheory S).Det p0 (CInv S J cs0 v0) (chiOf S cv p0 cs0 v0) wn where
  setup := by
    intro par w hk hi
    obtain ⟨cs', v', m', so, h1, h2, -⟩ := fill_inv hp h0 hk hi
    simp only [constrTheory, fitSetup, h1]
    cases so with
    | some s => exact h2
    | none =>
      dsimp only
      split <;> exact ⟨h2.cons, h2.vars, h2.wf, h2.curve⟩
  eval := by
    intro par w hk hi
    obtain ⟨cs', v', m', so, h1, h2, -⟩ := fill_inv hp h0 hk hi
    simp only [constrTheory, fitTheory, h1]
    cases so with
    | some s => exact h2
    | none =>
      refine ⟨h2.cons, ?_, h2.wf, hd.inv _ _ _ _ _ h2.curve⟩
      intro a ha
      dsimp only
      rw [wrapVars_idem hicc]
      exact h2.vars a ha
  fails := by
    intro par w w' x hk hi h
    obtain ⟨cs', v', m', so, h1, h2, h3, h4, h5⟩ := fill_inv hp h0 hk hi
    simp only [constrTheory, fitTheory, h1] at h
    unfold chiOf
    rw [sameKeys_eq hk]
    cases so with
    | some s =>
      rw [if_neg (h4 (by simp))]
    | none =>
      obtain ⟨ha, hv⟩ := h3 rfl
      rw [if_pos ha, ← hv]
      simp only [Prod.mk.injEq] at h
      obtain ⟨-, h⟩ := h
      cases hds : (S.det (wrapVars S.icc v') w.refvar (cs'.map Constr.vref) m' w.curve).2 with
      | none => rw [hds] at h; simp at h
      | some y => exact hd.fails _ _ _ _ _ y hi.curve hds
  value := by
    intro par w w' hk hi h
    obtain ⟨cs', v', m', so, h1, h2, h3, h4, h5⟩ := fill_inv hp h0 hk hi
    simp only [constrTheory, fitTheory, h1] at h
    unfold chiOf
    rw [sameKeys_eq hk]
    cases so with
    | some s => simp at h
    | none =>
      obtain ⟨ha, hv⟩ := h3 rfl
      rw [if_pos ha, ← hv]
      simp only [Prod.mk.injEq] at h
      obtain ⟨rfl, h⟩ := h
      cases hds : (S.det (wrapVars S.icc v') w.refvar (cs'.map Constr.vref) m' w.curve).2 with
      | some y => rw [hds] at h; simp at h
      | none => exact hd.value _ _ _ _ _ hi.curve hds

end Pdffit
