import Verif.Lemmas.ConstrMove
import Verif.Lemmas.DerivChain

/-! # Constraints as functions of all free parameters -/

namespace Pdffit
open Filter Formula C09 C10 _root_.Pdffit.Parser

/-! ## Calculus -/

/-- The linear function with the coefficients `a`. -/
noncomputable def dlin {n : ℕ} (a : Fin n → ℝ) : (Fin n → ℝ) →L[ℝ] ℝ :=
  ∑ c, a c • (ContinuousLinearMap.proj c : (Fin n → ℝ) →L[ℝ] ℝ)

theorem dlin_apply {n : ℕ} (a v : Fin n → ℝ) : dlin a v = ∑ c, a c * v c := by
  simp [dlin]

theorem fderiv_of_partials {n : ℕ} {f : (Fin n → ℝ) → ℝ} {w₀ : Fin n → ℝ} (hd : DifferentiableAt ℝ f w₀) (a : Fin n → ℝ)
    (ha : ∀ c, HasDerivAt (fun t => f (Function.update w₀ c t)) (a c) (w₀ c)) : HasFDerivAt f (dlin a) w₀ := by
  have e : fderiv ℝ f w₀ = dlin a := by
    ext v
    rw [dlin_apply]
    have hp : ∀ c, HasDerivAt (fun t : ℝ => (w₀ + t • v) c) (v c) 0 := by
      intro c
      simpa using ((hasDerivAt_id' (0 : ℝ)).mul_const (v c)).const_add (w₀ c)
    have h1 := Deriv.chain hd a ha (fun t => w₀ + t • v) v (t₀ := 0) (by simp) hp
    have h2 : HasFDerivAt f (fderiv ℝ f w₀) (w₀ + (0 : ℝ) • v) := by simpa using hd.hasFDerivAt
    exact (h2.comp_hasDerivAt (0 : ℝ) (hasDerivAt_pi.2 hp)).unique h1
  rw [← e]
  exact hd.hasFDerivAt

/-! ## The store of parameters -/

/-- The free parameters set to `w`. -/
noncomputable def ParStore.put (par : ParStore ℝ) (w : Fin par.p.length → ℝ) : ParStore ℝ :=
  { par with p := List.ofFn fun k => if par.ip.getD k false = true then w k else par.p[k] }

/-- The values of all parameters. -/
def ParStore.now (par : ParStore ℝ) : Fin par.p.length → ℝ := fun k => par.p[k]

namespace ParStore
variable {par : ParStore ℝ}

theorem put_length (w : Fin par.p.length → ℝ) : (par.put w).p.length = par.p.length := by simp [put]

theorem put_get (w : Fin par.p.length → ℝ) (k : Fin par.p.length) :
    (par.put w).p[(k : ℕ)]? = some (if par.ip.getD k false = true then w k else par.p[k]) := by
  rw [put, List.getElem?_ofFn, dif_pos k.2]

theorem put_now : par.put par.now = par := by
  have : (par.put par.now).p = par.p := by
    unfold put now
    simp
  exact congrArg (fun q => ({ par with p := q } : ParStore ℝ)) this

theorem wf_put (hw : par.Wf) (w : Fin par.p.length → ℝ) : (par.put w).Wf := ⟨by rw [put_length]; exact hw.lp, hw.li, hw.nd⟩

theorem put_update_free {k : Fin par.p.length} (hf : par.ip.getD k false = true) (t : ℝ) :
    par.put (Function.update par.now k t) = par.move k t := by
  have : (par.put (Function.update par.now k t)).p = par.p.set k t := by
    apply List.ext_getElem?
    intro i
    by_cases hi : i < par.p.length
    · rw [put_get _ ⟨i, hi⟩]
      by_cases hik : i = k
      · subst hik
        rw [if_pos hf, List.getElem?_set_self hi]
        simp
      · rw [List.getElem?_set_ne (Ne.symm hik), List.getElem?_eq_getElem hi, Function.update_of_ne (by
          intro e; exact hik (congrArg Fin.val e))]
        simp [now]
    · rw [List.getElem?_eq_none (by rw [put_length]; omega), List.getElem?_eq_none (by rw [List.length_set]; omega)]
  exact congrArg (fun q => ({ par with p := q } : ParStore ℝ)) this

theorem put_update_fixed {k : Fin par.p.length} (hf : par.ip.getD k false = false) (t : ℝ) :
    par.put (Function.update par.now k t) = par := by
  have : (par.put (Function.update par.now k t)).p = par.p := by
    apply List.ext_getElem?
    intro i
    by_cases hi : i < par.p.length
    · rw [put_get _ ⟨i, hi⟩, List.getElem?_eq_getElem hi]
      by_cases hik : i = k
      · subst hik
        rw [if_neg (by rw [hf]; simp)]
        rfl
      · rw [Function.update_of_ne (by intro e; exact hik (congrArg Fin.val e))]
        simp [now]
    · rw [List.getElem?_eq_none (by rw [put_length]; omega), List.getElem?_eq_none (by omega)]
  exact congrArg (fun q => ({ par with p := q } : ParStore ℝ)) this

theorem getpar_put (hw : par.Wf) {m j : ℕ} (hj : par.parfind m = some j) (w : Fin par.p.length → ℝ) : ∃ h : j < par.p.length,
    (par.put w).getpar m = .ok (if par.ip.getD j false = true then w ⟨j, h⟩ else par.p[j]) := by
  have h : j < par.p.length := by
    have := (C08.parfind_id hw).1 hj
    rw [hw.lp]
    exact (List.getElem?_eq_some_iff.1 this).1
  refine ⟨h, ?_⟩
  unfold getpar
  have e : (par.put w).parfind m = some j := hj
  rw [e]
  exact at?_some (put_get w ⟨j, h⟩)

end ParStore

theorem parVal_put {par : ParStore ℝ} (hw : par.Wf) {m j : ℕ} (hj : par.parfind m = some j) (w : Fin par.p.length → ℝ) : ∃ h : j < par.p.length,
    parVal (par.put w) m = some (if par.ip.getD j false = true then w ⟨j, h⟩ else par.p[j]) := by
  obtain ⟨h, e⟩ := ParStore.getpar_put hw hj w
  exact ⟨h, by unfold parVal; rw [e]⟩

/-! ## Formulas -/

theorem val_joint {par : ParStore ℝ} (hw : par.Wf) (e : Ex) : Inside (parVal par) e →
    ∃ G : (Fin par.p.length → ℝ) → ℝ, (∀ᶠ w in nhds par.now, e.val (parVal (par.put w)) mathPartial = some (G w)) ∧
      DifferentiableAt ℝ G par.now := by
  induction e with
  | num l => intro _; exact ⟨fun _ => l.val, .of_forall fun _ => rfl, differentiableAt_const _⟩
  | par m =>
    intro hin
    obtain ⟨y, hy⟩ := hin
    obtain ⟨j, hj, -⟩ := parVal_some hy []
    obtain ⟨h, -⟩ := parVal_put hw hj par.now
    refine ⟨fun w => if par.ip.getD j false = true then w ⟨j, h⟩ else par.p[j], .of_forall fun w => ?_, ?_⟩
    · obtain ⟨_, e⟩ := parVal_put hw hj w
      exact e
    · split
      · exact differentiableAt_apply _ _
      · exact differentiableAt_const _
  | neg e ih =>
    intro hin
    obtain ⟨G, h1, h2⟩ := ih hin
    refine ⟨fun w => -G w, ?_, h2.fun_neg⟩
    filter_upwards [h1] with w h
    simp [Ex.val, h]
  | bin o a b i1 i2 =>
    intro hin
    obtain ⟨ha, hb, hdiv⟩ := hin
    obtain ⟨g1, p1, p2⟩ := i1 ha
    obtain ⟨g2, q1, q2⟩ := i2 hb
    cases o with
    | add =>
      refine ⟨fun w => g1 w + g2 w, ?_, p2.fun_add q2⟩
      filter_upwards [p1, q1] with t h1 h2
      simp [Ex.val, h1, h2, Ex.opVal]
    | sub =>
      refine ⟨fun w => g1 w - g2 w, ?_, p2.fun_sub q2⟩
      filter_upwards [p1, q1] with t h1 h2
      simp [Ex.val, h1, h2, Ex.opVal]
    | mul =>
      refine ⟨fun w => g1 w * g2 w, ?_, p2.fun_mul q2⟩
      filter_upwards [p1, q1] with t h1 h2
      simp [Ex.val, h1, h2, Ex.opVal]
    | div =>
      have hne : g2 par.now ≠ 0 := by
        intro h0
        have := q1.self_of_nhds
        rw [ParStore.put_now, h0] at this
        exact hdiv rfl this
      refine ⟨fun w => g1 w * (g2 w)⁻¹, ?_, p2.fun_mul (q2.fun_inv hne)⟩
      filter_upwards [p1, q1, q2.continuousAt.eventually_ne hne] with t h1 h2 h3
      simp [Ex.val, h1, h2, Ex.opVal, h3, div_eq_mul_inv]
  | fn name e ih =>
    intro hin
    obtain ⟨hin, hname, y, hy, hdom⟩ := hin
    obtain ⟨g, h1, h2⟩ := ih hin
    obtain ⟨f, df, t1, t2, t3⟩ := C12.table _ hname
    have hgy : g par.now = y := by
      have := h1.self_of_nhds
      rw [ParStore.put_now, hy] at this
      exact (Option.some.inj this).symm
    refine ⟨fun w => f (g w), ?_, ?_⟩
    · have hev := h2.continuousAt.tendsto.eventually (hgy ▸ dom_open hname hdom)
      filter_upwards [h1, hev] with t a1 a2
      simp only [Ex.val, mathPartial, t2, a1, Option.map_some, Option.bind_some]
      rw [if_pos a2]
    · exact (t3 (g par.now) (hgy ▸ hdom)).differentiableAt.comp par.now h2

/-- Derivative of the value of a constraint with respect to a parameter; zero for a fixed one. -/
noncomputable def cder (par : ParStore ℝ) (c : Constr (List Char)) (k : ℕ) : ℝ :=
  if par.ip.getD k false = true then C08.deriv (fparse builtinTab) par c k else 0

/-- The value of a constraint near the current values of the free parameters. -/
theorem value_joint {par : ParStore ℝ} (hw : par.Wf) (c : Constr (List Char)) (hc : c.assigns) (hok : FormOk par c)
    (hv : ∃ y, c.value (fparse builtinTab) par = some y) :
    ∃ G : (Fin par.p.length → ℝ) → ℝ, (∀ᶠ w in nhds par.now, c.value (fparse builtinTab) (par.put w) = some (G w)) ∧
      HasFDerivAt G (dlin fun k => cder par c k) par.now ∧
      ((cmark (fparse builtinTab) par c).vref = false → ∀ w, G w = G par.now) := by
  have hj : ∃ G : (Fin par.p.length → ℝ) → ℝ, (∀ᶠ w in nhds par.now, c.value (fparse builtinTab) (par.put w) = some (G w)) ∧
      DifferentiableAt ℝ G par.now := by
    obtain ⟨y, hy⟩ := hv
    cases hf : c.form with
    | some line =>
      obtain ⟨e, he, hin⟩ := hok line hf
      obtain ⟨G, h1, h2⟩ := val_joint hw e hin
      refine ⟨G, ?_, h2⟩
      filter_upwards [h1] with w h
      exact C05.C05_text_value _ (ParStore.wf_put hw w) c line hf e he _ h
    | none =>
      cases hp : par.parfind (toUnsigned c.idef) with
      | none => simp [Constr.value, hf, ParStore.getpar, hp] at hy
      | some j =>
        have hg := ParStore.getpar_put hw hp
        obtain ⟨hjl, -⟩ := hg par.now
        have hd : DifferentiableAt ℝ (fun w : Fin par.p.length → ℝ => if par.ip.getD j false = true then w ⟨j, hjl⟩ else par.p[j]) par.now := by
          split
          · exact differentiableAt_apply _ _
          · exact differentiableAt_const _
        have hg' : ∀ w, (par.put w).getpar (toUnsigned c.idef) = .ok (if par.ip.getD j false = true then w ⟨j, hjl⟩ else par.p[j]) :=
          fun w => (hg w).2
        cases ht : c.ctype with
        | user => simp [Constr.assigns, hf, ht] at hc
        | ident =>
          refine ⟨_, .of_forall fun w => ?_, hd⟩
          simp only [Constr.value, hf, hg' w, ht]
        | fcomp =>
          refine ⟨_, .of_forall fun w => ?_, hd.const_sub 1⟩
          simp only [Constr.value, hf, hg' w, ht]
        | fsqr =>
          refine ⟨_, .of_forall fun w => ?_, hd.fun_mul hd⟩
          simp only [Constr.value, hf, hg' w, ht]
  have hconst : (cmark (fparse builtinTab) par c).vref = false → ∀ w, c.value (fparse builtinTab) (par.put w) = c.value (fparse builtinTab) par := by
    intro hvr w
    have hget : ∀ m j, par.parfind m = some j → par.ip.getD j false = false → (par.put w).getpar m = par.getpar m := by
      intro m j hj hz
      obtain ⟨h, e⟩ := ParStore.getpar_put hw hj w
      rw [e, if_neg (by rw [hz]; simp)]
      unfold ParStore.getpar
      rw [hj]
      exact (Res.at?_of_lt h).symm
    obtain ⟨y, hy⟩ := hv
    cases hf : c.form with
    | some line =>
      obtain ⟨e, he, hin⟩ := hok line hf
      obtain ⟨x0, d, used, g1, gnd, g2, g3⟩ := gradient par hw e line he hin
      obtain ⟨z, hz⟩ := inside_val e hin
      have hcong : e.val (parVal (par.put w)) mathPartial = some z := by
        rw [← hz]
        refine val_congr _ e fun m hm' => ?_
        cases hp : par.parfind m with
        | none =>
          unfold parVal ParStore.getpar
          rw [hp, show (par.put w).parfind m = none from hp]
        | some j =>
          have hju : j ∈ used := (g2 j).2 ⟨m, hm', (C08.parfind_id hw).1 hp⟩
          unfold parVal
          rw [hget m j hp]
          unfold cmark cres at hvr
          simp only [hf, fparse, g1] at hvr
          rw [List.any_eq_false] at hvr
          obtain ⟨i, hi, rfl⟩ := List.getElem_of_mem hju
          simpa using hvr (used[i], d.getD i 0) (by rw [List.mem_mapIdx]; exact ⟨i, hi, rfl⟩)
      rw [C05.C05_text_value _ (ParStore.wf_put hw w) c line hf e he _ hcong, C05.C05_text_value _ hw c line hf e he _ hz]
    | none =>
      cases hp : par.parfind (toUnsigned c.idef) with
      | none => simp [Constr.value, hf, ParStore.getpar, hp] at hy
      | some j =>
        have hz : par.ip.getD j false = false := by
          unfold cmark cres at hvr
          rw [hf] at hvr
          simp only [hp] at hvr
          cases hct : c.ctype <;> rw [hct] at hvr <;> simpa using hvr
        unfold Constr.value
        rw [hf]
        simp only [hget _ j hp hz]
  have hj' : ∃ G : (Fin par.p.length → ℝ) → ℝ, (∀ᶠ w in nhds par.now, c.value (fparse builtinTab) (par.put w) = some (G w)) ∧
      DifferentiableAt ℝ G par.now ∧ ((cmark (fparse builtinTab) par c).vref = false → ∀ w, G w = G par.now) := by
    by_cases hvr : (cmark (fparse builtinTab) par c).vref = false
    · obtain ⟨y, hy⟩ := hv
      exact ⟨fun _ => y, .of_forall fun w => by rw [hconst hvr w, hy], differentiableAt_const _, fun _ _ => rfl⟩
    · obtain ⟨G, h1, h2⟩ := hj
      exact ⟨G, h1, h2, fun h => absurd h hvr⟩
  obtain ⟨G, h1, h2, h3⟩ := hj'
  -- along each parameter
  have hup : ∀ k : Fin par.p.length, Filter.Tendsto (Function.update par.now k) (nhds (par.now k)) (nhds par.now) := by
    intro k
    have := (hasDerivAt_update par.now k (par.now k)).continuousAt.tendsto
    rwa [Function.update_eq_self] at this
  have hx : ∀ k : Fin par.p.length, par.p[(k : ℕ)]? = some (par.now k) := fun k => List.getElem?_eq_getElem k.2
  have hpart : ∀ k, HasDerivAt (fun t => G (Function.update par.now k t)) (cder par c k) (par.now k) := by
    intro k
    have hev := (hup k).eventually h1
    unfold cder
    by_cases hfr : par.ip.getD k false = true
    · rw [if_pos hfr]
      have hfree : par.ip[(k : ℕ)]? = some true := by
        rw [List.getD] at hfr
        cases hq : par.ip[(k : ℕ)]? with
        | none => simp [hq] at hfr
        | some b => rw [hq] at hfr; simpa using hfr
      obtain ⟨g, g1, g2, -⟩ := value_move hw (hx k) hfree c hc hok hv
      refine g2.congr_of_eventuallyEq ?_
      filter_upwards [hev, g1] with t a1 a2
      rw [ParStore.put_update_free hfr, a2] at a1
      exact (Option.some.inj a1).symm
    · rw [if_neg hfr]
      refine (hasDerivAt_const _ (G par.now)).congr_of_eventuallyEq ?_
      have h0 := h1.self_of_nhds
      filter_upwards [hev] with t a1
      rw [ParStore.put_update_fixed (by simpa using hfr)] at a1
      rw [ParStore.put_now, a1] at h0
      exact Option.some.inj h0
  exact ⟨G, h1, fderiv_of_partials h2 _ hpart, h3⟩

end Pdffit
