import Verif.Props.RefineDemo

/-!
# C02  Fixed parameters are never changed by a refinement
-/

namespace Pdffit.C02
variable {K W : Type} [Field K] [LinearOrder K] [IsStrictOrderedRing K]

/-- Parameter `id` is set and fixed. -/
def IsFixed (par : ParStore K) (id : Nat) : Prop :=
  ∃ i, par.parfind id = some i ∧ par.ip.getD i false = false

/-- **C02** Start a refinement (no refinement is running) and call `refine_step` any number of
times, also after calls that raised.  As long as no call hit undefined behaviour, `getpar` of
every fixed parameter gives the same as before.  The model `th`, all data, the starting values
and the fixed/free pattern are arbitrary. -/
theorem C02_fixed_parameters_unchanged (th : Theory K W) (toler : K) (s : Statics K) (e : Eng K W)
    (hfresh : ¬ (s.fitRunning = true ∧ e.iter ≠ 0)) (n : Nat)
    (_hdef : ∀ o ∈ outN th toler n (s, e), o ≠ .corrupt)
    (id : Nat) (hfix : IsFixed e.par id) :
    (stepN th toler n (s, e)).2.par.getpar id = e.par.getpar id ∧
    IsFixed (stepN th toler n (s, e)).2.par id := by
  have h0 : FixInv e.par s e :=
    ⟨⟨rfl, rfl, rfl, fun _ _ _ => rfl⟩, fun h1 h2 => absurd ⟨h1, h2⟩ hfresh⟩
  have h := (stepN_fix th toler e.par n (s, e) h0).ok
  obtain ⟨i, hi, hf⟩ := hfix
  have hpf : (stepN th toler n (s, e)).2.par.parfind id = e.par.parfind id := by
    unfold ParStore.parfind; rw [h.id]
  refine ⟨?_, i, by rw [hpf, hi], by rw [h.ip]; exact hf⟩
  unfold ParStore.getpar
  rw [hpf, hi]
  simp only [Res.at?]
  by_cases hlt : i < e.par.p.length
  · have hv := h.val i hlt hf
    have hlt' : i < (stepN th toler n (s, e)).2.par.p.length := by rw [h.len]; exact hlt
    rw [List.getElem?_eq_getElem hlt, List.getElem?_eq_getElem hlt']
    simp only [List.getD_eq_getElem?_getD, List.getElem?_eq_getElem hlt,
      List.getElem?_eq_getElem hlt', Option.getD_some] at hv
    rw [hv]
  · have hlt' : ¬ i < (stepN th toler n (s, e)).2.par.p.length := by rw [h.len]; exact hlt
    rw [List.getElem?_eq_none (not_lt.1 hlt), List.getElem?_eq_none (not_lt.1 hlt')]

/-- Same for one whole `refine()` call, whether it finishes or raises. -/
theorem C02_fixed_parameters_unchanged_by_refine (th : Theory K W) (toler : K) (s : Statics K)
    (e : Eng K W) (hfresh : ¬ (s.fitRunning = true ∧ e.iter ≠ 0)) (fuel : Nat)
    (hdef : (refineLoop th toler fuel (s, e)).2.1 ≠ .corrupt)
    (id : Nat) (hfix : IsFixed e.par id) :
    (refineLoop th toler fuel (s, e)).1.2.par.getpar id = e.par.getpar id := by
  -- `refine()` is a number of `refine_step` calls
  have key : ∀ (fuel : Nat) (st : Statics K × Eng K W), (refineLoop th toler fuel st).2.1 ≠ .corrupt →
      ∃ n, (refineLoop th toler fuel st).1 = stepN th toler n st ∧
        ∀ o ∈ outN th toler n st, o ≠ .corrupt := by
    intro fuel
    induction fuel with
    | zero => intro st _; exact ⟨0, rfl, by simp [outN]⟩
    | succ n ih =>
      intro st hc
      rw [refineLoop] at hc ⊢
      dsimp only at hc ⊢
      generalize hr : refineStep th toler st.1 st.2 = r at hc ⊢
      obtain ⟨s1, e1, o⟩ := r
      cases o with
      | more =>
        obtain ⟨m, h1, h2⟩ := ih (s1, e1) hc
        refine ⟨m + 1, ?_, ?_⟩
        · dsimp only; rw [h1, stepN, hr]
        · rw [outN, hr]; simpa using h2
      | done => exact ⟨1, by simp [stepN, hr], by simp [outN, hr]⟩
      | exc x => exact ⟨1, by simp [stepN, hr], by simp [outN, hr]⟩
      | corrupt => simp at hc
  obtain ⟨n, h1, h2⟩ := key fuel (s, e) hdef
  rw [h1]
  exact (C02_fixed_parameters_unchanged th toler s e hfresh n h2 id hfix).1

/-- When the model evaluation is determined by the parameters, no call of the first refinement
up to its end has undefined behaviour, so the hypothesis above is met by the calls of one
refinement that do not raise. -/
theorem C02_no_undefined_behaviour {p0 : ParStore K} {I : W → Prop} {chi : List K → Option K}
    {wn : K} (th : Theory K W) (hd : th.Det p0 I chi wn) (toler : K) (s : Statics K)
    (e : Eng K W) (hk : SameKeys p0 e.par) (hi : I e.world) {c0 : K} (hc : chi e.par.p = some c0)
    (hfresh : ¬ (s.fitRunning = true ∧ e.iter ≠ 0)) (fuel : Nat) :
    (refineLoop th toler fuel (s, e)).2.1 ≠ .corrupt := by
  have key : ∀ (fuel : Nat) (s : Statics K) (e : Eng K W), Mid th p0 I chi wn s e →
      (refineLoop th toler fuel (s, e)).2.1 ≠ .corrupt := by
    intro fuel
    induction fuel with
    | zero => intro s e _; simp [refineLoop]
    | succ n ih =>
      intro s e hm
      have h := refineStep_mid hd toler s e hm.ok.keys hm.ok.inv e.chisq (Or.inr ⟨hm, rfl⟩)
      rw [refineLoop]
      dsimp only at h ⊢
      generalize refineStep th toler s e = r at h ⊢
      obtain ⟨s1, e1, o⟩ := r
      cases o with
      | more => exact ih s1 e1 (h.2.1 rfl).1
      | done => simp
      | exc x => simp
      | corrupt => exact absurd rfl h.1
  cases fuel with
  | zero => simp [refineLoop]
  | succ n =>
    have h := refineStep_mid hd toler s e hk hi c0 (Or.inl ⟨hfresh, hc⟩)
    rw [refineLoop]
    dsimp only at h ⊢
    generalize refineStep th toler s e = r at h ⊢
    obtain ⟨s1, e1, o⟩ := r
    cases o with
    | more => exact key n s1 e1 (h.2.1 rfl).1
    | done => simp
    | exc x => simp
    | corrupt => exact absurd rfl h.1

/-- Non-trivial case: a refinement that moves the free parameter 1 and keeps parameter 2. -/
example : IsFixed (demoEng 3).par 2 ∧ ¬ IsFixed (demoEng 3).par 1 := by
  constructor
  · exact ⟨1, rfl, rfl⟩
  · rintro ⟨i, h, hf⟩
    have : i = 0 := by
      have h' : (demoEng 3).par.parfind 1 = some 0 := rfl
      rw [h'] at h; exact (Option.some.inj h).symm
    subst this; exact absurd hf (by decide)
example : (∀ o ∈ outN demoTheory (1/100000000) 2 ({}, demoEng 3), o ≠ .corrupt) ∧
    (stepN demoTheory (1/100000000) 2 ({}, demoEng 3)).2.par.p.getD 0 0 ≠ 3 := by
  decide +kernel

end Pdffit.C02
