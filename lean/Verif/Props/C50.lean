import Verif.Lemmas.Throws
import Verif.Lemmas.ThrowsModels
import Verif.Model.Cell
import Mathlib.Analysis.SpecialFunctions.Trigonometric.Bounds

/-!
# C50  Every library error reaches Python as the documented exception

`Covered a`: every exception that can leave the engine function called by `a` is translated by the handlers of `a` to the
corresponding Python exception. It fails for five calls.
-/

namespace Pdffit.C50
open Throws

/-- The calls whose handlers are incomplete. -/
def incomplete : List Api := [.calc, .refine, .refine_step, .save_res, .phase_fractions]

/-- **C50 (partial)** All other calls translate every error that they can raise. Missing: the five calls of `incomplete`, for
which the statement is false (`C50_incomplete`). -/
theorem C50_translated_partial (a : Api) (h : a ∉ incomplete) : Covered a := by
  rw [covered_iff]
  have key : ∀ a ∈ allApi, a ∉ incomplete → coveredB a = true := by decide +kernel
  exact key a (mem_allApi a) h

/-- The handlers of the five calls miss an error that can be raised. -/
theorem C50_incomplete (a : Api) (h : a ∈ incomplete) : ¬ Covered a := by
  rw [covered_iff]
  have key : ∀ a ∈ incomplete, ¬ coveredB a = true := by decide +kernel
  exact key a h

/-- For these calls the missing errors are exactly the listed ones; `none` means that the process is terminated,
`system` a `SystemError`. -/
theorem C50_missing_errors (a : Api) (e : Exc) (h : CanThrow (entry a) e) :
    (∃ p, translate a e = some p ∧ Corresponds a e p) ∨
    (a = .calc ∧ e ∈ [Exc.constraint, .structure, .runtime] ∧ translate a e = none) ∨
    (a = .refine ∧ e ∈ [Exc.parse, .structure, .runtime, .other] ∧ translate a e = none) ∨
    (a = .refine_step ∧ e ∈ [Exc.structure, .runtime, .other] ∧ translate a e = some .system) ∨
    (a = .save_res ∧ e = .runtime ∧ translate a e = none) ∨
    (a = .phase_fractions ∧ e = .runtime ∧ translate a e = none) := by
  rw [canThrow_iff] at h
  by_cases hc : a ∈ incomplete
  · simp only [incomplete, List.mem_cons, List.not_mem_nil, or_false] at hc
    rcases hc with rfl | rfl | rfl | rfl | rfl <;> simp only [entry, thr, List.mem_cons, List.not_mem_nil, or_false] at h
    · rcases h with rfl | rfl | rfl | rfl | rfl | rfl
      all_goals first
        | exact .inl ⟨_, rfl, rfl⟩
        | exact .inr (.inl ⟨rfl, by simp, rfl⟩)
    · rcases h with rfl | rfl | rfl | rfl | rfl | rfl
      all_goals first
        | exact .inl ⟨_, rfl, rfl⟩
        | exact .inr (.inr (.inl ⟨rfl, by simp, rfl⟩))
    · rcases h with rfl | rfl | rfl | rfl | rfl | rfl
      all_goals first
        | exact .inl ⟨_, rfl, rfl⟩
        | exact .inr (.inr (.inr (.inl ⟨rfl, by simp, rfl⟩)))
    · rcases h with rfl | rfl | rfl
      all_goals first
        | exact .inl ⟨_, rfl, rfl⟩
        | exact .inr (.inr (.inr (.inr (.inl ⟨rfl, rfl, rfl⟩))))
    · rcases h with rfl | rfl
      all_goals first
        | exact .inl ⟨_, rfl, rfl⟩
        | exact .inr (.inr (.inr (.inr (.inr ⟨rfl, rfl, rfl⟩))))
  · exact .inl (C50_translated_partial a hc e ((canThrow_iff _ _).2 h))

/-! ## The table against the models of the functions -/

/-- The modelled functions raise only errors that the control-flow model contains: reading of structures and data. -/
theorem C50_models_readers {α σ : Type} (E : Stru.Env α σ) (cell : Stru.Hdr α → Geom.Cell) (text : List Char) (e : Exc) :
    (Stru.read E (fun h => Geom.lattice (cell h) >>= fun _ => .ok ()) text = .err e → CanThrow .readStructString e) ∧
    (∀ (S : DataRead.Scan ℝ) n, DataRead.readStream S n text = some (.err e) → CanThrow .readDataString e) ∧
    (∀ r G : List ℝ, ∀ dG, DataRead.readArrays r G dG = .err e → e = .value ∨ CanThrow .readDataArrays e) ∧
    (∀ c, Geom.lattice c = .err e → CanThrow .lattice e) := by
  simp only [canThrow_iff]
  refine ⟨fun h => ?_, fun S n h => ?_, fun r G dG h => ?_, fun c h => Geom.lattice_only c e h⟩
  · exact Stru.read_only E _ (fun h => Res.only_bind (Geom.lattice_only _) fun _ => Res.only_ok _ _) text e h
  · unfold DataRead.readStream at h
    split at h
    · cases h
    · exact DataRead.readRows_only _ _ e (Option.some.inj h)
  · have := DataRead.readArrays_only r G dG e h
    simpa [thr] using this

/-- Scattering factors. -/
theorem C50_models_scat (p : Scat.PT) (l : Scat.Local) (tp : Char) (pat : Scat.Bytes) (v : ℚ) (a : Scat.AtomType) (e : Exc) :
    (Scat.set_scat p l tp pat v = .err e → CanThrow .setScat e) ∧
    (Scat.reset_scat p l pat = .err e → CanThrow .resetScat e) ∧
    (Scat.get_scat p l tp pat = .err e → CanThrow .getScat e) ∧
    (Scat.llookup p l pat = .err e → CanThrow .localLookup e) ∧
    (a.sf tp = .err e → CanThrow .sf e) ∧
    (tp ∈ ['x', 'X', 'n', 'N'] → ∃ x, a.sf tp = .ok x) := by
  simp only [canThrow_iff]
  refine ⟨Scat.set_scat_only p l tp pat v e, Scat.reset_scat_only p l pat e, Scat.get_scat_only p l tp pat e,
    Scat.llookup_only p l pat e, Scat.sf_only a tp e, fun h => ?_⟩
  simp only [List.mem_cons, List.not_mem_nil, or_false] at h
  rcases h with rfl | rfl | rfl | rfl
  all_goals simp [Scat.AtomType.sf]

/-- Calls of the state machine, bonds, parameters, `alloc`; and reading a structure or data set always finds the new phase or set. -/
theorem C50_models_calls {K Φ : Type} [LinearOrder K] (fit0 : Φ) (s : Pdffit.Api.St K Φ) (e : Exc) :
    (∀ ip, (Pdffit.Api.step fit0 s (.setphase ip)).1 = .err e → CanThrow .setphase e) ∧
    (∀ is, (Pdffit.Api.step fit0 s (.setdata is)).1 = .err e → CanThrow .setdata e) ∧
    (∀ ip, (Pdffit.Api.step fit0 s (.psel ip)).1 = .err e → CanThrow .selphase e) ∧
    (∀ ip, (Pdffit.Api.step fit0 s (.pdesel ip)).1 = .err e → CanThrow .pdesel e) ∧
    (∀ ip ij sym f, (Pdffit.Api.step fit0 s (.selType ip ij sym f)).1 = .err e → CanThrow .selectType e) ∧
    (∀ ip ij a f, (Pdffit.Api.step fit0 s (.selIndex ip ij a f)).1 = .err e → CanThrow .selectIndex e) ∧
    (∀ ip ij, (Pdffit.Api.step fit0 s (.selAll ip ij)).1 = .err e → CanThrow .selectAll e) ∧
    (∀ ip ij, (Pdffit.Api.step fit0 s (.selNone ip ij)).1 = .err e → CanThrow .selectAll e) ∧
    (∀ is a b, (Pdffit.Api.step fit0 s (.range is a b)).1 = .err e → CanThrow .range e) ∧
    (∀ p : Pdffit.Api.Ph K, (Pdffit.Api.setphase { s with phases := s.phases ++ [p] } (s.phases.length + 1)).isSome) ∧
    (∀ d : Pdffit.Api.Ds K, (Pdffit.Api.setdata { s with sets := s.sets ++ [d] } (s.sets.length + 1)).isSome) := by
  simp only [canThrow_iff]
  refine ⟨fun ip => Api.lift_only (Api.optSt_only _) e, fun is => Api.lift_only (Api.optSt_only _) e, fun ip => ?_, fun ip => ?_,
    fun ip ij sym f => ?_, fun ip ij a f => ?_, fun ip ij => ?_, fun ip ij => ?_, fun is a b => Api.range_only s is a b e,
    fun p => ?_, fun d => ?_⟩
  · refine (?_ : Res.Only _ _) e
    simp only [Pdffit.Api.step]
    split
    · exact Res.only_err (by simp [thr])
    · split
      · exact Res.only_ok _ _
      · split
        · exact Res.only_err (by simp [thr])
        · exact Res.only_ok _ _
  · refine (?_ : Res.Only _ _) e
    simp only [Pdffit.Api.step]
    split
    · exact Res.only_err (by simp [thr])
    · split
      · exact Res.only_ok _ _
      · split
        · exact Res.only_err (by simp [thr])
        · split
          · exact Res.only_ub _
          · split
            · exact Res.only_ok _ _
            · exact Res.only_ub _
  · refine Api.lift_only (Res.only_bind (Api.checkSel_only s ip ij 1) fun r => ?_) e
    split
    · exact Res.only_err (by simp)
    · exact Res.only_ok _ _
  · exact Api.lift_only (Res.only_bind (Api.checkSel_only s ip ij a) fun r => Res.only_ok _ _) e
  · exact Api.lift_only (Res.only_bind (Api.checkSel_only s ip ij 1) fun r => Res.only_ok _ _) e
  · exact Api.lift_only (Res.only_bind (Api.checkSel_only s ip ij 1) fun r => Res.only_ok _ _) e
  · unfold Pdffit.Api.setphase
    rw [if_neg (by simp)]
    simp
  · unfold Pdffit.Api.setdata
    rw [if_neg (by simp)]
    simp

/-- Bonds, `alloc`, parameters. -/
theorem C50_models_geometry (p : Bonds.Phs) (lk : String → Option ℕ) (e : Exc) :
    (∀ i j, Bonds.bondLengthAtoms p i j = .err e → CanThrow .bondLengthAtoms e) ∧
    (∀ i j k, Bonds.bondAngle p i j k = .err e → CanThrow .bondAngle e) ∧
    (∀ s t lo hi, Bonds.bondLengthTypes lk p s t lo hi = .err e → CanThrow .bondLengthTypes e) ∧
    (∀ qmax qdamp rmin rmax bin, Det.alloc qmax qdamp rmin rmax bin = .err e → CanThrow .alloc e) ∧
    (∀ (q : ParStore ℝ) n, q.getpar n = .err e → CanThrow .getpar e) ∧
    (∀ (q : ParStore ℝ) i b, q.setflag i b = .err e → CanThrow .fixpar e) := by
  simp only [canThrow_iff]
  exact ⟨fun i j => ((Bonds.bondLengthAtoms_only p i j).mono (by simp [thr])) e,
    fun i j k => ((Bonds.bondAngle_only p i j k).mono (by simp [thr])) e,
    fun s t lo hi => ((Bonds.bondLengthTypes_only lk p s t lo hi).mono (by simp [thr])) e,
    fun _ _ _ _ _ => Det.alloc_only _ _ _ _ _ e, fun q n => q.getpar_only n e, fun q i b => q.setflag_only i b e⟩

section
variable {K C : Type} [Field K] [LinearOrder K] [FloorRing K]

/-- Calculation: if the part after `fill_variables` raises what `lattice` and `determine` can raise, `fit_theory` raises only what the
control-flow model says. (A formula whose evaluation is undefined behaviour, C11, is excluded.) -/
theorem C50_models_calculation (S : CStatic (List Char) K C) (tab : Parser.BTab K) (hS : S.parse = Parser.fparse tab)
    (hdet : ∀ v r f d c e, (S.det v r f d c).2 = some e → CanThrow .lattice e ∨ CanThrow .determine e)
    (par : ParStore K) (w : CWorld (List Char) K C) (hub : ∀ c ∈ w.cons, ∀ f, c.form = some f → Parser.parse tab par f ≠ some .ub)
    (e : Exc) (h : (fitTheory S par w).2 = some (.exc e)) : CanThrow .fitTheory e := by
  rw [canThrow_iff]
  simp only [fitTheory] at h
  have h1 := fillVariables_exc S.parse par w.cons w.vars w.dvdp [.parse, .constraint] (by simp)
    (by intro c hc f hf e he; rw [hS] at he; exact Parser.fparse_only tab par f (hub c hc f hf) e he)
  rcases hx : (fillVariables S.parse par w.cons w.vars w.dvdp).2.2.2 with _ | s
  · rw [hx] at h
    simp only [Option.map_eq_some_iff, Stop.exc.injEq] at h
    obtain ⟨e', h2, rfl⟩ := h
    have := hdet _ _ _ _ _ _ h2
    simp only [canThrow_iff, thr, List.mem_cons, List.not_mem_nil, or_false] at this ⊢
    rcases this with h | h | h <;> simp [h]
  · rw [hx] at h
    simp only [Option.some.injEq] at h
    subst h
    have := h1 e hx
    simp only [List.mem_cons, List.not_mem_nil, or_false] at this
    rcases this with h | h <;> simp [h, thr]

/-- Refinement: the same for every step of a refinement of the complete engine model. -/
theorem C50_models_refinement (S : CStatic (List Char) K C) (tab : Parser.BTab K) (hS : S.parse = Parser.fparse tab)
    (hdet : ∀ v r f d c e, (S.det v r f d c).2 = some e → CanThrow .lattice e ∨ CanThrow .determine e)
    (toler : K) (s : Statics K) (g : Eng K (CWorld (List Char) K C)) (e : Exc)
    (h : (refineStep (constrTheory S) toler s g).2.2 = .exc e) : CanThrow .refineStep e := by
  rw [canThrow_iff]
  have hfill : ∀ par (w : CWorld (List Char) K C) s, (fillVariables S.parse par w.cons w.vars w.dvdp).2.2.2 = some s →
      s.toExc ∈ thr .refineStep := by
    intro par w s hs
    cases s with
    | ub => simp [Stop.toExc, thr]
    | exc e =>
      refine fillVariables_exc S.parse par w.cons w.vars w.dvdp (thr .refineStep) (by simp [thr]) ?_ e hs
      intro c hc f hf e he
      rw [hS] at he
      by_cases hu : Parser.parse tab par f = some .ub
      · simp only [Parser.fparse, hu, Except.error.injEq] at he
        simp [← he, thr]
      · have := Parser.fparse_only tab par f hu e he
        simp only [List.mem_cons, List.not_mem_nil, or_false] at this
        rcases this with h | h <;> simp [h, thr]
  refine refineStep_exc (constrTheory S) _ (by simp [thr]) ?_ ?_ toler s g e h
  · intro par w e he
    simp only [constrTheory, fitSetup, Option.map_eq_some_iff] at he
    obtain ⟨st, h1, rfl⟩ := he
    rcases hx : (fillVariables S.parse par w.cons w.vars w.dvdp).2.2.2 with _ | s
    · rw [hx] at h1
      simp only at h1
      split at h1
      · cases h1; simp [Stop.toExc, thr]
      · cases h1
    · rw [hx] at h1
      cases h1
      exact hfill par w _ hx
  · intro par w e he
    simp only [constrTheory, fitTheory, Option.map_eq_some_iff] at he
    obtain ⟨st, h1, rfl⟩ := he
    rcases hx : (fillVariables S.parse par w.cons w.vars w.dvdp).2.2.2 with _ | s
    · rw [hx] at h1
      simp only [Option.map_eq_some_iff] at h1
      obtain ⟨e', h2, rfl⟩ := h1
      have := hdet _ _ _ _ _ _ h2
      simp only [canThrow_iff, thr, List.mem_cons, List.not_mem_nil, or_false] at this
      rcases this with h | h | h <;> simp [Stop.toExc, h, thr]
    · rw [hx] at h1
      cases h1
      exact hfill par w _ hx

end

/-! ## Witnesses -/

/-- A calculation with the variable number 0 constrained to the parameter 7 that has not been set. -/
def undefinedPar : CWorld (List Char) ℚ Unit := ⟨fun _ => 0, constrainInt [] 0 7 .ident, .empty, [], ()⟩

/-- **C50 is false** for `calc`: a constraint to an undefined parameter raises `constraintError` in `fit_theory`, which leaves the binding. -/
theorem C50_calc_undefined_parameter (S : CStatic (List Char) ℚ Unit) :
    (fitTheory S {} undefinedPar).2 = some (.exc .constraint) ∧ CanThrow .calc .constraint ∧ translate .calc .constraint = none :=
  ⟨rfl, (canThrow_iff _ _).2 (by decide), rfl⟩

/-- The cell with three angles of 120 degrees. -/
noncomputable def flat : Geom.Cell := ⟨fun _ => 5, fun _ => 120⟩

/-- **C50 is false** for `calc` and `refine_step` after the angles have been set to 120 degrees: `lattice` raises
`structureError`; `calc` lets it escape, `refine_step` returns NULL without a Python exception. -/
theorem C50_flat_cell : Geom.lattice flat = .err .structure ∧ CanThrow .calc .structure ∧ translate .calc .structure = none ∧
    CanThrow .refineStep .structure ∧ translate .refine_step .structure = some .system := by
  refine ⟨?_, (canThrow_iff _ _).2 (by decide), rfl, (canThrow_iff _ _).2 (by decide), rfl⟩
  have h : Parser.bcosd 120 = -1 / 2 := by
    have e : Parser.rad * 120 = Real.pi - Real.pi / 3 := by
      simp only [Parser.rad]; ring
    rw [Parser.bcosd, e, Real.cos_pi_sub, Real.cos_pi_div_three]
    norm_num
  unfold Geom.lattice
  rw [if_pos]
  simp only [Geom.voll, flat, h, Geom.eps]
  norm_num

/-- **C50 is false** for data sets of an unknown scattering type: `sf` raises `runtime_error`, which `calc`, `phase_fractions` and `save_res`
let escape and `refine_step` swallows. -/
theorem C50_bad_scattering_type (a : Scat.AtomType) : a.sf 'Q' = .err .runtime ∧
    (∀ x ∈ [Api.calc, .phase_fractions, .save_res], CanThrow (entry x) .runtime ∧ translate x .runtime = none) ∧
    CanThrow .refineStep .runtime ∧ translate .refine_step .runtime = some .system := by
  refine ⟨by simp [Scat.AtomType.sf], ?_, (canThrow_iff _ _).2 (by decide), rfl⟩
  intro x hx
  simp only [List.mem_cons, List.not_mem_nil, or_false] at hx
  rcases hx with rfl | rfl | rfl <;> exact ⟨(canThrow_iff _ _).2 (by decide), rfl⟩

/-- `constrain` with a formula on a variable that is not assigned gives a `SystemError` instead of `unassignedError`; with a
parameter number it is right. -/
theorem C50_constrain_unassigned : constrainStrReply true false = some .system ∧ constrainIntReply true false = some .unassignedError :=
  ⟨rfl, rfl⟩

example : Covered .read_struct := C50_translated_partial _ (by decide)

/-- An unknown element in a structure file is a `structureError`. -/
example : CanThrow .readStruct .value ∧ translate .read_struct .value = some .structureError :=
  ⟨(canThrow_iff _ _).2 (by decide), rfl⟩

end Pdffit.C50
