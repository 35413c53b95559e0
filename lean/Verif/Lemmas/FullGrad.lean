import Verif.Lemmas.ParamJoint
import Verif.Lemmas.FullMix
import Verif.Props.C75

/-!
# The gradient of chi-square for the fit as a whole
-/

namespace Pdffit.Full
open Geom Det Deriv Layout Conf DMat C47 Filter _root_.Pdffit.Parser C75

namespace Input
variable {I : Input}

/-- The variable is given by a constraint with a free parameter. -/
def Moved (I : Input) (cons : List (Constr (List Char))) (par : ParStore ℝ) (x : RVar) : Prop :=
  ∃ c ∈ cons, c.addr = I.addr x ∧ C53.UsesFree textIds par c

/-- The calculation is smooth at the parameters `par`, and the formulas for the derivatives are right there (C44, C62): formulas inside
their domains, no coordinate at a jump of the wrapping, no refined angle, no choice of the program at a threshold. -/
structure Smooth (I : Input) (cons : List (Constr (List Char))) (v0 : ℕ → ℝ) (par : ParStore ℝ) : Prop where
  form : ∀ c ∈ cons, FormOk par c
  wrap : ∀ c ∈ cons, ∀ n, I.icc c.addr = some n → ∀ m : ℤ, m ≠ 0 → c.value (fparse builtinTab) par ≠ some (n * m)
  angles : ∀ ip, ip < I.phases.length → ∀ k, ¬I.Moved cons par (.win ip k)
  phases : ∀ (is : ℕ) s, I.sets[is]? = some s → ∀ (ip : ℕ) y, (I.template s)[ip]? = some (some y) →
    PhOk (I.Moved cons par) (I.dat (structureAt I cons v0 par) is s) ip (phaseFrom (I.val (structureAt I cons v0 par)) ip y.1) y.2
  good : ∀ (is : ℕ) s, I.sets[is]? = some s → ∀ x, C47.Exists I.natoms I.nset x → I.Moved cons par x →
    C44.Foreign is (I.sel (structureAt I cons v0 par) s) x ∨
      C62.Good (I.dat (structureAt I cons v0 par) is s) (I.sel (structureAt I cons v0 par) s) x

section
variable {cons : List (Constr (List Char))} {v0 : ℕ → ℝ}

theorem at_con (hF : Fair I cons) {par : ParStore ℝ} {c : Constr (List Char)} (hc : c ∈ cons) {y : ℝ}
    (hy : c.value (fparse builtinTab) par = some y) : structureAt I cons v0 par c.addr = C62.wrap1 I.icc c.addr y := by
  unfold structureAt
  rw [C62.wrapVars_eq]
  congr 1
  cases hf : cons.find? fun d => d.addr == c.addr with
  | none =>
    rw [List.find?_eq_none] at hf
    exact absurd (hf c hc) (by simp)
  | some d =>
    have hm := List.mem_of_find?_eq_some hf
    have ha : d.addr = c.addr := by simpa using List.find?_some hf
    have : d = c := by
      obtain ⟨i, hi, rfl⟩ := List.getElem_of_mem hc
      obtain ⟨j, hj, rfl⟩ := List.getElem_of_mem hm
      have := (List.Nodup.getElem_inj_iff hF.one (i := j) (j := i) (hi := by simpa using hj) (hj := by simpa using hi)).1
        (by simpa using ha)
      subst this
      rfl
    subst this
    dsimp only
    rw [hy]
    rfl

theorem at_other {par : ParStore ℝ} {a : ℕ} (h : ∀ c ∈ cons, c.addr ≠ a) : structureAt I cons v0 par a = C62.wrap1 I.icc a (v0 a) := by
  unfold structureAt
  rw [C62.wrapVars_eq]
  congr 1
  have : cons.find? (fun d => d.addr == a) = none := by
    rw [List.find?_eq_none]
    intro c hc
    simpa using h c hc
  rw [this]

theorem div0_iff (v : ℕ → ℝ) (is : ℕ) (s : SetIn) (x : RVar) (hx : C47.Exists I.natoms I.nset x) :
    Div0 (I.dat v is s) is x (I.sel v s) ↔
      (x = .dscale is ∨ ∃ ip ia y, x = .occ ip ia ∧ (I.template s)[ip]? = some (some y)) ∧ I.val v x = 0 := by
  unfold Div0
  constructor
  · rintro (⟨rfl, h⟩ | ⟨ip, ia, ph, σ, rfl, h1, h2⟩)
    · exact ⟨.inl rfl, h⟩
    · have hk := known (I := I) v s ip _ h1
      unfold sel selFrom at h1
      rw [List.getElem?_mapIdx] at h1
      cases hp : (I.template s)[ip]? with
      | none => rw [hp] at h1; cases h1
      | some o =>
        cases o with
        | none => rw [hp] at h1; cases h1
        | some y =>
          rw [hp] at h1
          simp only [Option.map_some, Option.some.injEq, Prod.mk.injEq] at h1
          refine ⟨.inr ⟨ip, ia, y, rfl, hp⟩, ?_⟩
          obtain ⟨rfl, -⟩ := h1
          obtain ⟨n, e1, e2⟩ := hx
          rw [Nat.zero_add, e1] at hk
          have hl : ia < y.1.atom.length := by
            have : n = y.1.atom.length := by simpa [phaseFrom] using hk
            omega
          rw [atm_from, if_pos hl] at h2
          exact h2
  · rintro ⟨rfl | ⟨ip, ia, y, rfl, h1⟩, h2⟩
    · exact .inl ⟨rfl, h2⟩
    · have hsel : (I.sel v s)[ip]? = some (some (phaseFrom (I.val v) ip y.1, y.2)) := selFrom_get h1
      refine .inr ⟨ip, ia, _, _, rfl, hsel, ?_⟩
      have hk := known (I := I) v s ip _ hsel
      obtain ⟨n, e1, e2⟩ := hx
      rw [Nat.zero_add, e1] at hk
      have hl : ia < y.1.atom.length := by
        have : n = y.1.atom.length := by simpa [phaseFrom] using hk
        omega
      rw [atm_from, if_pos hl]
      exact h2

theorem lattice_win {c c' : Cell} (h : c.win = c'.win) (hm : ∃ m, lattice c = .ok m) : ∃ m, lattice c' = .ok m := by
  obtain ⟨m, hm⟩ := hm
  unfold lattice at hm ⊢
  have e : voll c' = voll c := by
    unfold voll
    rw [h]
  rw [e]
  split at hm
  · cases hm
  · rename_i hc
    rw [if_neg hc]
    exact ⟨_, rfl⟩

set_option maxHeartbeats 1000000 in
/-- Near smooth parameters the calculation has results, and the derivatives of the calculated values with respect to the free parameters
are the numbers used for the least-squares step. -/
theorem curve_grad (H : I.Ok) (hF : Fair I cons) {par : ParStore ℝ} (hw : par.Wf)
    (hv : ∀ c ∈ cons, ∃ y, c.value (fparse builtinTab) par = some y) (hn : Num I (structureAt I cons v0 par))
    (hS : I.Smooth cons v0 par) (tv : ℕ → RVar)
    (htv : ∀ (c : ℕ) x, cons[c]? = some x → C47.Exists I.natoms I.nset (tv c) ∧ x.addr = I.addr (tv c)) :
    (∀ᶠ w in nhds par.now, (∀ c ∈ cons, ∃ y, c.value (fparse builtinTab) (par.put w) = some y) ∧
      Num I (structureAt I cons v0 (par.put w))) ∧
    (∀ x, ContinuousAt (fun w => I.val (structureAt I cons v0 (par.put w)) x) par.now) ∧
    ∀ (is : ℕ) s, I.sets[is]? = some s → ∀ i ∈ grid s.d.D.nfmin s.d.D.nfmax,
      HasFDerivAt (fun w => I.curveOf (structureAt I cons v0 (par.put w)) is s i)
        (dlin fun k => if par.ip.getD k false = true then
          I.slope (structureAt I cons v0 par) is s cons.length tv (dvar cons par) i k else 0) par.now := by
  classical
  set N := cons.length with hN
  set V := structureAt I cons v0 with hV
  have hmem : ∀ c : Fin N, cons[c] ∈ cons := fun c => List.getElem_mem c.2
  -- the constraints
  have hj := fun c : Fin N => value_joint hw cons[c] (hF.assigns _ (hmem c)) (hS.form _ (hmem c)) (hv _ (hmem c))
  choose G hG1 hG2 hG3 using hj
  have hfr : ∀ c : Fin N, ¬C53.UsesFree textIds par cons[c] → (∀ w, G c w = G c par.now) ∧ ∀ k : Fin par.p.length, cder par cons[c] k = 0 := by
    intro c hc
    have hvr : (cmark (fparse builtinTab) par cons[c]).vref = false := by
      by_contra h
      rw [Bool.not_eq_false] at h
      obtain ⟨y, hy⟩ := hv _ (hmem c)
      exact hc ((C53.cmark_vref (fparse_parserUses builtinTab) hw (cres_of_value hy)).1 h)
    refine ⟨hG3 c hvr, fun k => ?_⟩
    have h1 : HasFDerivAt (G c) (0 : (Fin par.p.length → ℝ) →L[ℝ] ℝ) par.now := by
      have := hasFDerivAt_const (G c par.now) par.now (𝕜 := ℝ)
      exact this.congr_of_eventuallyEq (.of_forall fun w => hG3 c hvr w)
    have h2 := congrArg (fun f => f (Pi.single k 1)) ((hG2 c).unique h1)
    simpa [dlin_apply, Pi.single_apply] using h2
  have hGall : ∀ᶠ w in nhds par.now, ∀ c : Fin N, cons[c].value (fparse builtinTab) (par.put w) = some (G c w) := by
    rw [Filter.eventually_all]
    exact hG1
  have hG0 : ∀ c : Fin N, cons[c].value (fparse builtinTab) par = some (G c par.now) := by
    intro c
    have := (hG1 c).self_of_nhds
    rwa [ParStore.put_now] at this
  let wt : (Fin par.p.length → ℝ) → Fin N → ℝ := fun w c => C62.wrap1 I.icc cons[c].addr (G c w)
  let On : RVar → Fin N → Prop := fun x c => cons[c].addr = I.addr x ∧ C53.UsesFree textIds par cons[c]
  let valW : (Fin N → ℝ) → RVar → ℝ := fun u x => if h : ∃ c, On x c then u h.choose else I.val (V par) x
  have inj : ∀ c d : Fin N, cons[c].addr = cons[d].addr → c = d := by
    intro c d h
    have := (List.Nodup.getElem_inj_iff hF.one (i := c) (j := d) (hi := by rw [List.length_map]; exact c.2) (hj := by rw [List.length_map]; exact d.2)).1
      (by simpa using h)
    exact Fin.ext this
  have valW_on : ∀ u x c, On x c → valW u x = u c := by
    intro u x c hc
    have h : ∃ c, On x c := ⟨c, hc⟩
    simp only [valW, dif_pos h]
    congr 1
    exact inj _ _ (h.choose_spec.1.trans hc.1.symm)
  have valW_off : ∀ u x, ¬I.Moved cons par x → valW u x = I.val (V par) x := by
    intro u x hx
    have h : ¬∃ c, On x c := by
      rintro ⟨c, h1, h2⟩
      exact hx ⟨_, hmem c, h1, h2⟩
    simp only [valW, dif_neg h]
  have moved_on : ∀ x, I.Moved cons par x → ∃ c, On x c := by
    rintro x ⟨c, hc, h1, h2⟩
    obtain ⟨i, hi, rfl⟩ := List.getElem_of_mem hc
    exact ⟨⟨i, hi⟩, h1, h2⟩
  have hvals : ∀ w, (∀ c : Fin N, cons[c].value (fparse builtinTab) (par.put w) = some (G c w)) →
      I.val (V (par.put w)) = valW (wt w) := by
    intro w hw'
    funext x
    by_cases hx : I.Moved cons par x
    · obtain ⟨c, hc⟩ := moved_on x hx
      rw [valW_on _ x c hc]
      unfold val
      rw [← hc.1, hV, at_con hF (hmem c) (hw' c)]
    · rw [valW_off _ x hx]
      unfold val
      by_cases hex : ∃ c : Fin N, cons[c].addr = I.addr x
      · obtain ⟨c, hc⟩ := hex
        rw [← hc, hV, at_con hF (hmem c) (hw' c), at_con hF (hmem c) (hG0 c)]
        rw [(hfr c fun h => hx ⟨_, hmem c, hc, h⟩).1 w]
      · have h : ∀ c ∈ cons, c.addr ≠ I.addr x := by
          intro c hc e
          obtain ⟨i, hi, rfl⟩ := List.getElem_of_mem hc
          exact hex ⟨⟨i, hi⟩, e⟩
        rw [hV, at_other h, at_other h]
  have hv0 : valW (wt par.now) = I.val (V par) := by
    have := hvals par.now (by rw [ParStore.put_now]; exact hG0)
    rw [ParStore.put_now] at this
    exact this.symm
  have hwt : ∀ c : Fin N, HasFDerivAt (fun w => wt w c) (dlin fun k => cder par cons[c] k) par.now := by
    intro c
    simp only [wt, C62.wrap1, wrapVars]
    cases hi : I.icc cons[c].addr with
    | none => exact hG2 c
    | some n =>
      have h1 : HasDerivAt (fun t => fmodK t n) 1 (G c par.now) := by
        refine fmod_deriv (g := fun t => t) (icc_pos H _ n hi) (hasDerivAt_id' _) fun m hm e => ?_
        have := hS.wrap _ (hmem c) n hi m hm
        rw [hG0 c, e] at this
        exact this rfl
      have := h1.comp_hasFDerivAt par.now (hG2 c)
      rw [one_smul] at this
      exact this
  have hwtd : HasFDerivAt wt (ContinuousLinearMap.pi fun c => dlin fun k : Fin par.p.length => cder par cons[c] k) par.now :=
    hasFDerivAt_pi.2 hwt
  have hwc : ContinuousAt wt par.now := hwtd.continuousAt
  have hvd : ∀ x, DifferentiableAt ℝ (fun u => valW u x) (wt par.now) := fun x => by
    by_cases h : ∃ c, On x c
    · simp only [valW, dif_pos h]
      exact differentiableAt_apply _ _
    · simp only [valW, dif_neg h]
      exact differentiableAt_const _
  have hvm : ∀ x, ¬I.Moved cons par x → ∀ u, valW u x = valW (wt par.now) x := fun x hx u => by
    rw [valW_off _ x hx, valW_off _ x hx]
  -- one data set
  have key : ∀ (is : ℕ) s, I.sets[is]? = some s → ∃ F : (Fin N → ℝ) → ℤ → ℝ,
      (∀ᶠ u in nhds (wt par.now), determine (dataFrom (valW u) is s.d.D) (selFrom (valW u) (I.template s)) = .ok (some (F u))) ∧
      ∀ i ∈ grid s.d.D.nfmin s.d.D.nfmax, HasFDerivAt (fun u => F u i) (dlin fun c : Fin N =>
        if C53.UsesFree textIds par cons[c] then filt (I.dat (V par) is s) (column (I.dat (V par) is s) is (tv c) (I.sel (V par) s)) i
        else 0) (wt par.now) := by
    intro is s hs
    have o := dat_ok H (List.mem_of_getElem? hs) (V par) is
    have his : is < I.nset := (List.getElem?_eq_some_iff.1 hs).1
    have hdet := hn.curve hs
    have hb := (determine_some o hdet).1
    have hkn := known (I := I) (V par) s
    have hknT : Known I.natoms (I.template s) 0 := by
      intro ip y hy
      have := hkn ip _ (selFrom_get (val := I.val (V par)) hy)
      simpa [phaseFrom] using this
    have hbx : ∀ (ip : ℕ) (y : PPhase × Sel), (I.template s)[ip]? = some (some y) →
        ¬Bad (dataFrom (valW (wt par.now)) is s.d.D) (phaseFrom (valW (wt par.now)) ip y.1) y.2 := fun ip y hy => by
      rw [hv0]
      exact hb _ (List.mem_of_getElem? (selFrom_get (val := I.val (V par)) hy))
    have hPx : ∀ (ip : ℕ) (y : PPhase × Sel), (I.template s)[ip]? = some (some y) →
        PhOk (I.Moved cons par) (dataFrom (valW (wt par.now)) is s.d.D) ip (phaseFrom (valW (wt par.now)) ip y.1) y.2 := fun ip y hy => by
      rw [hv0]
      exact hS.phases is s hs ip y hy
    obtain ⟨F, hF1, hF2⟩ := joint hvd hvm is s.d.D (by rw [hv0]; exact o) (I.template s) hbx hPx
    refine ⟨F, hF1, fun i hi => ?_⟩
    rw [mem_grid] at hi
    have k2 : (I.dat (V par) is s).ncmin ≤ s.d.D.nfmin := ncmin_le_nfmin (D := I.dat (V par) is s) o
    have k4 : s.d.D.nfmax ≤ (I.dat (V par) is s).ncmax := nfmax_le_ncmax (D := I.dat (V par) is s) o
    have hi1 : (I.dat (V par) is s).ncmin ≤ i := by omega
    have hi2 : i ≤ (I.dat (V par) is s).ncmax := by omega
    refine fderiv_of_partials (hF2 i hi1 hi2) _ fun c => ?_
    have hup : ∀ᶠ t in nhds (wt par.now c), determine (dataFrom (valW (Function.update (wt par.now) c t)) is s.d.D)
        (selFrom (valW (Function.update (wt par.now) c t)) (I.template s)) = .ok (some (F (Function.update (wt par.now) c t))) := by
      have hcu : ContinuousAt (Function.update (wt par.now) c) (wt par.now c) := (hasDerivAt_update (wt par.now) c (wt par.now c)).continuousAt
      have hF' : ∀ᶠ u in nhds (Function.update (wt par.now) c (wt par.now c)),
          determine (dataFrom (valW u) is s.d.D) (selFrom (valW u) (I.template s)) = .ok (some (F u)) := by
        rw [Function.update_eq_self]
        exact hF1
      exact hcu.eventually hF'
    have hcx : cons[(c : ℕ)]? = some cons[c] := List.getElem?_eq_getElem c.2
    obtain ⟨hte, hta⟩ := htv c _ hcx
    by_cases huf : C53.UsesFree textIds par cons[c]
    · rw [if_pos huf]
      have hon : On (tv c) c := ⟨hta, huf⟩
      have hmv : I.Moved cons par (tv c) := ⟨_, hmem c, hta, huf⟩
      have hupd : ∀ t u, C47.Exists I.natoms I.nset u → valW (Function.update (wt par.now) c t) u =
          Function.update (I.val (V par)) (tv c) t u := by
        intro t u hu
        by_cases huv : u = tv c
        · subst huv
          rw [Function.update_self, valW_on _ _ c hon, Function.update_self]
        · rw [Function.update_of_ne huv, ← hv0]
          by_cases hu' : I.Moved cons par u
          · obtain ⟨d, hd⟩ := moved_on u hu'
            rw [valW_on _ _ d hd, valW_on _ _ d hd, Function.update_of_ne]
            rintro rfl
            exact huv (H.sep _ _ hu hte (hd.1.symm.trans hta))
          · rw [valW_off _ _ hu', valW_off _ _ hu']
      have hup' : ∀ᶠ t in nhds (wt par.now c), determine (updData (tv c) t is (I.dat (V par) is s)) (updSel (tv c) t (I.sel (V par) s)) =
          .ok (some (F (Function.update (wt par.now) c t))) := by
        filter_upwards [hup] with t ht
        rw [← ht, selFrom_congr (hupd t) hknT, dataFrom_congr (hupd t) his, selFrom_update, dataFrom_update]
        rfl
      by_cases hfo : C44.Foreign is (I.sel (V par) s) (tv c)
      · have hz : filt (I.dat (V par) is s) (column (I.dat (V par) is s) is (tv c) (I.sel (V par) s)) i = 0 := by
          obtain ⟨⟨col, hc1, hc2⟩, -⟩ := C44.foreign o hdet is hfo
          obtain ⟨col', hc1', hc2'⟩ := fitA_of o is (tv c) (I.sel (V par) s) hb (by
            intro hd
            rw [div0_iff _ _ _ _ hte] at hd
            unfold C44.Foreign at hfo
            rcases hd.1 with e | ⟨ip, ia, y, e, e'⟩
            · rw [e] at hfo
              exact hfo.1 rfl
            · rw [e] at hfo
              exact hfo _ (selFrom_get e'))
          rw [hc1] at hc1'
          cases hc1'
          rw [← hc2' i hi1 hi2, hc2 i hi1 hi2]
        rw [hz]
        obtain ⟨-, hc3⟩ := C44.foreign o hdet is hfo
        refine (hasDerivAt_const (wt par.now c) (I.curveOf (V par) is s i)).congr_of_eventuallyEq ?_
        filter_upwards [hup'] with t ht
        rw [hc3 t] at ht
        simp only [Res.ok.injEq, Option.some.injEq] at ht
        rw [← ht]
      · have hgd := (hS.good is s hs (tv c) hte hmv).resolve_left hfo
        obtain ⟨col, F', hc1, hc2, hc3⟩ := C62.good_correct o hdet is hkn (moves := I.Moved cons par) (fun ip y hy => by
          obtain ⟨y', e1, e2⟩ : ∃ y', (I.template s)[ip]? = some (some y') ∧ y = (phaseFrom (I.val (V par)) ip y'.1, y'.2) := by
            unfold sel selFrom at hy
            rw [List.getElem?_mapIdx] at hy
            cases hp : (I.template s)[ip]? with
            | none => rw [hp] at hy; cases hy
            | some o =>
              cases o with
              | none => rw [hp] at hy; cases hy
              | some z =>
                rw [hp] at hy
                cases hy
                exact ⟨z, rfl, rfl⟩
          subst e2
          exact hS.phases is s hs ip y' e1) (tv c) hte hmv hfo hgd
        have hval : value (I.dat (V par) is s) is (I.sel (V par) s) (tv c) = wt par.now c := by
          unfold dat sel
          rw [value_from (I.val (V par)) is s.d.D (I.template s) hknT (tv c) hte hfo, ← hv0]
          exact valW_on _ _ c hon
        rw [hval] at hc2 hc3
        have hcol : filt (I.dat (V par) is s) (column (I.dat (V par) is s) is (tv c) (I.sel (V par) s)) i = col i := by
          obtain ⟨col', hc1', hc2'⟩ := fitA_of o is (tv c) (I.sel (V par) s) hb (by
            intro hd
            rw [div0_iff _ _ _ _ hte] at hd
            rcases hd.1 with e | ⟨ip, ia, y, e, e'⟩
            · rw [e] at hgd hd
              exact hgd hd.2
            · rw [e] at hgd hd hte
              have := hgd _ (selFrom_get (val := I.val (V par)) e')
              obtain ⟨n, q1, q2⟩ := hte
              have hk := hknT ip y e'
              rw [Nat.zero_add, q1] at hk
              rw [atm_from, if_pos (by rw [Option.some.injEq] at hk; omega)] at this
              exact this hd.2)
          rw [hc1] at hc1'
          cases hc1'
          exact (hc2' i hi1 hi2).symm
        rw [hcol]
        refine (hc3 i hi1 hi2).congr_of_eventuallyEq ?_
        filter_upwards [hup', hc2] with t h1 h2
        rw [h1] at h2
        simp only [Res.ok.injEq, Option.some.injEq] at h2
        rw [h2]
    · rw [if_neg huf]
      have hsame : ∀ t, valW (Function.update (wt par.now) c t) = valW (wt par.now) := by
        intro t
        funext u
        by_cases hu' : I.Moved cons par u
        · obtain ⟨d, hd⟩ := moved_on u hu'
          rw [valW_on _ _ d hd, valW_on _ _ d hd, Function.update_of_ne]
          rintro rfl
          exact huf hd.2
        · rw [valW_off _ _ hu', valW_off _ _ hu']
      refine (hasDerivAt_const (wt par.now c) (F (wt par.now) i)).congr_of_eventuallyEq ?_
      filter_upwards [hup] with t ht
      rw [hsame t, hF1.self_of_nhds] at ht
      simp only [Res.ok.injEq, Option.some.injEq] at ht
      rw [ht]
  choose F hF1 hF2 using key
  have hdet : ∀ᶠ w in nhds par.now, ∀ (is : ℕ) s (hs : I.sets[is]? = some s),
      determine (I.dat (V (par.put w)) is s) (I.sel (V (par.put w)) s) = .ok (some (F is s hs (wt w))) := by
    have h1 : ∀ᶠ w in nhds par.now, ∀ is : Fin I.sets.length, ∀ (hs : I.sets[(is : ℕ)]? = some I.sets[is]),
        determine (dataFrom (valW (wt w)) is I.sets[is].d.D) (selFrom (valW (wt w)) (I.template I.sets[is])) =
          .ok (some (F is I.sets[is] hs (wt w))) := by
      rw [Filter.eventually_all]
      intro is
      filter_upwards [hwc.eventually (hF1 is _ (List.getElem?_eq_getElem is.2))] with w h2 _
      exact h2
    filter_upwards [h1, hGall] with w h2 h3 is s hs
    obtain ⟨hl, he⟩ := List.getElem?_eq_some_iff.1 hs
    subst he
    unfold dat sel
    rw [hvals w h3]
    exact h2 ⟨is, hl⟩ hs
  refine ⟨?_, fun x => ?_, fun is s hs i hi => ?_⟩
  · filter_upwards [hGall, hdet] with w h1 h2
    refine ⟨fun c hc => ?_, fun ip hip => ?_, fun is s hs => ⟨_, h2 is s hs⟩⟩
    · obtain ⟨k, hk, rfl⟩ := List.getElem_of_mem hc
      exact ⟨_, h1 ⟨k, hk⟩⟩
    · refine lattice_win ?_ (hn.lat ip hip)
      funext k
      show I.val (V par) (.win ip k) = I.val (V (par.put w)) (.win ip k)
      rw [hvals w h1, valW_off _ _ (hS.angles ip hip k)]
  · have h1 : ContinuousAt (fun w => valW (wt w) x) par.now := by
      have := (hvd x).continuousAt
      exact ContinuousAt.comp (f := wt) (g := fun u => valW u x) this hwc
    refine h1.congr ?_
    filter_upwards [hGall] with w h2
    rw [hvals w h2]
  · have h1 := (hF2 is s hs i hi).comp par.now hwtd
    have h2 : HasFDerivAt (fun w => I.curveOf (V (par.put w)) is s i) ((dlin fun c : Fin N =>
        if C53.UsesFree textIds par cons[c] then filt (I.dat (V par) is s) (column (I.dat (V par) is s) is (tv c) (I.sel (V par) s)) i
        else 0).comp (ContinuousLinearMap.pi fun c => dlin fun k : Fin par.p.length => cder par cons[c] k)) par.now := by
      refine h1.congr_of_eventuallyEq ?_
      filter_upwards [hdet] with w h3
      unfold curveOf
      rw [h3 is s hs]
      rfl
    convert h2 using 1
    ext u
    rw [ContinuousLinearMap.comp_apply, dlin_apply, dlin_apply]
    simp only [ContinuousLinearMap.pi_apply, dlin_apply, Finset.mul_sum]
    rw [Finset.sum_comm]
    refine Finset.sum_congr rfl fun k _ => ?_
    by_cases hfk : par.ip.getD k false = true
    · rw [if_pos hfk]
      unfold slope
      rw [Finset.sum_mul]
      refine Finset.sum_congr rfl fun c _ => ?_
      have hd : dvar cons par c k = cder par cons[c] k := by
        unfold dvar cder
        rw [if_pos hfk, List.getElem?_eq_getElem c.2]
        rfl
      rw [hd]
      by_cases huf : C53.UsesFree textIds par cons[c]
      · rw [if_pos huf, mul_assoc]
      · rw [if_neg huf, (hfr c huf).2 k]
        simp
    · rw [if_neg hfk, zero_mul]
      refine (Finset.sum_eq_zero fun c _ => ?_).symm
      unfold cder
      rw [if_neg hfk]
      simp

end
end Input
end Pdffit.Full
