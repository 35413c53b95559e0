import Verif.Lemmas.DerivConf
import Verif.Lemmas.ConstrVal
import Verif.Props.Text
import Verif.Props.C30Mat
import Mathlib.Analysis.Calculus.Deriv.Pi
import Mathlib.Analysis.Calculus.Deriv.Prod

/-! # The chain rule from parameters over variables to the curve -/

namespace Pdffit.Deriv
open Geom Bonds Det Layout Filter Conf DMat

/-! ## Calculus -/

theorem chain {n : ℕ} {f : (Fin n → ℝ) → ℝ} {w₀ : Fin n → ℝ} (hd : DifferentiableAt ℝ f w₀) (a : Fin n → ℝ)
    (ha : ∀ c, HasDerivAt (fun t => f (Function.update w₀ c t)) (a c) (w₀ c)) (w : ℝ → Fin n → ℝ) (w' : Fin n → ℝ) {t₀ : ℝ}
    (hw : w t₀ = w₀) (hw' : ∀ c, HasDerivAt (fun t => w t c) (w' c) t₀) :
    HasDerivAt (fun t => f (w t)) (∑ c, a c * w' c) t₀ := by
  have hL := hd.hasFDerivAt
  have hp : HasDerivAt w w' t₀ := hasDerivAt_pi.2 hw'
  have h1 : HasDerivAt (fun t => f (w t)) (fderiv ℝ f w₀ w') t₀ := by
    have : HasFDerivAt f (fderiv ℝ f w₀) (w t₀) := by rw [hw]; exact hL
    exact this.comp_hasDerivAt t₀ hp
  have h2 : ∀ c, fderiv ℝ f w₀ (Pi.single c 1) = a c := by
    intro c
    have e : HasFDerivAt f (fderiv ℝ f w₀) (Function.update w₀ c (w₀ c)) := by
      rw [Function.update_eq_self]; exact hL
    have := e.comp_hasDerivAt (w₀ c) (hasDerivAt_update w₀ c (w₀ c))
    exact this.unique (ha c)
  refine h1.congr_deriv ?_
  have : w' = ∑ c, w' c • (Pi.single c 1 : Fin n → ℝ) := by
    funext j
    simp [Finset.sum_apply, Pi.single_apply]
  conv_lhs => rw [this]
  rw [map_sum]
  refine Finset.sum_congr rfl fun c _ => ?_
  rw [map_smul, h2, smul_eq_mul, mul_comm]

/-- Away from the jumps the wrapping of a coordinate has derivative 1. -/
theorem fmod_deriv {g : ℝ → ℝ} {d t₀ n : ℝ} (hn : 0 < n) (hg : HasDerivAt g d t₀) (h : ∀ m : ℤ, m ≠ 0 → g t₀ ≠ n * m) :
    HasDerivAt (fun t => fmodK (g t) n) d t₀ := by
  suffices H : ∃ k : ℝ, ∀ᶠ t in nhds t₀, fmodK (g t) n = g t - n * k by
    obtain ⟨k, hk⟩ := H
    exact (hg.sub_const (n * k)).congr_of_eventuallyEq hk
  have hc : ContinuousAt (fun t => g t / n) t₀ := hg.continuousAt.div_const n
  by_cases h0 : g t₀ = 0
  · refine ⟨0, ?_⟩
    have h1 : ∀ᶠ t in nhds t₀, g t / n < 1 := hc.eventually_lt_const (by simp [h0])
    have h2 : ∀ᶠ t in nhds t₀, -1 < g t / n := hc.eventually_const_lt (by simp [h0])
    filter_upwards [h1, h2] with t h1 h2
    unfold fmodK
    split
    · rename_i h3
      have : ⌊g t / n⌋ = 0 := Int.floor_eq_zero_iff.2 ⟨h3, h1⟩
      rw [this]; simp
    · rename_i h3
      have : ⌈g t / n⌉ = 0 := Int.ceil_eq_zero_iff.2 ⟨h2, (not_le.1 h3).le⟩
      rw [this]; simp
  · have hy : ∀ m : ℤ, g t₀ / n ≠ m := by
      intro m hm
      by_cases hm0 : m = 0
      · rw [hm0, Int.cast_zero, div_eq_zero_iff] at hm
        rcases hm with hm | hm
        · exact h0 hm
        · exact hn.ne' hm
      · exact h m hm0 (by rw [div_eq_iff hn.ne'] at hm; rw [hm, mul_comm])
    have hfl : ∀ᶠ t in nhds t₀, ⌊g t / n⌋ = ⌊g t₀ / n⌋ := by
      have h1 : ∀ᶠ t in nhds t₀, (⌊g t₀ / n⌋ : ℝ) < g t / n :=
        hc.eventually_const_lt (lt_of_le_of_ne (Int.floor_le _) (hy _).symm)
      have h2 : ∀ᶠ t in nhds t₀, g t / n < ⌊g t₀ / n⌋ + 1 := hc.eventually_lt_const (Int.lt_floor_add_one _)
      filter_upwards [h1, h2] with t h1 h2
      exact Int.floor_eq_iff.2 ⟨h1.le, h2⟩
    have hce : ∀ᶠ t in nhds t₀, ⌈g t / n⌉ = ⌈g t₀ / n⌉ := by
      have h1 : ∀ᶠ t in nhds t₀, g t / n < (⌈g t₀ / n⌉ : ℝ) :=
        hc.eventually_lt_const (lt_of_le_of_ne (Int.le_ceil _) (hy _))
      have h2 : ∀ᶠ t in nhds t₀, (⌈g t₀ / n⌉ : ℝ) - 1 < g t / n :=
        hc.eventually_const_lt (by have := Int.ceil_lt_add_one (g t₀ / n); linarith)
      filter_upwards [h1, h2] with t h1 h2
      exact Int.ceil_eq_iff.2 ⟨h2, h1.le⟩
    rcases lt_or_gt_of_ne (fun e => hy 0 (by simpa using e) : g t₀ / n ≠ 0) with hs | hs
    · refine ⟨⌈g t₀ / n⌉, ?_⟩
      filter_upwards [hce, hc.eventually_lt_const hs] with t h1 h2
      rw [fmodK, if_neg (not_le.2 h2), h1]
    · refine ⟨⌊g t₀ / n⌋, ?_⟩
      filter_upwards [hfl, hc.eventually_const_lt hs] with t h1 h2
      rw [fmodK, if_pos h2.le, h1]

/-! ## Setting one variable -/

theorem phaseFrom_update (val : RVar → ℝ) (v : RVar) (t : ℝ) (ip : ℕ) (ph : PPhase) :
    phaseFrom (Function.update val v t) ip ph = updPhase v t ip (phaseFrom val ip ph) := by
  have hu : ∀ w : RVar, Function.update val v t w = if w = v then t else val w := fun w => by
    by_cases h : w = v
    · subst h; simp
    · simp [h]
  have hat : (∀ ia : ℕ, (∀ k, .pos ip ia k ≠ v) ∧ (∀ k, .u ip ia k ≠ v) ∧ .occ ip ia ≠ v) →
      ph.atom.mapIdx (atomFrom (Function.update val v t) ip) = ph.atom.mapIdx (atomFrom val ip) := by
    intro h
    congr 1
    funext ia a
    unfold atomFrom
    simp only [hu, (h ia).1, (h ia).2.1, (h ia).2.2, if_false]
  have key : ∀ (q ja : ℕ) (f : PAtom → PAtom), (∀ ia a, atomFrom (Function.update val v t) ip ia a =
      if q = ip ∧ ia = ja then f (atomFrom val ip ia a) else atomFrom val ip ia a) →
      ph.atom.mapIdx (atomFrom (Function.update val v t) ip) =
        if q = ip then (ph.atom.mapIdx (atomFrom val ip)).modify ja f else ph.atom.mapIdx (atomFrom val ip) := by
    intro q ja f h
    apply List.ext_getElem?
    intro n
    by_cases hq : q = ip
    · rw [if_pos hq, List.getElem?_modify, List.getElem?_mapIdx, List.getElem?_mapIdx]
      cases hn : ph.atom[n]? with
      | none => simp
      | some a =>
        simp only [Option.map_some, h, hq, true_and]
        by_cases hj : n = ja
        · simp [hj]
        · simp [hj, Ne.symm hj]
    · rw [if_neg hq, List.getElem?_mapIdx, List.getElem?_mapIdx]
      congr 1
      funext a
      rw [h, if_neg fun e => hq e.1]
  cases v
  case pos q ja k =>
    have := key q ja (fun a => { a with pos := Function.update a.pos k t }) fun ia a => by
      unfold atomFrom
      simp only [hu, RVar.pos.injEq, reduceCtorEq, if_false]
      split
      · rename_i h
        obtain ⟨rfl, rfl⟩ := h
        simp only [true_and]
        congr 1
        funext j
        by_cases hj : j = k
        · simp [hj]
        · simp [hj]
      · rename_i h
        congr 1
        funext j
        rw [if_neg]
        rintro ⟨rfl, rfl, rfl⟩
        exact h ⟨rfl, rfl⟩
    unfold phaseFrom updPhase onAtom
    simp only [this]
    simp only [hu, reduceCtorEq, if_false]
    split <;> rfl
  case u q ja k =>
    have := key q ja (fun a => { a with u := Function.update a.u k t }) fun ia a => by
      unfold atomFrom
      simp only [hu, RVar.u.injEq, reduceCtorEq, if_false]
      split
      · rename_i h
        obtain ⟨rfl, rfl⟩ := h
        simp only [true_and]
        congr 1
        funext j
        by_cases hj : j = k
        · simp [hj]
        · simp [hj]
      · rename_i h
        congr 1
        funext j
        rw [if_neg]
        rintro ⟨rfl, rfl, rfl⟩
        exact h ⟨rfl, rfl⟩
    unfold phaseFrom updPhase onAtom
    simp only [this]
    simp only [hu, reduceCtorEq, if_false]
    split <;> rfl
  case occ q ja =>
    have := key q ja (fun a => { a with occ := t }) fun ia a => by
      unfold atomFrom
      simp only [hu, RVar.occ.injEq, reduceCtorEq, if_false]
      by_cases h : q = ip ∧ ia = ja
      · obtain ⟨rfl, rfl⟩ := h
        simp
      · rw [if_neg h, if_neg]
        rintro ⟨rfl, rfl⟩
        exact h ⟨rfl, rfl⟩
    unfold phaseFrom updPhase onAtom
    simp only [this]
    simp only [hu, reduceCtorEq, if_false]
    split <;> rfl
  case a0 q k =>
    unfold phaseFrom updPhase
    rw [hat fun _ => ⟨by simp, by simp, by simp⟩]
    simp only [hu, RVar.a0.injEq, reduceCtorEq, if_false]
    by_cases h : q = ip
    · subst h
      simp only [true_and, if_true]
      congr 2
      funext j
      by_cases hj : j = k
      · simp [hj]
      · simp [hj]
    · simp only [h, Ne.symm h, false_and, if_false]
  case win q k =>
    unfold phaseFrom updPhase
    rw [hat fun _ => ⟨by simp, by simp, by simp⟩]
    simp only [hu, RVar.win.injEq, reduceCtorEq, if_false]
    by_cases h : q = ip
    · subst h
      simp only [true_and, if_true]
      congr 2
      funext j
      by_cases hj : j = k
      · simp [hj]
      · simp [hj]
    · simp only [h, Ne.symm h, false_and, if_false]
  all_goals
    unfold phaseFrom updPhase
    rw [hat fun _ => ⟨by simp, by simp, by simp⟩]
    simp only [hu, RVar.delta2.injEq, RVar.delta1.injEq, RVar.pscale.injEq, RVar.spdiameter.injEq, RVar.sratio.injEq, reduceCtorEq,
      if_false]
  all_goals
    rename_i q
    by_cases h : q = ip
    · subst h; simp
    · simp [h, Ne.symm h]

theorem selFrom_update (val : RVar → ℝ) (v : RVar) (t : ℝ) (psel : List (Option (PPhase × Sel))) :
    selFrom (Function.update val v t) psel = updSel v t (selFrom val psel) := by
  unfold selFrom updSel
  rw [List.mapIdx_mapIdx]
  congr 1
  funext ip x
  cases x with
  | none => rfl
  | some y => simp [phaseFrom_update]

theorem dataFrom_update (val : RVar → ℝ) (v : RVar) (t : ℝ) (is : ℕ) (D : Data) :
    dataFrom (Function.update val v t) is D = updData v t is (dataFrom val is D) := by
  have hu : ∀ w : RVar, Function.update val v t w = if w = v then t else val w := fun w => by
    by_cases h : w = v
    · subst h; simp
    · simp [h]
  unfold dataFrom updData
  simp only [hu]
  cases v <;> simp only [RVar.dscale.injEq, RVar.qdamp.injEq, RVar.qbroad.injEq, reduceCtorEq, if_false]
  all_goals
    rename_i q
    by_cases h : q = is
    · subst h; simp
    · simp [h, Ne.symm h]

section
variable {natoms : List ℕ} {nset : ℕ} {val val' : RVar → ℝ} (he : ∀ v, C47.Exists natoms nset v → val v = val' v)
include he

theorem selFrom_congr {psel : List (Option (PPhase × Sel))} (hk : Known natoms psel 0) : selFrom val psel = selFrom val' psel := by
  apply List.ext_getElem?
  intro ip
  unfold selFrom
  rw [List.getElem?_mapIdx, List.getElem?_mapIdx]
  cases hx : psel[ip]? with
  | none => rfl
  | some x =>
    cases x with
    | none => rfl
    | some y =>
      have hn := hk ip y hx
      rw [Nat.zero_add] at hn
      have hl : ip < natoms.length := (List.getElem?_eq_some_iff.1 hn).1
      simp only [Option.map_some, Option.some.injEq, Prod.mk.injEq, and_true]
      unfold phaseFrom
      have ha : y.1.atom.mapIdx (atomFrom val ip) = y.1.atom.mapIdx (atomFrom val' ip) := by
        apply List.ext_getElem?
        intro ia
        rw [List.getElem?_mapIdx, List.getElem?_mapIdx]
        by_cases hi : ia < y.1.atom.length
        · congr 1
          funext a
          unfold atomFrom
          have h3 : ∀ k, val (.pos ip ia k) = val' (.pos ip ia k) := fun k => he (.pos ip ia k) ⟨_, hn, hi⟩
          have h4 : ∀ k, val (.u ip ia k) = val' (.u ip ia k) := fun k => he (.u ip ia k) ⟨_, hn, hi⟩
          rw [he (.occ ip ia) ⟨_, hn, hi⟩]
          simp only [h3, h4]
        · rw [List.getElem?_eq_none (not_lt.1 hi)]; rfl
      have h3 : ∀ k, val (.a0 ip k) = val' (.a0 ip k) := fun k => he (.a0 ip k) hl
      have h4 : ∀ k, val (.win ip k) = val' (.win ip k) := fun k => he (.win ip k) hl
      simp only [ha, h3, h4, he (.delta2 ip) hl, he (.delta1 ip) hl, he (.sratio ip) hl, he (.spdiameter ip) hl, he (.pscale ip) hl]

theorem dataFrom_congr {is : ℕ} (his : is < nset) (D : Data) : dataFrom val is D = dataFrom val' is D := by
  unfold dataFrom
  rw [he (.dscale is) his, he (.qdamp is) his, he (.qbroad is) his]

end

theorem value_from (val : RVar → ℝ) (is : ℕ) (D : Data) (psel : List (Option (PPhase × Sel))) {natoms : List ℕ} {nset : ℕ}
    (hk : Known natoms psel 0) (v : RVar) (hv : C47.Exists natoms nset v) (hf : ¬C44.Foreign is (selFrom val psel) v) :
    value (dataFrom val is D) is (selFrom val psel) v = val v := by
  unfold C44.Foreign at hf
  unfold value
  cases ho : owner v with
  | none =>
    rw [ho] at hf
    cases v <;> simp only [owner, reduceCtorEq] at ho
    all_goals
      rename_i q
      have hq : q = is := by
        by_contra hq
        exact hf ⟨by simp [hq], by simp [hq], by simp [hq]⟩
      subst hq
      simp [dataFrom]
  | some q =>
    rw [ho] at hf
    dsimp only at hf ⊢
    push Not at hf
    obtain ⟨x, hx⟩ := hf
    rw [hx]
    unfold selFrom at hx
    rw [List.getElem?_mapIdx] at hx
    cases hp : psel[q]? with
    | none => rw [hp] at hx; cases hx
    | some o =>
      cases o with
      | none => rw [hp] at hx; cases hx
      | some y =>
        rw [hp] at hx
        cases hx
        have hn := hk q y hp
        rw [Nat.zero_add] at hn
        dsimp only
        cases v <;> simp only [owner, reduceCtorEq, Option.some.injEq] at ho <;> subst ho <;>
          simp only [getPhase, phaseFrom]
        all_goals
          obtain ⟨n, e1, e2⟩ := hv
          rw [hn] at e1
          cases e1
          show _ = _
          have := atm_from val
          rw [show ({ cell := _, icc := _, atom := _, delta2 := _, delta1 := _, rcut := _, sratio := _, stepcut := _, spdiameter := _, pscale := _ } : PPhase) = phaseFrom val _ y.1 from rfl, atm_from, if_pos e2]
          rfl

end Pdffit.Deriv
