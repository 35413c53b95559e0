import Verif.Model.Fractions
import Mathlib.Analysis.Calculus.Deriv.Inv
import Mathlib.Tactic.Linarith
import Mathlib.Tactic.FieldSimp
import Mathlib.Tactic.Ring
import Mathlib.Tactic.Positivity

/-! # C39: phase fractions are a probability distribution with a sound error -/

namespace Pdffit.C39
open Frac

/-- The total amount of the selected phases. -/
noncomputable def tot (k : Kind) (psel : List (Option FPhase)) : ℝ := (psel.map (xi k)).sum

/-- One entry for each phase. -/
theorem length (k : Kind) (psel : List (Option FPhase)) : (fractions k psel).length = psel.length := by
  unfold fractions
  dsimp only
  split_ifs <;> simp

/-- The fractions sum to one. -/
theorem sum_one (k : Kind) (psel : List (Option FPhase)) (h : 0 < tot k psel) :
    ((fractions k psel).map Prod.fst).sum = 1 := by
  unfold fractions
  dsimp only
  unfold tot at h
  rw [if_pos h, List.map_map]
  have : (psel.map (Prod.fst ∘ fun o => frac (psel.map (xi k)).sum (psel.map fun o => dxi k o * dxi k o).sum
      (xi k o) (dxi k o))) = psel.map fun o => xi k o * ((psel.map (xi k)).sum)⁻¹ := by
    apply List.map_congr_left
    intro o _
    simp [frac, div_eq_mul_inv]
  rw [this, List.sum_map_mul_right]
  exact mul_inv_cancel₀ h.ne'

/-- An excluded phase has no share and no error. -/
theorem excluded (k : Kind) (psel : List (Option FPhase)) (i : ℕ) (h : psel[i]? = some none) :
    (fractions k psel)[i]? = some (0, 0) := by
  unfold fractions
  dsimp only
  split_ifs
  · rw [List.getElem?_map, h]
    simp [frac, xi, dxi]
  · rw [List.getElem?_map, h]
    rfl

/-- A physical phase: nonnegative scale, occupancies and masses (C39 needs no relation between them). -/
structure Phys (p : FPhase) : Prop where
  scale : 0 ≤ p.pscale
  np : 0 ≤ p.np
  occ : ∀ a ∈ p.atom, 0 ≤ a.occ
  mass : ∀ a ∈ p.atom, 0 ≤ a.mass

theorem amount_nonneg (k : Kind) (p : FPhase) (h : Phys p) : 0 ≤ amount k p p.pscale := by
  have hn : 0 ≤ p.np := h.np
  have hm : 0 ≤ p.mavg := div_nonneg (List.sum_nonneg (by
    intro x hx
    obtain ⟨a, ha, rfl⟩ := List.mem_map.1 hx
    exact mul_nonneg (h.occ a ha) (h.mass a ha))) hn
  have hs := h.scale
  have hb := mul_self_nonneg p.bavg
  cases k <;> simp only [amount] <;> positivity

theorem xi_nonneg (k : Kind) (o : Option FPhase) (h : ∀ p, o = some p → Phys p) : 0 ≤ xi k o := by
  cases o with
  | none => exact le_refl _
  | some p => exact amount_nonneg k p (h p rfl)

/-- With nonnegative scale factors every fraction lies between zero and one, even without a positive total. -/
theorem in_unit (k : Kind) (psel : List (Option FPhase)) (h : ∀ p, some p ∈ psel → Phys p)
    (f : ℝ × ℝ) (hf : f ∈ fractions k psel) : 0 ≤ f.1 ∧ f.1 ≤ 1 := by
  unfold fractions at hf
  dsimp only at hf
  split_ifs at hf with ht
  · obtain ⟨o, ho, rfl⟩ := List.mem_map.1 hf
    have h0 : ∀ o ∈ psel, 0 ≤ xi k o := fun o ho => xi_nonneg k o (fun p hp => h p (hp ▸ ho))
    refine ⟨div_nonneg (h0 o ho) ht.le, ?_⟩
    simp only [frac]
    rw [div_le_one ht]
    exact List.single_le_sum (by
      intro x hx
      obtain ⟨o, ho, rfl⟩ := List.mem_map.1 hx
      exact h0 o ho) _ (List.mem_map.2 ⟨o, ho, rfl⟩)
  · obtain ⟨o, _, rfl⟩ := List.mem_map.1 hf
    simp

/-- `psel` with the scale factor of phase `j` set to `s`. -/
def setScale (psel : List (Option FPhase)) (j : ℕ) (s : ℝ) : List (Option FPhase) :=
  psel.modify j (Option.map fun p => { p with pscale := s })

/-- The scale factor and its error; zero for an excluded phase. -/
noncomputable def scale (psel : List (Option FPhase)) (j : ℕ) : ℝ := ((psel[j]?.join).map FPhase.pscale).getD 0
noncomputable def dscale (psel : List (Option FPhase)) (j : ℕ) : ℝ := ((psel[j]?.join).map FPhase.dpscale).getD 0

/-- Fraction `i`. -/
noncomputable def fr (k : Kind) (psel : List (Option FPhase)) (i : ℕ) : ℝ := ((fractions k psel)[i]?.getD (0, 0)).1

/-- The reported error of fraction `i`. -/
noncomputable def err (k : Kind) (psel : List (Option FPhase)) (i : ℕ) : ℝ := ((fractions k psel)[i]?.getD (0, 0)).2

/-- How the amount of phase `j` depends on its scale factor. -/
noncomputable def coef (k : Kind) (psel : List (Option FPhase)) (j : ℕ) : ℝ :=
  ((psel[j]?.join).map fun p => amount k p 1).getD 0

theorem amount_eq (k : Kind) (p : FPhase) (s : ℝ) : amount k p s = amount k p 1 * s := by
  cases k <;> simp only [amount] <;> ring

/-- Amount `i`. -/
noncomputable def am (k : Kind) (psel : List (Option FPhase)) (i : ℕ) : ℝ := coef k psel i * scale psel i

theorem xi_get (k : Kind) (psel : List (Option FPhase)) (i : ℕ) (h : i < psel.length) :
    xi k psel[i] = am k psel i := by
  unfold am coef scale
  rw [List.getElem?_eq_getElem h]
  cases psel[i] with
  | none => simp [xi]
  | some p => simp [xi, amount_eq k p p.pscale]

theorem dxi_get (k : Kind) (psel : List (Option FPhase)) (i : ℕ) (h : i < psel.length) :
    dxi k psel[i] = coef k psel i * dscale psel i := by
  unfold coef dscale
  rw [List.getElem?_eq_getElem h]
  cases psel[i] with
  | none => simp [dxi]
  | some p => simp [dxi, amount_eq k p p.dpscale]

theorem sum_range {β : Type} [AddCommMonoid β] {α : Type} (l : List α) (f : α → β) (g : ℕ → β)
    (h : ∀ i (hi : i < l.length), f l[i] = g i) : (l.map f).sum = ∑ i ∈ Finset.range l.length, g i := by
  induction l generalizing g with
  | nil => simp
  | cons a l ih =>
    rw [List.map_cons, List.sum_cons, List.length_cons, Finset.sum_range_succ', add_comm]
    congr 1
    · apply ih
      intro i hi
      exact h (i + 1) (by simpa using hi)
    · exact h 0 (by simp)

theorem tot_eq (k : Kind) (psel : List (Option FPhase)) :
    tot k psel = ∑ i ∈ Finset.range psel.length, am k psel i :=
  sum_range _ _ _ (xi_get k psel)

theorem tot2_eq (k : Kind) (psel : List (Option FPhase)) :
    (psel.map fun o => dxi k o * dxi k o).sum =
      ∑ i ∈ Finset.range psel.length, (coef k psel i * dscale psel i) ^ 2 :=
  sum_range _ _ _ (fun i hi => by rw [dxi_get k psel i hi]; ring)

theorem fr_eq (k : Kind) (psel : List (Option FPhase)) (i : ℕ) (hi : i < psel.length) (h : 0 < tot k psel) :
    fr k psel i = am k psel i / tot k psel := by
  unfold fr fractions
  dsimp only
  rw [if_pos (by exact h), List.getElem?_map, List.getElem?_eq_getElem hi]
  simp only [Option.map_some, Option.getD_some, frac]
  rw [xi_get k psel i hi]
  rfl

/-- What a sample with `N` atoms of a phase contains of it: atoms, unit cells with `np` atoms each, mass. -/
noncomputable def content (k : Kind) (p : FPhase) (N : ℝ) : ℝ :=
  match k with
  | .atom => N
  | .cell => N / p.np
  | .mass => N * ((p.atom.map fun a => a.occ * a.mass).sum / p.np)

/-- **Meaning of the fractions.** The intensity of a phase in a mixture is proportional to the number of its atoms times the square of its average
scattering factor. If the scale factors have this form for a sample with `N i` atoms of phase `i`, then the three lists are the fractions of atoms, of unit
cells and of mass in the sample. -/
theorem meaning (k : Kind) (psel : List (Option FPhase)) (c : ℝ) (hc : 0 < c) (N : ℕ → ℝ)
    (hs : ∀ i p, psel[i]? = some (some p) → p.bavg ≠ 0 ∧ p.pscale = c * N i * p.bavg ^ 2)
    (ht : 0 < ∑ i ∈ Finset.range psel.length, ((psel[i]?.join).map fun p => content k p (N i)).getD 0)
    (i : ℕ) (p : FPhase) (hi : psel[i]? = some (some p)) :
    fr k psel i = content k p (N i) / ∑ i ∈ Finset.range psel.length, ((psel[i]?.join).map fun p => content k p (N i)).getD 0 := by
  have ha : ∀ i, am k psel i = c * ((psel[i]?.join).map fun p => content k p (N i)).getD 0 := by
    intro i
    unfold am coef scale
    rcases h : psel[i]? with _ | _ | p
    · simp
    · simp
    · obtain ⟨h1, h2⟩ := hs i p h
      simp only [Option.join_some, Option.map_some, Option.getD_some]
      rw [h2]
      cases k
      · simp only [amount, content]; field_simp
      · simp only [amount, content]
        rw [show (1 : ℝ) / (p.bavg * p.bavg * p.np) * (c * N i * p.bavg ^ 2) = c * (N i / p.np) * (p.bavg ^ 2 / (p.bavg * p.bavg)) from by
          rw [one_div, mul_inv]; ring]
        rw [show p.bavg ^ 2 / (p.bavg * p.bavg) = 1 from by field_simp, mul_one]
      · simp only [amount, content]
        rw [show (1 : ℝ) * p.mavg / (p.bavg * p.bavg) * (c * N i * p.bavg ^ 2) = c * (N i * p.mavg) * (p.bavg ^ 2 / (p.bavg * p.bavg)) from by
          ring]
        rw [show p.bavg ^ 2 / (p.bavg * p.bavg) = 1 from by field_simp, mul_one]
        rfl
  have htot : tot k psel = c * ∑ i ∈ Finset.range psel.length, ((psel[i]?.join).map fun p => content k p (N i)).getD 0 := by
    rw [tot_eq, Finset.mul_sum]
    exact Finset.sum_congr rfl fun i _ => ha i
  have hl : i < psel.length := (List.getElem?_eq_some_iff.1 hi).1
  rw [fr_eq k psel i hl (by rw [htot]; exact mul_pos hc ht), htot, ha, hi]
  simp only [Option.join_some, Option.map_some, Option.getD_some]
  rw [mul_div_mul_left _ _ hc.ne']

section
variable (psel : List (Option FPhase)) (j : ℕ) (s : ℝ)

theorem set_len : (setScale psel j s).length = psel.length := by simp [setScale]

theorem set_get (i : ℕ) : (setScale psel j s)[i]?.join =
    if i = j then (psel[i]?.join).map fun p => { p with pscale := s } else psel[i]?.join := by
  unfold setScale
  rw [List.getElem?_modify]
  by_cases h : i = j
  · subst h
    rw [if_pos rfl]
    cases psel[i]? with
    | none => rfl
    | some o => cases o <;> simp
  · rw [if_neg h]
    simp [Ne.symm h]

theorem set_coef (k : Kind) (i : ℕ) : coef k (setScale psel j s) i = coef k psel i := by
  unfold coef
  rw [set_get]
  split_ifs
  · cases psel[i]?.join with
    | none => rfl
    | some p => cases k <;> rfl
  · rfl

theorem set_scale (i : ℕ) (hp : i = j → (psel[i]?.join).isSome) :
    scale (setScale psel j s) i = if i = j then s else scale psel i := by
  unfold scale
  rw [set_get]
  split_ifs with h
  · obtain ⟨p, hp⟩ := Option.isSome_iff_exists.1 (hp h)
    simp [hp]
  · rfl

end

/-- The partial derivative of fraction `i` with respect to the scale factor of phase `j`. -/
noncomputable def D (k : Kind) (psel : List (Option FPhase)) (i j : ℕ) : ℝ :=
  coef k psel j * ((if i = j then tot k psel else 0) - am k psel i) / tot k psel ^ 2

/-- `D` is the derivative of the fraction that the code computes. -/
theorem derivative (k : Kind) (psel : List (Option FPhase)) (i j : ℕ) (hi : i < psel.length) (p : FPhase)
    (hj : psel[j]? = some (some p)) (h : 0 < tot k psel) :
    HasDerivAt (fun s => fr k (setScale psel j s) i) (D k psel i j) p.pscale := by
  have hjl : j < psel.length := (List.getElem?_eq_some_iff.1 hj).1
  have hs : scale psel j = p.pscale := by simp [scale, hj]
  have hsome : (psel[j]?.join).isSome := by simp [hj]
  have ham : ∀ m s, am k (setScale psel j s) m = coef k psel m * (if m = j then s else scale psel m) := by
    intro m s
    unfold am
    rw [set_coef, set_scale _ _ _ _ (fun e => e ▸ hsome)]
  have htot : ∀ s, tot k (setScale psel j s) = tot k psel + coef k psel j * (s - p.pscale) := by
    intro s
    rw [tot_eq, tot_eq, set_len]
    have : ∀ m ∈ Finset.range psel.length, am k (setScale psel j s) m =
        am k psel m + (if m = j then coef k psel j * (s - p.pscale) else 0) := by
      intro m _
      rw [ham]
      unfold am
      split_ifs with e
      · subst e
        rw [hs]
        ring
      · ring
    rw [Finset.sum_congr rfl this, Finset.sum_add_distrib]
    congr 1
    simp [hjl]
  have ev : (fun s => fr k (setScale psel j s) i) =ᶠ[nhds p.pscale] fun s =>
      (coef k psel i * (if i = j then s else scale psel i)) / (tot k psel + coef k psel j * (s - p.pscale)) := by
    have c : Filter.Tendsto (fun s => tot k psel + coef k psel j * (s - p.pscale)) (nhds p.pscale)
        (nhds (tot k psel)) := by
      have : Continuous fun s : ℝ => tot k psel + coef k psel j * (s - p.pscale) := by fun_prop
      simpa using this.tendsto p.pscale
    filter_upwards [c.eventually (lt_mem_nhds h)] with s hs0
    rw [fr_eq k _ i (by rw [set_len]; exact hi) (by rw [htot]; exact hs0), htot, ham]
  refine HasDerivAt.congr_of_eventuallyEq ?_ ev
  have hne : tot k psel + coef k psel j * (p.pscale - p.pscale) ≠ 0 := by
    simpa using h.ne'
  have hd : HasDerivAt (fun s : ℝ => tot k psel + coef k psel j * (s - p.pscale)) (coef k psel j) p.pscale := by
    have h1 : HasDerivAt (fun s : ℝ => s - p.pscale) 1 p.pscale := (hasDerivAt_id p.pscale).sub_const p.pscale
    have h2 : HasDerivAt (fun s : ℝ => coef k psel j * (s - p.pscale)) (coef k psel j * 1) p.pscale :=
      h1.const_mul (coef k psel j)
    have h3 : HasDerivAt (fun s : ℝ => tot k psel + coef k psel j * (s - p.pscale)) (coef k psel j * 1) p.pscale :=
      h2.const_add (tot k psel)
    rwa [mul_one] at h3
  have hnum : HasDerivAt (fun s : ℝ => coef k psel i * (if i = j then s else scale psel i))
      (if i = j then coef k psel i else 0) p.pscale := by
    by_cases e : i = j
    · simp only [if_pos e]
      simpa using (hasDerivAt_id p.pscale).const_mul (coef k psel i)
    · simp only [if_neg e]
      exact hasDerivAt_const _ _
  refine (hnum.div hd hne).congr_deriv ?_
  unfold D am
  by_cases e : i = j
  · subst e
    simp only [if_true, hs, sub_self, mul_zero, add_zero]
    ring
  · simp only [if_neg e, sub_self, mul_zero, add_zero]
    ring

/-- The variance is not negative and the reported error is the square root of the linearly propagated variance. -/
theorem error (k : Kind) (psel : List (Option FPhase)) (i : ℕ) (hi : i < psel.length) (h : 0 < tot k psel) :
    err k psel i = Real.sqrt (∑ j ∈ Finset.range psel.length, (D k psel i j * dscale psel j) ^ 2) ∧
      0 ≤ ((dxi k psel[i]) * (dxi k psel[i]) * (tot k psel * tot k psel - 2 * tot k psel * xi k psel[i]) +
        xi k psel[i] * xi k psel[i] * (psel.map fun o => dxi k o * dxi k o).sum) / tot k psel ^ 4 := by
  have key : ((dxi k psel[i]) * (dxi k psel[i]) * (tot k psel * tot k psel - 2 * tot k psel * xi k psel[i]) +
      xi k psel[i] * xi k psel[i] * (psel.map fun o => dxi k o * dxi k o).sum) / tot k psel ^ 4 =
      ∑ j ∈ Finset.range psel.length, (D k psel i j * dscale psel j) ^ 2 := by
    rw [tot2_eq, xi_get k psel i hi, dxi_get k psel i hi]
    have : ∀ j ∈ Finset.range psel.length, (D k psel i j * dscale psel j) ^ 2 =
        (am k psel i ^ 2 / tot k psel ^ 4) * (coef k psel j * dscale psel j) ^ 2 +
        (if i = j then (coef k psel i * dscale psel i) ^ 2 * (tot k psel ^ 2 - 2 * tot k psel * am k psel i) /
          tot k psel ^ 4 else 0) := by
      intro j _
      unfold D
      have := h.ne'
      split_ifs with e
      · subst e
        field_simp
        ring
      · field_simp
        ring
    rw [Finset.sum_congr rfl this, Finset.sum_add_distrib, ← Finset.mul_sum]
    simp only [Finset.sum_ite_eq, Finset.mem_range, if_pos hi]
    ring
  refine ⟨?_, ?_⟩
  · rw [← key]
    unfold err fractions
    dsimp only
    rw [if_pos (by exact h), List.getElem?_map, List.getElem?_eq_getElem hi]
    rfl
  · rw [key]
    exact Finset.sum_nonneg fun j _ => sq_nonneg _

/-- Two phases and an excluded one. -/
noncomputable def demo : List (Option FPhase) :=
  [some ⟨[⟨1, 2, 10⟩], 1, 4, 1⟩, none, some ⟨[⟨1, 1, 20⟩, ⟨1, 1, 40⟩], 2, 3, 0⟩]

theorem demo_tot : tot .atom demo = 4 := by
  norm_num [tot, demo, xi, amount, FPhase.bavg]

example : (fractions .atom demo).map Prod.fst = [1/4, 0, 3/4] := by
  norm_num [fractions, demo, xi, dxi, amount, FPhase.bavg, frac]

example : ((fractions .atom demo).map Prod.fst).sum = 1 := sum_one _ _ (by rw [demo_tot]; norm_num)

example : ∀ p, some p ∈ demo → Phys p := by
  intro p hp
  simp only [demo, List.mem_cons, Option.some.injEq, reduceCtorEq, List.not_mem_nil, or_false, false_or] at hp
  rcases hp with rfl | rfl <;> constructor <;> simp

example : (fractions .mass demo).map Prod.fst = [1/10, 0, 9/10] := by
  norm_num [fractions, demo, xi, dxi, amount, FPhase.bavg, FPhase.mavg, frac]

/-- One atom of the first phase and three atoms (one and a half cells) of the last one. -/
example : fr .cell demo 2 = (3 / 2) / (1 + 3 / 2) := by
  have h := meaning .cell demo 1 one_pos (fun i => if i = 0 then 1 else 3) (by
    intro i p h
    match i with
    | 0 => simp only [demo, List.getElem?_cons_zero, Option.some.injEq] at h; subst h; norm_num [FPhase.bavg]
    | 1 => simp [demo] at h
    | 2 => simp only [demo, List.getElem?_cons_succ, List.getElem?_cons_zero, Option.some.injEq] at h; subst h; norm_num [FPhase.bavg]
    | n + 3 => simp [demo] at h) (by norm_num [demo, Finset.sum_range_succ, content]) 2 _ rfl
  rw [h]
  norm_num [demo, Finset.sum_range_succ, content]

end Pdffit.C39
