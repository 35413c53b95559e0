import Verif.Lemmas.DerivFin

/-! # The derivative of the calculated curve -/

namespace Pdffit.Deriv
open Geom Parser Bonds Det Layout

/-- The curve of a successful calculation. -/
def curveOf : Res (Option (ℤ → ℝ)) → ℤ → ℝ
  | .ok (some f) => f
  | _ => fun _ => 0

theorem updData_phase (v : RVar) (q : ℕ) (hv : owner v = some q) (t : ℝ) (is : ℕ) (D : Data) : updData v t is D = D := by
  cases v <;> first | rfl | (simp [owner] at hv)

theorem updPhase_other (v : RVar) (q : ℕ) (hv : owner v = some q) (t : ℝ) (ip : ℕ) (h : q ≠ ip) (ph : PPhase) :
    updPhase v t ip ph = ph := by
  cases v <;> simp [owner] at hv <;> subst hv <;> simp [updPhase, h]

theorem updPhase_none (v : RVar) (hv : owner v = none) (t : ℝ) (ip : ℕ) (ph : PPhase) : updPhase v t ip ph = ph := by
  cases v <;> first | rfl | (simp [owner] at hv)

theorem updSel_phase (v : RVar) (q : ℕ) (hv : owner v = some q) (t : ℝ) (psel : List (Option (PPhase × Sel))) (x : PPhase × Sel)
    (hx : psel[q]? = some (some x)) : updSel v t psel = psel.set q (some (updPhase v t q x.1, x.2)) := by
  apply List.ext_getElem?
  intro n
  unfold updSel
  rw [List.getElem?_mapIdx, List.getElem?_set]
  by_cases e : q = n
  · subst e
    have : q < psel.length := by
      by_contra hc
      rw [List.getElem?_eq_none (by omega)] at hx
      cases hx
    rw [if_pos rfl, if_pos this, hx]
    rfl
  · rw [if_neg e]
    cases h : psel[n]? with
    | none => rfl
    | some y =>
      cases y with
      | none => rfl
      | some z => simp [updPhase_other v q hv t n e]

theorem updSel_none (v : RVar) (hv : owner v = none) (t : ℝ) (psel : List (Option (PPhase × Sel))) : updSel v t psel = psel := by
  apply List.ext_getElem?
  intro n
  unfold updSel
  rw [List.getElem?_mapIdx]
  cases h : psel[n]? with
  | none => rfl
  | some y =>
    cases y with
    | none => rfl
    | some z => simp [updPhase_none v hv]

theorem value_phase (D : Data) (is : ℕ) (psel : List (Option (PPhase × Sel))) (v : RVar) (q : ℕ) (hv : owner v = some q)
    (x : PPhase × Sel) (hx : psel[q]? = some (some x)) : value D is psel v = getPhase v x.1 := by
  unfold value
  rw [hv]
  dsimp only
  rw [hx]

/-- Variables of a phase. -/
theorem assemble_phase {D : Data} (h : D.Ok) (is : ℕ) (v : RVar) (psel : List (Option (PPhase × Sel))) (q : ℕ) (x : PPhase × Sel)
    (hx : psel[q]? = some (some x)) (hv : owner v = some q) (hb : ∀ x, some x ∈ psel → ¬Bad D x.1 x.2) (h0 : ¬Div0 D is v psel)
    (hev : ∀ᶠ t in nhds (getPhase v x.1), ¬Bad D (updPhase v t q x.1) x.2)
    (hder : ∀ i, D.ncmin ≤ i → i ≤ D.ncmax → HasDerivAt
      (fun t => D.dscale * (updPhase v t q x.1).pscale * curve D (updPhase v t q x.1) x.2 i)
      (runOn v (phaseStmts D x.1 x.2 q (D.r i) (curve D x.1 x.2 i)) (decSum D x.1 x.2 (dval D x.1 is q v) i)) (getPhase v x.1)) :
    ∃ (c : ℤ → ℝ) (F : ℝ → ℤ → ℝ), fitA D is v psel = .ok (some c) ∧
      (∀ᶠ t in nhds (value D is psel v), determine (updData v t is D) (updSel v t psel) = .ok (some (F t))) ∧
      ∀ i, D.ncmin ≤ i → i ≤ D.ncmax → HasDerivAt (fun t => F t i) (c i) (value D is psel v) := by
  obtain ⟨c, hc, hci⟩ := fitA_of h is v psel hb h0
  rw [value_phase D is psel v q hv x hx]
  have ok : ∀ᶠ t in nhds (getPhase v x.1),
      determine (updData v t is D) (updSel v t psel) = .ok (some (curveOf (determine (updData v t is D) (updSel v t psel)))) ∧
      ∀ i, D.ncmin ≤ i → i ≤ D.ncmax → curveOf (determine (updData v t is D) (updSel v t psel)) i =
        (((psel.set q (some (updPhase v t q x.1, x.2))).filterMap id).map fun x =>
          D.dscale * x.1.pscale * filt D (curve D x.1 x.2) i).sum := by
    filter_upwards [hev] with t ht
    rw [updData_phase v q hv, updSel_phase v q hv t psel x hx]
    obtain ⟨f, hf, hfi⟩ := determine_of h (psel := psel.set q (some (updPhase v t q x.1, x.2))) fun y hy => by
      rcases List.mem_or_eq_of_mem_set hy with hy | hy
      · exact hb y hy
      · rw [Option.some.inj hy]; exact ht
    rw [hf]
    exact ⟨rfl, hfi⟩
  refine ⟨c, fun t => curveOf (determine (updData v t is D) (updSel v t psel)), hc, ok.mono fun t ht => ht.1, fun i hi hi' => ?_⟩
  have hq : q < psel.length := by
    by_contra hc
    rw [List.getElem?_eq_none (by omega)] at hx
    cases hx
  set A := (((psel.take q).filterMap id).map fun x => D.dscale * x.1.pscale * filt D (curve D x.1 x.2) i).sum with hA
  set B := (((psel.drop (q + 1)).filterMap id).map fun x => D.dscale * x.1.pscale * filt D (curve D x.1 x.2) i).sum with hB
  have e : (fun t => curveOf (determine (updData v t is D) (updSel v t psel)) i) =ᶠ[nhds (getPhase v x.1)] fun t =>
      A + (filt D (fun i => D.dscale * (updPhase v t q x.1).pscale * curve D (updPhase v t q x.1) x.2 i) i + B) := by
    filter_upwards [ok] with t ht
    rw [ht.2 i hi hi', List.set_eq_take_append_cons_drop, if_pos hq, List.filterMap_append, List.map_append, List.sum_append]
    rw [filt_smul h]
    simp [hA, hB]
  have d := ((filt_deriv h _ _ _ hder i hi hi').add_const B).const_add A
  refine (d.congr_of_eventuallyEq e).congr_deriv ?_
  rw [hci i hi hi']
  exact filt_congr h (fun j _ _ => (column_phase D is v psel q x hx hv j).symm) i hi hi'

/-- Variables of the data set. -/
theorem assemble_data {D : Data} (h : D.Ok) (is : ℕ) (v : RVar) (psel : List (Option (PPhase × Sel))) (hv : owner v = none)
    (hD : ∀ t, (updData v t is D).Ok ∧ (updData v t is D).ncmin = D.ncmin ∧ (updData v t is D).ncmax = D.ncmax ∧
      ∀ c i, filt (updData v t is D) c i = filt D c i)
    (hb : ∀ x, some x ∈ psel → ¬Bad D x.1 x.2) (h0 : ¬Div0 D is v psel)
    (hev : ∀ᶠ t in nhds (value D is psel v), ∀ x, some x ∈ psel → ¬Bad (updData v t is D) x.1 x.2)
    (hder : ∀ i, D.ncmin ≤ i → i ≤ D.ncmax → HasDerivAt
      (fun t => ((psel.filterMap id).map fun x => (updData v t is D).dscale * x.1.pscale * curve (updData v t is D) x.1 x.2 i).sum)
      (column D is v psel i) (value D is psel v)) :
    ∃ (c : ℤ → ℝ) (F : ℝ → ℤ → ℝ), fitA D is v psel = .ok (some c) ∧
      (∀ᶠ t in nhds (value D is psel v), determine (updData v t is D) (updSel v t psel) = .ok (some (F t))) ∧
      ∀ i, D.ncmin ≤ i → i ≤ D.ncmax → HasDerivAt (fun t => F t i) (c i) (value D is psel v) := by
  obtain ⟨c, hc, hci⟩ := fitA_of h is v psel hb h0
  have ok : ∀ᶠ t in nhds (value D is psel v),
      determine (updData v t is D) (updSel v t psel) = .ok (some (curveOf (determine (updData v t is D) (updSel v t psel)))) ∧
      ∀ i, D.ncmin ≤ i → i ≤ D.ncmax → curveOf (determine (updData v t is D) (updSel v t psel)) i =
        ((psel.filterMap id).map fun x =>
          (updData v t is D).dscale * x.1.pscale * filt D (curve (updData v t is D) x.1 x.2) i).sum := by
    filter_upwards [hev] with t ht
    rw [updSel_none v hv]
    obtain ⟨h1, h2, h3, h4⟩ := hD t
    obtain ⟨f, hf, hfi⟩ := determine_of h1 ht
    rw [hf]
    refine ⟨rfl, fun i hi hi' => ?_⟩
    have := hfi i (by rwa [h2]) (by rwa [h3])
    simp only [h4] at this
    exact this
  refine ⟨c, fun t => curveOf (determine (updData v t is D) (updSel v t psel)), hc, ok.mono fun t ht => ht.1, fun i hi hi' => ?_⟩
  have e : (fun t => curveOf (determine (updData v t is D) (updSel v t psel)) i) =ᶠ[nhds (value D is psel v)] fun t =>
      filt D (fun i => ((psel.filterMap id).map fun x =>
        (updData v t is D).dscale * x.1.pscale * curve (updData v t is D) x.1 x.2 i).sum) i := by
    filter_upwards [ok] with t ht
    rw [ht.2 i hi hi', filt_sum h]
    congr 1
    apply List.map_congr_left
    intro x _
    exact (filt_smul h _ _ i).symm
  rw [hci i hi hi']
  exact (filt_deriv h _ _ _ hder i hi hi').congr_of_eventuallyEq e

/-! ## The curve of one phase -/

theorem envelope_eq (D : Data) (ph : PPhase) (r : ℝ) : envelope D ph r = bk D r * shapeEnv ph r := by
  unfold envelope shapeEnv
  rw [mul_assoc]
  have e : (if 0 < D.qdamp then Real.exp (-(r * D.qdamp) ^ 2 / 2) else 1) = bk D r := rfl
  rw [e]
  congr 1
  by_cases h1 : 0 < ph.stepcut <;> by_cases h2 : ph.stepcut < r <;> by_cases h3 : 0 < ph.spdiameter <;>
    simp [h1, h2, h3, not_le.2, not_lt.1]

/-- Members that do not change with variables of peaks. -/
structure Same (D : Data) (p q : PPhase) (s : Sel) : Prop where
  np : p.np = q.np
  rho : p.rho0 = q.rho0
  act : ract p s = ract q s
  tot : rtot p = rtot q
  env : ∀ r, envelope D p r = envelope D q r
  scl : p.pscale = q.pscale

theorem mul_deriv (D : Data) (pt : ℝ → PPhase) (s : Sel) (t₀ : ℝ) (i : ℤ) (g : Dec → ℝ)
    (h : ∀ᶠ t in nhds t₀, (decisions D (pt t) s).Perm (decisions D (pt t₀) s))
    (hd : ∀ δ ∈ decisions D (pt t₀) s, HasDerivAt (fun t => hgt D (pt t) δ) (g δ) t₀) (hs : ∀ t, Same D (pt t) (pt t₀) s) :
    HasDerivAt (fun t => D.dscale * (pt t).pscale * curve D (pt t) s i) (decSum D (pt t₀) s g i * fac D (pt t₀) (D.r i)) t₀ := by
  have hp := pairSum_deriv (fun _ => D) pt s t₀ i g h hd
  have e : (fun t => D.dscale * (pt t).pscale * curve D (pt t) s i) = fun t => D.dscale * (pt t₀).pscale *
      ((pairSum D (pt t) s i / (pt t₀).np / D.r i - 4 * Real.pi * D.r i * (pt t₀).rho0 * (ract (pt t₀) s / rtot (pt t₀))) *
        envelope D (pt t₀) (D.r i)) := by
    funext t
    unfold curve
    rw [(hs t).np, (hs t).rho, (hs t).act, (hs t).tot, (hs t).env, (hs t).scl]
  rw [e]
  refine (((((hp.div_const (pt t₀).np).div_const (D.r i)).sub_const _).mul_const _).const_mul _).congr_deriv ?_
  unfold fac facs facp
  rw [envelope_eq]
  ring

theorem onAtom_same (D : Data) (ph : PPhase) (q : ℕ) (s : Sel) (f : PAtom → PAtom)
    (h : ∀ a, (f a).occ = a.occ ∧ (f a).sf = a.sf) (hq : q < ph.atom.length) : Same D (onAtom ph q f) ph s where
  np := np_on ph q f h
  rho := by
    unfold PPhase.rho0
    rw [np_on ph q f h]
    rfl
  act := by
    unfold ract
    have : (onAtom ph q f).atom.length = ph.atom.length := by unfold onAtom; simp
    rw [this]
    congr 1
    apply List.map_congr_left
    intro x _
    rw [weight_on ph q f h hq, weight_on ph q f h hq]
  tot := by
    unfold rtot
    have : (onAtom ph q f).atom.length = ph.atom.length := by unfold onAtom; simp
    rw [this]
    congr 1
    apply List.map_congr_left
    intro x _
    rw [weight_on ph q f h hq, weight_on ph q f h hq]
  env := fun _ => rfl
  scl := rfl

theorem Same.refl (D : Data) (p : PPhase) (s : Sel) : Same D p p s := ⟨rfl, rfl, rfl, rfl, fun _ => rfl, rfl⟩

theorem Same.symm {D : Data} {p q : PPhase} {s : Sel} (h : Same D p q s) : Same D q p s :=
  ⟨h.np.symm, h.rho.symm, h.act.symm, h.tot.symm, fun r => (h.env r).symm, h.scl.symm⟩

theorem Same.trans {D : Data} {p q r : PPhase} {s : Sel} (h : Same D p q s) (h' : Same D q r s) : Same D p r s :=
  ⟨h.np.trans h'.np, h.rho.trans h'.rho, h.act.trans h'.act, h.tot.trans h'.tot, fun x => (h.env x).trans (h'.env x),
    h.scl.trans h'.scl⟩

/-- Edges of the cell: the number density changes too. -/
theorem edge_deriv (D : Data) (ph : PPhase) (s : Sel) (k : Fin 3) (i : ℤ) (g : Dec → ℝ) (O : Orth ph.cell)
    (h : ∀ᶠ t in nhds (ph.cell.a0 k),
      (decisions D { ph with cell := { ph.cell with a0 := Function.update ph.cell.a0 k t } } s).Perm (decisions D ph s))
    (hd : ∀ δ ∈ decisions D ph s, HasDerivAt
      (fun t => hgt D { ph with cell := { ph.cell with a0 := Function.update ph.cell.a0 k t } } δ) (g δ) (ph.cell.a0 k)) :
    HasDerivAt (fun t => D.dscale * ph.pscale *
        curve D { ph with cell := { ph.cell with a0 := Function.update ph.cell.a0 k t } } s i)
      (facp D ph (D.r i) * (facs ph (D.r i) * decSum D ph s g i + 4 * Real.pi * D.r i * dnorm ph s * ph.rho0 / ph.cell.a0 k))
      (ph.cell.a0 k) := by
  set pt : ℝ → PPhase := fun t => { ph with cell := { ph.cell with a0 := Function.update ph.cell.a0 k t } } with hpt
  have p0 : pt (ph.cell.a0 k) = ph := by simp [hpt, Function.update_eq_self]
  have hp := pairSum_deriv (fun _ => D) pt s (ph.cell.a0 k) i g (by rw [p0]; exact h) (by rw [p0]; exact hd)
  rw [p0] at hp
  have hk := O.edge k
  have hrho : ∀ t, (pt t).rho0 = ph.rho0 * ph.cell.a0 k / t := by
    intro t
    have hv : vol (pt t).cell * ph.cell.a0 k = vol ph.cell * t := by
      unfold vol
      have hw : voll (pt t).cell = voll ph.cell := rfl
      rw [hw]
      simp only [hpt]
      fin_cases k <;> simp <;> ring
    have hn : (pt t).ncv = ph.ncv * t / ph.cell.a0 k := by
      rw [eq_div_iff hk]
      unfold PPhase.ncv
      rw [mul_assoc, hv]
      show (_ : ℝ) * (_ * t) = _
      ring
    unfold PPhase.rho0
    rw [hn]
    have : (pt t).np = ph.np := rfl
    rw [this, div_div_eq_mul_div, div_mul_eq_mul_div, div_div]
  have hr : HasDerivAt (fun t => (pt t).rho0) (-ph.rho0 / ph.cell.a0 k) (ph.cell.a0 k) := by
    have e : (fun t => (pt t).rho0) = fun t => ph.rho0 * ph.cell.a0 k * t⁻¹ := by
      funext t
      rw [hrho, div_eq_mul_inv]
    rw [e]
    refine ((hasDerivAt_inv hk).const_mul _).congr_deriv ?_
    field_simp
  have e : (fun t => D.dscale * ph.pscale * curve D (pt t) s i) = fun t => D.dscale * ph.pscale *
      ((pairSum D (pt t) s i / ph.np / D.r i - 4 * Real.pi * D.r i * (pt t).rho0 * (ract ph s / rtot ph)) *
        envelope D ph (D.r i)) := rfl
  rw [e]
  refine (((((hp.div_const ph.np).div_const (D.r i)).fun_sub
    ((hr.const_mul (4 * Real.pi * D.r i)).mul_const _)).mul_const _).const_mul _).congr_deriv ?_
  unfold facs facp dnorm
  rw [envelope_eq]
  ring

end Pdffit.Deriv
