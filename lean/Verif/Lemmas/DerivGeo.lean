import Mathlib.Data.List.GetD
import Verif.Lemmas.DerivVar

/-! # Derivative of one peak when atoms move or the cell of an orthogonal structure changes -/

namespace Pdffit.Deriv
open Geom Parser Bonds Det Layout

theorem sq3_deriv (d : ℝ → Fin 3 → ℝ) (e : Fin 3 → ℝ) (t₀ : ℝ) (h : ∀ k, HasDerivAt (fun t => d t k) (e k) t₀) :
    HasDerivAt (fun t => sq3 (d t)) (2 * ∑ k, d t₀ k * e k) t₀ := by
  have := (((h 0).fun_pow 2).fun_add ((h 1).fun_pow 2)).fun_add ((h 2).fun_pow 2)
  refine HasDerivAt.congr_deriv (f := fun t => sq3 (d t)) this ?_
  rw [Fin.sum_univ_three]
  simp
  ring

/-- The vector `U d`. -/
def uvec (u : Fin 6 → ℝ) (d : Fin 3 → ℝ) : Fin 3 → ℝ :=
  ![d 0 * u 0 + d 1 * u 3 + d 2 * u 4, d 0 * u 3 + d 1 * u 1 + d 2 * u 5, d 0 * u 4 + d 1 * u 5 + d 2 * u 2]

theorem quad_deriv (u : Fin 6 → ℝ) (d : ℝ → Fin 3 → ℝ) (e : Fin 3 → ℝ) (t₀ : ℝ) (h : ∀ k, HasDerivAt (fun t => d t k) (e k) t₀) :
    HasDerivAt (fun t => quad u (d t)) (2 * ∑ k, uvec u (d t₀) k * e k) t₀ := by
  have a : ∀ i : Fin 3, ∀ c : ℝ, HasDerivAt (fun t => c * d t i ^ 2) (c * (2 * d t₀ i * e i)) t₀ := fun i c => by
    simpa using ((h i).fun_pow 2).const_mul c
  have b : ∀ i j : Fin 3, ∀ c : ℝ, HasDerivAt (fun t => c * d t i * d t j) (c * e i * d t₀ j + c * d t₀ i * e j) t₀ := fun i j c =>
    ((h i).const_mul c).fun_mul (h j)
  have := (((((a 0 (u 0)).fun_add (a 1 (u 1))).fun_add (a 2 (u 2))).fun_add (b 0 1 (2 * u 3))).fun_add (b 0 2 (2 * u 4))).fun_add
    (b 1 2 (2 * u 5))
  refine HasDerivAt.congr_deriv (f := fun t => quad u (d t)) this ?_
  rw [Fin.sum_univ_three]
  simp [uvec]
  ring

/-- Sum of the displacement parameters of a pair. -/
def uu (ph : PPhase) (x : (ℕ × ℕ) × (ℤ × ℤ × ℤ)) (k : Fin 6) : ℝ := (ph.atm x.1.1).u k + (ph.atm x.1.2).u k

/-- An orthogonal structure in which the difference vector of a pair moves with velocity `e`. -/
theorem move_peak (D : Data) (pt : ℝ → PPhase) (t₀ : ℝ) (δ : Dec) (F : Fact D (pt t₀) δ) (O : ∀ᶠ t in nhds t₀, Orth (pt t).cell)
    (hk : ∀ t, (pt t).delta2 = (pt t₀).delta2 ∧ (pt t).delta1 = (pt t₀).delta1 ∧ (pt t).sratio = (pt t₀).sratio)
    (hu : ∀ t, uu (pt t) δ.1 = uu (pt t₀) δ.1)
    (hA : ∀ t, ampl (pt t) δ.1.1.1 δ.1.1.2 = ampl (pt t₀) δ.1.1.1 δ.1.1.2) (e : Fin 3 → ℝ)
    (he : ∀ k, HasDerivAt (fun t => cart (pt t) δ.1 k) (e k) t₀) (p : Pk)
    (hp : p = pk D (pt t₀) δ.1 (√(dist2 (pt t₀) δ.1)) (sigB D (pt t₀) δ.1 δ.2.2) δ.2.1) :
    HasDerivAt (fun t => hgt D (pt t) δ)
      (p.dTds * (p.dsdsp * (p.dspdr * ((∑ k, p.d k * e k) / p.dist) + (∑ k, p.sd k * e k) / p.dist ^ 2 / p.sigmap) +
        p.dsdr * ((∑ k, p.d k * e k) / p.dist)) + p.dTdr * ((∑ k, p.d k * e k) / p.dist)) t₀ := by
  have O0 := O.self_of_nhds
  have d20 : 0 < dist2 (pt t₀) δ.1 := F.d2
  have h2 : HasDerivAt (fun t => dist2 (pt t) δ.1) (2 * ∑ k, cart (pt t₀) δ.1 k * e k) t₀ := by
    refine (sq3_deriv (fun t => cart (pt t) δ.1) e t₀ he).congr_of_eventuallyEq ?_
    filter_upwards [O] with t ht
    exact dist2_orth ht _
  have hpos : ∀ᶠ t in nhds t₀, 0 < dist2 (pt t) δ.1 := h2.continuousAt.eventually (lt_mem_nhds d20)
  have hr := h2.sqrt d20.ne'
  have hm : HasDerivAt (fun t => msdOf (pt t) δ.1)
      ((2 * (∑ k, uvec (uu (pt t₀) δ.1) (cart (pt t₀) δ.1) k * e k) * dist2 (pt t₀) δ.1 -
        quad (uu (pt t₀) δ.1) (cart (pt t₀) δ.1) * (2 * ∑ k, cart (pt t₀) δ.1 k * e k)) / dist2 (pt t₀) δ.1 ^ 2) t₀ := by
    refine ((quad_deriv (uu (pt t₀) δ.1) (fun t => cart (pt t) δ.1) e t₀ he).fun_div h2 d20.ne').congr_of_eventuallyEq ?_
    filter_upwards [O, hpos] with t ht h
    rw [msd_orth ht _ h.le, ← hu t]
    rfl
  have hc := corfact_deriv D (pt t₀) (fun t => dist2 (pt t) δ.1) _ t₀ d20 hr hpos
  replace hc : HasDerivAt (fun t => corfact D (pt t) (dist2 (pt t) δ.1))
      ((2 * (pt t₀).delta2 / √(dist2 (pt t₀) δ.1) ^ 3 + (pt t₀).delta1 / √(dist2 (pt t₀) δ.1) ^ 2 +
        2 * D.qbroad ^ 2 * √(dist2 (pt t₀) δ.1)) * ((2 * ∑ k, cart (pt t₀) δ.1 k * e k) / (2 * √(dist2 (pt t₀) δ.1)))) t₀ := by
    refine hc.congr_of_eventuallyEq (Filter.Eventually.of_forall fun t => ?_)
    unfold corfact
    dsimp only
    rw [(hk t).1, (hk t).2.1]
  have hφ : HasDerivAt (fun t => phiB (pt t) δ.2.2) 0 t₀ := by
    have : (fun t => phiB (pt t) δ.2.2) = fun _ => phiB (pt t₀) δ.2.2 := by
      funext t
      unfold phiB
      rw [(hk t).2.2]
    rw [this]
    exact hasDerivAt_const _ _
  have := hgt_deriv (fun _ => D) pt t₀ δ F (fun _ => ⟨rfl, rfl⟩) hA _ _ _ _ hr hm hc hφ p hp
  refine this.congr_deriv ?_
  have hd : p.d = cart (pt t₀) δ.1 := by rw [hp]; rfl
  have hsd : p.sd = uvec (uu (pt t₀) δ.1) (cart (pt t₀) δ.1) := by rw [hp]; rfl
  have hds : p.dist = √(dist2 (pt t₀) δ.1) := by rw [hp]; rfl
  have hsp : p.sigmap = √(msdOf (pt t₀) δ.1) := by rw [hp]; rfl
  have hph : p.ph = pt t₀ := by rw [hp]; rfl
  have hqb : p.qbroad = D.qbroad := by rw [hp]; rfl
  have hq : quad (uu (pt t₀) δ.1) (cart (pt t₀) δ.1) = p.sigmap ^ 2 * p.dist ^ 2 := by
    rw [hsp, hds, Real.sq_sqrt F.msd.le, Real.sq_sqrt d20.le, msd_orth O0 _ d20.le]
    have := d20.ne'
    field_simp
    rfl
  have hdd : dist2 (pt t₀) δ.1 = p.dist ^ 2 := by rw [hds, Real.sq_sqrt d20.le]
  have n1 : p.dist ≠ 0 := by rw [hds]; exact (Real.sqrt_pos.2 d20).ne'
  have n2 : p.sigmap ≠ 0 := by rw [hsp]; exact (Real.sqrt_pos.2 F.msd).ne'
  rw [hq, ← hsd, ← hd, ← hds, hdd]
  unfold Pk.dspdr Pk.dsdr
  rw [hph, hqb]
  generalize (∑ k, p.d k * e k) = X
  generalize (∑ k, p.sd k * e k) = Y
  field_simp
  ring

/-! ## Changes of one atom -/

theorem atm_on (ph : PPhase) (ia j : ℕ) (f : PAtom → PAtom) (h : ia < ph.atom.length) :
    (onAtom ph ia f).atm j = if j = ia then f (ph.atm j) else ph.atm j := by
  unfold onAtom PPhase.atm
  dsimp only
  by_cases hj : j < ph.atom.length
  · rw [List.getD_eq_getElem _ _ (by rw [List.length_modify]; exact hj), List.getElem_modify, List.getD_eq_getElem _ _ hj]
    by_cases e : ia = j
    · rw [if_pos e, if_pos e.symm]
    · rw [if_neg e, if_neg (Ne.symm e)]
  · rw [if_neg (by omega), List.getD_eq_default _ _ (by rw [List.length_modify]; omega), List.getD_eq_default _ _ (by omega)]

theorem onAtom_self (ph : PPhase) (q : ℕ) (f : PAtom → PAtom) (hq : q < ph.atom.length) (h : f (ph.atm q) = ph.atm q) :
    onAtom ph q f = ph := by
  unfold onAtom
  have : ph.atom.modify q f = ph.atom := by
    apply List.ext_getElem (by simp)
    intro n h1 h2
    rw [List.getElem_modify]
    split
    · rename_i e
      subst e
      rwa [PPhase.atm, List.getD_eq_getElem _ _ hq] at h
    · rfl
  rw [this]

theorem map_on {β : Type} (l : List PAtom) (ia : ℕ) (f : PAtom → PAtom) (g : PAtom → β) (h : ∀ a, g (f a) = g a) :
    (l.modify ia f).map g = l.map g := by
  apply List.ext_getElem
  · simp
  · intro n h1 h2
    simp only [List.getElem_map, List.getElem_modify]
    split
    · exact h _
    · rfl

section
variable (ph : PPhase) (ia : ℕ) (f : PAtom → PAtom) (h : ∀ a, (f a).occ = a.occ ∧ (f a).sf = a.sf)
include h

theorem np_on : (onAtom ph ia f).np = ph.np := by
  unfold PPhase.np onAtom
  rw [map_on _ _ _ _ fun a => (h a).1]

theorem bavg_on : (onAtom ph ia f).bavg = ph.bavg := by
  unfold PPhase.bavg
  rw [np_on ph ia f h]
  unfold onAtom
  rw [map_on _ _ _ _ fun a => by rw [(h a).1, (h a).2]]

theorem weight_on (hi : ia < ph.atom.length) (j : ℕ) : (onAtom ph ia f).weight j = ph.weight j := by
  unfold PPhase.weight
  rw [bavg_on ph ia f h, atm_on ph ia j f hi]
  split
  · rw [(h _).2]
  · rfl

theorem ampl_on (hi : ia < ph.atom.length) (i j : ℕ) : ampl (onAtom ph ia f) i j = ampl ph i j := by
  unfold ampl
  rw [weight_on ph ia f h hi, weight_on ph ia f h hi, atm_on ph ia i f hi, atm_on ph ia j f hi]
  split <;> split <;> simp only [(h _).1]

end

/-- Number of times the atom `q` occurs at the two ends of a pair, counted with opposite signs. -/
def sgn (x : (ℕ × ℕ) × (ℤ × ℤ × ℤ)) (q : ℕ) : ℝ := (if x.1.1 = q then 1 else 0) - (if x.1.2 = q then 1 else 0)

/-- Positions in an orthogonal cell. -/
theorem pos_peak (D : Data) (ph : PPhase) (is ip q : ℕ) (k : Fin 3) (δ : Dec) (hq : q < ph.atom.length) (O : Orth ph.cell)
    (F : Fact D ph δ) :
    HasDerivAt (fun t => hgt D (onAtom ph q fun a => { a with pos := Function.update a.pos k t }) δ)
      (dval D ph is ip (.pos ip q k) δ) ((ph.atm q).pos k) := by
  have h0 : onAtom ph q (fun a => { a with pos := Function.update a.pos k ((ph.atm q).pos k) }) = ph := by
    refine onAtom_self ph q _ hq ?_
    simp only [Function.update_eq_self]
  have hf : ∀ t : ℝ, ∀ a : PAtom, ({ a with pos := Function.update a.pos k t } : PAtom).occ = a.occ ∧
      ({ a with pos := Function.update a.pos k t } : PAtom).sf = a.sf := fun _ _ => ⟨rfl, rfl⟩
  have he : ∀ m : Fin 3, HasDerivAt
      (fun t => cart (onAtom ph q fun a => { a with pos := Function.update a.pos k t }) δ.1 m)
      (if m = k then sgn δ.1 q * ph.cell.a0 k else 0) ((ph.atm q).pos k) := by
    intro m
    have one : ∀ j : ℕ, HasDerivAt (fun t => ((onAtom ph q fun a => { a with pos := Function.update a.pos k t }).atm j).pos m)
        (if m = k then (if j = q then 1 else 0) else 0) ((ph.atm q).pos k) := by
      intro j
      have e : (fun t => ((onAtom ph q fun a => { a with pos := Function.update a.pos k t }).atm j).pos m) = fun t =>
          if j = q then (if m = k then t else (ph.atm j).pos m) else (ph.atm j).pos m := by
        funext t
        rw [atm_on _ _ _ _ hq]
        by_cases hj : j = q
        · rw [if_pos hj, if_pos hj]
          exact Function.update_apply _ _ _ _
        · rw [if_neg hj, if_neg hj]
      rw [e]
      by_cases hj : j = q <;> by_cases hm : m = k <;> simp only [hj, hm, if_true, if_false]
      · exact hasDerivAt_id' _
      all_goals exact hasDerivAt_const _ _
    have := (((one δ.1.1.1).fun_sub (one δ.1.1.2)).sub_const
      (((![δ.1.2.1, δ.1.2.2.1, δ.1.2.2.2] m : ℤ) : ℝ) * ph.icc m)).mul_const (ph.cell.a0 m)
    refine HasDerivAt.congr_deriv
      (f := fun t => cart (onAtom ph q fun a => { a with pos := Function.update a.pos k t }) δ.1 m) this ?_
    unfold sgn
    by_cases hm : m = k
    · subst hm; simp
    · simp [hm]
  have hu : ∀ t, uu (onAtom ph q fun a => { a with pos := Function.update a.pos k t }) δ.1 = uu ph δ.1 := by
    intro t
    funext j
    unfold uu
    rw [atm_on _ _ _ _ hq, atm_on _ _ _ _ hq]
    split <;> split <;> rfl
  have := move_peak D (fun t => onAtom ph q fun a => { a with pos := Function.update a.pos k t }) ((ph.atm q).pos k) δ
    (by rw [h0]; exact F) (Filter.Eventually.of_forall fun _ => O) (fun _ => ⟨rfl, rfl, rfl⟩)
    (fun t => by rw [hu, hu]) (fun t => by rw [ampl_on _ _ _ (hf t) hq, ampl_on _ _ _ (hf _) hq]) _ he _ rfl
  refine this.congr_deriv ?_
  rw [h0]
  unfold dval
  rw [val_pos]
  set p := pk D ph δ.1 (√(dist2 ph δ.1)) (sigB D ph δ.1 δ.2.2) δ.2.1 with hp
  have hg : p.gd k = p.d k := by
    unfold Pk.gd
    have hc : ∀ j, p.cs j = 0 := O.cos
    rw [hc, hc, hc]
    fin_cases k <;> simp
  have s1 : ∀ w : Fin 3 → ℝ, ∑ j, w j * (if j = k then sgn δ.1 q * ph.cell.a0 k else 0) = w k * (sgn δ.1 q * ph.cell.a0 k) := by
    intro w
    simp
  rw [s1, s1]
  have hx : (if δ.1.1.1 = q then p.dgx k else 0) - (if δ.1.1.2 = q then p.dgx k else 0) = sgn δ.1 q * p.dgx k := by
    unfold sgn
    split <;> split <;> ring
  rw [hx]
  unfold Pk.dgx
  rw [hg]
  have ha : p.ph.cell.a0 k = ph.cell.a0 k := rfl
  rw [ha]
  ring

/-- Displacement parameters in an orthogonal cell. -/
theorem u_peak (D : Data) (ph : PPhase) (is ip q : ℕ) (k : Fin 6) (δ : Dec) (hq : q < ph.atom.length) (O : Orth ph.cell)
    (F : Fact D ph δ) :
    HasDerivAt (fun t => hgt D (onAtom ph q fun a => { a with u := Function.update a.u k t }) δ)
      (dval D ph is ip (.u ip q k) δ) ((ph.atm q).u k) := by
  have h0 : onAtom ph q (fun a => { a with u := Function.update a.u k ((ph.atm q).u k) }) = ph := by
    refine onAtom_self ph q _ hq ?_
    simp only [Function.update_eq_self]
  have hf : ∀ t : ℝ, ∀ a : PAtom, ({ a with u := Function.update a.u k t } : PAtom).occ = a.occ ∧
      ({ a with u := Function.update a.u k t } : PAtom).sf = a.sf := fun _ _ => ⟨rfl, rfl⟩
  have hv : ∀ t, vec (onAtom ph q fun a => { a with u := Function.update a.u k t }) δ.1 = vec ph δ.1 := by
    intro t
    funext j
    unfold vec dd
    rw [atm_on _ _ _ _ hq, atm_on _ _ _ _ hq]
    split <;> split <;> rfl
  have hd2 : ∀ t, dist2 (onAtom ph q fun a => { a with u := Function.update a.u k t }) δ.1 = dist2 ph δ.1 := by
    intro t
    unfold dist2
    rw [hv]
    rfl
  have hcart : ∀ t, cart (onAtom ph q fun a => { a with u := Function.update a.u k t }) δ.1 = cart ph δ.1 := by
    intro t
    funext j
    unfold cart
    rw [hv]
    rfl
  set n : ℝ := (if δ.1.1.1 = q then 1 else 0) + (if δ.1.1.2 = q then 1 else 0) with hn
  have one : ∀ j : ℕ, ∀ m : Fin 6, HasDerivAt
      (fun t => ((onAtom ph q fun a => { a with u := Function.update a.u k t }).atm j).u m)
      (if m = k then (if j = q then 1 else 0) else 0) ((ph.atm q).u k) := by
    intro j m
    have e : (fun t => ((onAtom ph q fun a => { a with u := Function.update a.u k t }).atm j).u m) = fun t =>
        if j = q then (if m = k then t else (ph.atm j).u m) else (ph.atm j).u m := by
      funext t
      rw [atm_on _ _ _ _ hq]
      by_cases hj : j = q
      · rw [if_pos hj, if_pos hj]
        exact Function.update_apply _ _ _ _
      · rw [if_neg hj, if_neg hj]
    rw [e]
    by_cases hj : j = q <;> by_cases hm : m = k <;> simp only [hj, hm, if_true, if_false]
    · exact hasDerivAt_id' _
    all_goals exact hasDerivAt_const _ _
  have hU : ∀ m : Fin 6, HasDerivAt (fun t => uu (onAtom ph q fun a => { a with u := Function.update a.u k t }) δ.1 m)
      (if m = k then n else 0) ((ph.atm q).u k) := by
    intro m
    refine HasDerivAt.congr_deriv (f := fun t => uu (onAtom ph q fun a => { a with u := Function.update a.u k t }) δ.1 m)
      ((one δ.1.1.1 m).fun_add (one δ.1.1.2 m)) ?_
    by_cases hm : m = k <;> simp [hm, hn]
  set c := cart ph δ.1 with hcdef
  have hQ : HasDerivAt (fun t => quad (uu (onAtom ph q fun a => { a with u := Function.update a.u k t }) δ.1) c)
      ((if (0 : Fin 6) = k then n else 0) * c 0 ^ 2 + (if 1 = k then n else 0) * c 1 ^ 2 + (if 2 = k then n else 0) * c 2 ^ 2 +
        2 * (if 3 = k then n else 0) * c 0 * c 1 + 2 * (if 4 = k then n else 0) * c 0 * c 2 +
        2 * (if 5 = k then n else 0) * c 1 * c 2) ((ph.atm q).u k) :=
    ((((((hU 0).mul_const (c 0 ^ 2)).fun_add ((hU 1).mul_const (c 1 ^ 2))).fun_add ((hU 2).mul_const (c 2 ^ 2))).fun_add
      ((((hU 3).const_mul 2).mul_const (c 0)).mul_const (c 1))).fun_add
      ((((hU 4).const_mul 2).mul_const (c 0)).mul_const (c 2))).fun_add ((((hU 5).const_mul 2).mul_const (c 1)).mul_const (c 2))
  have hm := hQ.div_const (dist2 ph δ.1)
  have eM : (fun t => quad (uu (onAtom ph q fun a => { a with u := Function.update a.u k t }) δ.1) c / dist2 ph δ.1) = fun t =>
      msdOf (onAtom ph q fun a => { a with u := Function.update a.u k t }) δ.1 := by
    funext t
    rw [msd_orth (ph := onAtom ph q fun a => { a with u := Function.update a.u k t }) O _ (by rw [hd2]; exact F.d2.le), hd2, hcart]
    rfl
  rw [eM] at hm
  have := hgt_deriv (fun _ => D) (fun t => onAtom ph q fun a => { a with u := Function.update a.u k t }) ((ph.atm q).u k) δ
    (by rw [h0]; exact F) (fun _ => ⟨rfl, rfl⟩)
    (fun t => by rw [ampl_on _ _ _ (hf t) hq, ampl_on _ _ _ (hf _) hq]) 0 _ 0 0
    (by simp only [hd2]; exact hasDerivAt_const _ _) hm
    (by simp only [hd2]; exact hasDerivAt_const _ (corfact D ph (dist2 ph δ.1)))
    (hasDerivAt_const _ (phiB ph δ.2.2)) _ rfl
  refine this.congr_deriv ?_
  rw [h0]
  unfold dval
  rw [val_u]
  set p := pk D ph δ.1 (√(dist2 ph δ.1)) (sigB D ph δ.1 δ.2.2) δ.2.1 with hp
  have hx : (if δ.1.1.1 = q then p.dgu k else 0) + (if δ.1.1.2 = q then p.dgu k else 0) = n * p.dgu k := by
    rw [hn]
    split <;> split <;> ring
  rw [hx]
  have hdd : dist2 ph δ.1 = p.dist ^ 2 := (Real.sq_sqrt F.d2.le).symm
  have n1 : p.dist ≠ 0 := (Real.sqrt_pos.2 F.d2).ne'
  have n2 : p.sigmap ≠ 0 := (Real.sqrt_pos.2 F.msd).ne'
  rw [hdd]
  have hd : p.d = c := rfl
  unfold Pk.dgu Pk.fsimp
  rw [hd]
  generalize p.dTds = x1
  generalize p.dsdsp = x2
  fin_cases k <;> simp <;> field_simp

/-- Edges of an orthogonal cell. -/
theorem a0_peak (D : Data) (ph : PPhase) (is ip : ℕ) (k : Fin 3) (δ : Dec) (O : Orth ph.cell) (F : Fact D ph δ) :
    HasDerivAt (fun t => hgt D { ph with cell := { ph.cell with a0 := Function.update ph.cell.a0 k t } } δ)
      (dval D ph is ip (.a0 ip k) δ) (ph.cell.a0 k) := by
  have h0 : ({ ph with cell := { ph.cell with a0 := Function.update ph.cell.a0 k (ph.cell.a0 k) } } : PPhase) = ph := by
    rw [Function.update_eq_self]
  have he : ∀ m : Fin 3, HasDerivAt
      (fun t => cart { ph with cell := { ph.cell with a0 := Function.update ph.cell.a0 k t } } δ.1 m)
      (if m = k then vec ph δ.1 k else 0) (ph.cell.a0 k) := by
    intro m
    have e : (fun t => cart { ph with cell := { ph.cell with a0 := Function.update ph.cell.a0 k t } } δ.1 m) = fun t =>
        vec ph δ.1 m * if m = k then t else ph.cell.a0 m := by
      funext t
      show vec ph δ.1 m * Function.update ph.cell.a0 k t m = _
      rw [Function.update_apply]
    rw [e]
    by_cases hm : m = k
    · subst hm
      simpa using (hasDerivAt_id' (ph.cell.a0 m)).const_mul (vec ph δ.1 m)
    · simp only [hm, if_false]
      exact hasDerivAt_const _ _
  have hO : ∀ᶠ t in nhds (ph.cell.a0 k), Orth { ph.cell with a0 := Function.update ph.cell.a0 k t } := by
    have : ∀ᶠ t in nhds (ph.cell.a0 k), t ≠ 0 := (hasDerivAt_id' (ph.cell.a0 k)).continuousAt.eventually_ne (O.edge k)
    filter_upwards [this] with t ht
    refine ⟨O.cos, O.sin, fun j => ?_⟩
    dsimp only
    rw [Function.update_apply]
    split
    · exact ht
    · exact O.edge j
  have := move_peak D (fun t => { ph with cell := { ph.cell with a0 := Function.update ph.cell.a0 k t } }) (ph.cell.a0 k) δ
    (by rw [h0]; exact F) hO (fun _ => ⟨rfl, rfl, rfl⟩) (fun _ => rfl) (fun _ => rfl) _ he _ rfl
  refine this.congr_deriv ?_
  rw [h0]
  unfold dval
  rw [val_a0]
  set p := pk D ph δ.1 (√(dist2 ph δ.1)) (sigB D ph δ.1 δ.2.2) δ.2.1 with hp
  have hg : p.gd k = p.d k := by
    unfold Pk.gd
    have hc : ∀ j, p.cs j = 0 := O.cos
    rw [hc, hc, hc]
    fin_cases k <;> simp
  have s1 : ∀ w : Fin 3 → ℝ, ∑ j, w j * (if j = k then vec ph δ.1 k else 0) = w k * vec ph δ.1 k := by
    intro w
    simp
  rw [s1, s1]
  have ha : p.ph.cell.a0 k = ph.cell.a0 k := rfl
  have hk := O.edge k
  have hv : vec ph δ.1 k = p.d k / ph.cell.a0 k := by
    have : p.d k = vec ph δ.1 k * ph.cell.a0 k := rfl
    rw [this]
    field_simp
  rw [hv]
  unfold Pk.dga
  rw [hg, ha]
  ring

end Pdffit.Deriv
