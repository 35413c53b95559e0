import Verif.Model.Config
import Verif.Lemmas.DerivCover
import Verif.Props.C44
import Mathlib.Analysis.Calculus.FDeriv.Basic
import Mathlib.Analysis.Calculus.FDeriv.Add
import Mathlib.Analysis.Calculus.FDeriv.Mul
import Mathlib.Analysis.SpecialFunctions.ExpDeriv
import Mathlib.Analysis.SpecialFunctions.Sqrt

/-! # The curve as a function of several variables at once -/

namespace Pdffit.Deriv
open Geom Bonds Det Layout Filter Conf

variable {E : Type} [NormedAddCommGroup E] [NormedSpace ℝ E]

/-- A family of phases whose members are differentiable. -/
structure Fam (pt : E → PPhase) (w₀ : E) : Prop where
  len : ∀ w, (pt w).atom.length = (pt w₀).atom.length
  sf : ∀ w j, ((pt w).atm j).sf = ((pt w₀).atm j).sf
  icc : ∀ w, (pt w).icc = (pt w₀).icc
  rcut : ∀ w, (pt w).rcut = (pt w₀).rcut
  stepcut : ∀ w, (pt w).stepcut = (pt w₀).stepcut
  pos : ∀ j k, DifferentiableAt ℝ (fun w => ((pt w).atm j).pos k) w₀
  u : ∀ j k, DifferentiableAt ℝ (fun w => ((pt w).atm j).u k) w₀
  occ : ∀ j, DifferentiableAt ℝ (fun w => ((pt w).atm j).occ) w₀
  delta2 : DifferentiableAt ℝ (fun w => (pt w).delta2) w₀
  delta1 : DifferentiableAt ℝ (fun w => (pt w).delta1) w₀
  sratio : DifferentiableAt ℝ (fun w => (pt w).sratio) w₀
  pscale : DifferentiableAt ℝ (fun w => (pt w).pscale) w₀
  spd : DifferentiableAt ℝ (fun w => (pt w).spdiameter) w₀
  gten : ∀ i j, DifferentiableAt ℝ (fun w => (pt w).toPhs.gten i j) w₀
  ar : ∀ i, DifferentiableAt ℝ (fun w => recEdge (pt w).cell i) w₀
  vol : DifferentiableAt ℝ (fun w => vol (pt w).cell) w₀

/-- A family of data sets. -/
structure DFam (Dt : E → Data) (w₀ : E) : Prop where
  same : ∀ w, Dt w = { Dt w₀ with dscale := (Dt w).dscale, qdamp := (Dt w).qdamp, qbroad := (Dt w).qbroad }
  dscale : DifferentiableAt ℝ (fun w => (Dt w).dscale) w₀
  qdamp : DifferentiableAt ℝ (fun w => (Dt w).qdamp) w₀
  qbroad : DifferentiableAt ℝ (fun w => (Dt w).qbroad) w₀

theorem _root_.DifferentiableAt.dv {f g : E → ℝ} {w₀ : E} (hf : DifferentiableAt ℝ f w₀) (hg : DifferentiableAt ℝ g w₀) {v : ℝ} (h : v ≠ 0)
    (e : g w₀ = v := by rfl) : DifferentiableAt ℝ (fun w => f w / g w) w₀ := by
  subst e
  exact (hf.mul (hg.inv h)).congr_of_eventuallyEq (Eventually.of_forall fun w => div_eq_mul_inv _ _)

theorem _root_.DifferentiableAt.dc {f : E → ℝ} {w₀ : E} (hf : DifferentiableAt ℝ f w₀) (c : ℝ) :
    DifferentiableAt ℝ (fun w => f w / c) w₀ :=
  (hf.mul_const c⁻¹).congr_of_eventuallyEq (Eventually.of_forall fun w => div_eq_mul_inv _ _)

theorem diff_list {α : Type} (l : List α) (f : α → E → ℝ) (w₀ : E) (h : ∀ a ∈ l, DifferentiableAt ℝ (f a) w₀) :
    DifferentiableAt ℝ (fun w => (l.map fun a => f a w).sum) w₀ := by
  induction l with
  | nil => simp
  | cons a l ih =>
    simp only [List.map_cons, List.sum_cons]
    exact (h a (by simp)).add (ih fun b hb => h b (by simp [hb]))

theorem map_range {β : Type} (l : List PAtom) (g : PAtom → β) :
    l.map g = (List.range l.length).map fun j => g (l.getD j default) := by
  apply List.ext_getElem
  · simp
  · intro i h1 h2
    simp only [List.length_map] at h1
    simp [List.getD, List.getElem?_eq_getElem h1]

section
variable {Dt : E → Data} {pt : E → PPhase} {w₀ : E} (hD : DFam Dt w₀) (hF : Fam pt w₀)

include hF

theorem vec_diff (x : (ℕ × ℕ) × (ℤ × ℤ × ℤ)) (k : Fin 3) : DifferentiableAt ℝ (fun w => vec (pt w) x k) w₀ := by
  have e : (fun w => vec (pt w) x k) = fun w => ((pt w).atm x.1.1).pos k - ((pt w).atm x.1.2).pos k -
      ((![x.2.1, x.2.2.1, x.2.2.2] k : ℤ) : ℝ) * (pt w₀).icc k := by
    funext w
    unfold vec dd
    rw [hF.icc w]
  rw [e]
  exact ((hF.pos _ k).sub (hF.pos _ k)).sub_const _

theorem dist2_diff (x : (ℕ × ℕ) × (ℤ × ℤ × ℤ)) : DifferentiableAt ℝ (fun w => dist2 (pt w) x) w₀ := by
  unfold dist2 Phs.skal skalpro
  refine DifferentiableAt.fun_sum fun i _ => DifferentiableAt.fun_sum fun j _ => ?_
  exact ((vec_diff hF x i).mul (vec_diff hF x j)).mul (hF.gten i j)

theorem msd_diff (x : (ℕ × ℕ) × (ℤ × ℤ × ℤ)) (h : 0 < dist2 (pt w₀) x) : DifferentiableAt ℝ (fun w => msdOf (pt w) x) w₀ := by
  have hn : DifferentiableAt ℝ (fun w => √(dist2 (pt w) x)) w₀ := (dist2_diff hF x).sqrt h.ne'
  have hr : ∀ i, DifferentiableAt ℝ (fun w => ∑ j, (pt w).toPhs.gten i j * (vec (pt w) x j / √(dist2 (pt w) x))) w₀ := by
    intro i
    refine DifferentiableAt.fun_sum fun j _ => ?_
    exact (hF.gten i j).mul ((vec_diff hF x j).dv hn ((Real.sqrt_pos.2 h).ne'))
  have hU : ∀ k, DifferentiableAt ℝ (fun w => ((pt w).atm x.1.1).u k + ((pt w).atm x.1.2).u k) w₀ := fun k => (hF.u _ k).add (hF.u _ k)
  have ha := hF.ar
  unfold msdOf PPhase.msd
  dsimp only
  exact ((((((((((hU 0).mul (ha 0)).mul (ha 0)).mul (hr 0)).mul (hr 0)).add (((((hU 1).mul (ha 1)).mul (ha 1)).mul (hr 1)).mul (hr 1))).add
    (((((hU 2).mul (ha 2)).mul (ha 2)).mul (hr 2)).mul (hr 2))).add
    ((((((hU 3).mul (ha 0)).mul (ha 1)).const_mul 2).mul (hr 0)).mul (hr 1))).add
    ((((((hU 4).mul (ha 0)).mul (ha 2)).const_mul 2).mul (hr 0)).mul (hr 2))).add
    ((((((hU 5).mul (ha 1)).mul (ha 2)).const_mul 2).mul (hr 1)).mul (hr 2)))

include hD

theorem cor_diff (x : (ℕ × ℕ) × (ℤ × ℤ × ℤ)) (h : 0 < dist2 (pt w₀) x) :
    DifferentiableAt ℝ (fun w => corfact (Dt w) (pt w) (dist2 (pt w) x)) w₀ := by
  have hd := dist2_diff hF x
  have hn : DifferentiableAt ℝ (fun w => √(dist2 (pt w) x)) w₀ := hd.sqrt h.ne'
  unfold corfact
  exact (((differentiableAt_const (1 : ℝ)).sub (hF.delta2.dv hd (h.ne'))).sub (hF.delta1.dv hn ((Real.sqrt_pos.2 h).ne'))).add
    ((hD.qbroad.pow 2).mul hd)

theorem sig_diff (δ : Dec) (F : Fact (Dt w₀) (pt w₀) δ) : DifferentiableAt ℝ (fun w => sigB (Dt w) (pt w) δ.1 δ.2.2) w₀ := by
  unfold sigB
  refine (((msd_diff hF δ.1 F.d2).sqrt F.msd.ne').mul ((cor_diff hD hF δ.1 F.d2).sqrt F.cor.ne')).mul ?_
  unfold phiB
  cases δ.2.2
  · simp
  · simpa using hF.sratio

omit hD

theorem np_diff : DifferentiableAt ℝ (fun w => (pt w).np) w₀ := by
  have e : (fun w => (pt w).np) = fun w => ((List.range (pt w₀).atom.length).map fun j => ((pt w).atm j).occ).sum := by
    funext w
    unfold PPhase.np
    rw [map_range, hF.len w]
    rfl
  rw [e]
  exact diff_list _ _ _ fun j _ => hF.occ j

theorem bavg_diff (h : (pt w₀).np ≠ 0) : DifferentiableAt ℝ (fun w => (pt w).bavg) w₀ := by
  have e : (fun w => (pt w).bavg) = fun w =>
      ((List.range (pt w₀).atom.length).map fun j => ((pt w).atm j).occ * ((pt w₀).atm j).sf).sum / (pt w).np := by
    funext w
    unfold PPhase.bavg
    rw [map_range, hF.len w]
    congr 2
    apply List.map_congr_left
    intro j _
    rw [← hF.sf w j]
    rfl
  rw [e]
  exact (diff_list _ _ _ fun j _ => (hF.occ j).mul_const _).dv (np_diff hF) (h)

theorem weight_diff (h : (pt w₀).np ≠ 0) (hb : (pt w₀).bavg ≠ 0) (j : ℕ) : DifferentiableAt ℝ (fun w => (pt w).weight j) w₀ := by
  have e : (fun w => (pt w).weight j) = fun w => ((pt w₀).atm j).sf / (pt w).bavg := by
    funext w
    unfold PPhase.weight
    rw [hF.sf w j]
  rw [e]
  exact (differentiableAt_const _).dv (bavg_diff hF h) (hb)

theorem ampl_diff (h : (pt w₀).np ≠ 0) (hb : (pt w₀).bavg ≠ 0) (i j : ℕ) : DifferentiableAt ℝ (fun w => ampl (pt w) i j) w₀ := by
  unfold ampl
  exact (((hF.occ i).mul (weight_diff hF h hb i)).mul (hF.occ j)).mul (weight_diff hF h hb j)

theorem rtot_diff (h : (pt w₀).np ≠ 0) (hb : (pt w₀).bavg ≠ 0) : DifferentiableAt ℝ (fun w => rtot (pt w)) w₀ := by
  have e : (fun w => rtot (pt w)) = fun w =>
      ((halfPairs (pt w₀).atom.length).map fun x => half x.1 x.2 * (pt w).weight x.1 * (pt w).weight x.2).sum := by
    funext w
    unfold rtot
    rw [hF.len w]
  rw [e]
  exact diff_list _ _ _ fun x _ => ((weight_diff hF h hb _).const_mul _).mul (weight_diff hF h hb _)

theorem ract_diff (s : Sel) (h : (pt w₀).np ≠ 0) (hb : (pt w₀).bavg ≠ 0) : DifferentiableAt ℝ (fun w => ract (pt w) s) w₀ := by
  have e : (fun w => ract (pt w) s) = fun w =>
      (((halfPairs (pt w₀).atom.length).filter fun x => !skip s x.1 x.2).map fun x =>
        half x.1 x.2 * (pt w).weight x.1 * (pt w).weight x.2).sum := by
    funext w
    unfold ract
    rw [hF.len w]
  rw [e]
  exact diff_list _ _ _ fun x _ => ((weight_diff hF h hb _).const_mul _).mul (weight_diff hF h hb _)

theorem ncv_diff : DifferentiableAt ℝ (fun w => (pt w).ncv) w₀ := by
  have e : (fun w => (pt w).ncv) = fun w => (((pt w₀).icc 0 * (pt w₀).icc 1 * (pt w₀).icc 2 : ℕ) : ℝ) * vol (pt w).cell := by
    funext w
    unfold PPhase.ncv
    rw [hF.icc w]
  rw [e]
  exact hF.vol.const_mul _

include hD

theorem hgt_diff (δ : Dec) (F : Fact (Dt w₀) (pt w₀) δ) (h : (pt w₀).np ≠ 0) (hb : (pt w₀).bavg ≠ 0) :
    DifferentiableAt ℝ (fun w => hgt (Dt w) (pt w) δ) w₀ := by
  have hs := sig_diff hD hF δ F
  have hd : DifferentiableAt ℝ (fun w => √(dist2 (pt w) δ.1)) w₀ := (dist2_diff hF δ.1).sqrt F.d2.ne'
  have e : (fun w => hgt (Dt w) (pt w) δ) = fun w => half δ.1.1.1 δ.1.1.2 * ampl (pt w) δ.1.1.1 δ.1.1.2 *
      (1 / (√(2 * Real.pi) * sigB (Dt w) (pt w) δ.1 δ.2.2) *
        Real.exp (-(1 / 2) * (((Dt w₀).rmin + δ.2.1 * (Dt w₀).deltar - √(dist2 (pt w) δ.1)) / sigB (Dt w) (pt w) δ.1 δ.2.2) ^ 2)) := by
    funext w
    have e1 : (Dt w).rmin = (Dt w₀).rmin := by rw [hD.same w]
    have e2 : (Dt w).deltar = (Dt w₀).deltar := by rw [hD.same w]
    unfold hgt gaus
    rw [e1, e2]
  rw [e]
  have h2 : √(2 * Real.pi) ≠ 0 := (Real.sqrt_pos.2 (by positivity)).ne'
  exact ((ampl_diff hF h hb _ _).const_mul _).mul (((differentiableAt_const (1 : ℝ)).dv (hs.const_mul _) (mul_ne_zero h2 F.sig)).mul
    (((((differentiableAt_const _).sub hd).dv hs (F.sig)).pow 2).const_mul _).exp)

theorem pairSum_diff (s : Sel) (i : ℤ) (hp : ∀ᶠ w in nhds w₀, (decisions (Dt w) (pt w) s).Perm (decisions (Dt w₀) (pt w₀) s))
    (h : (pt w₀).np ≠ 0) (hb : (pt w₀).bavg ≠ 0) : DifferentiableAt ℝ (fun w => pairSum (Dt w) (pt w) s i) w₀ := by
  have e : (fun w => pairSum (Dt w) (pt w) s i) =ᶠ[nhds w₀] fun w =>
      ((decisions (Dt w₀) (pt w₀) s).map fun δ => if δ.2.1 = i then hgt (Dt w) (pt w) δ else 0).sum := by
    filter_upwards [hp] with w hw
    rw [pairSum_dec]
    unfold decSum
    exact (hw.map _).sum_eq
  refine DifferentiableAt.congr_of_eventuallyEq ?_ e
  refine diff_list _ (fun (δ : Dec) w => if δ.2.1 = i then hgt (Dt w) (pt w) δ else 0) _ fun δ hδ => ?_
  by_cases hi : δ.2.1 = i
  · simp only [if_pos hi]
    exact hgt_diff hD hF δ (dec_fact hδ).1 h hb
  · simp only [if_neg hi]
    exact differentiableAt_const _

/-- Unless the diameter is zero and changes. -/
theorem env_diff (r : ℝ) (h : (pt w₀).spdiameter ≠ 0 ∨ ∀ w, (pt w).spdiameter = (pt w₀).spdiameter) :
    DifferentiableAt ℝ (fun w => envelope (Dt w) (pt w) r) w₀ := by
  have hb : DifferentiableAt ℝ (fun w => if 0 < (Dt w).qdamp then Real.exp (-(r * (Dt w).qdamp) ^ 2 / 2) else 1) w₀ :=
    (DifferentiableAt.comp w₀ (f := fun w => (Dt w).qdamp) (g := fun t => if 0 < t then Real.exp (-(r * t) ^ 2 / 2) else 1)
      (C44.bk_deriv (Dt w₀).qdamp r).differentiableAt hD.qdamp)
  have hc : DifferentiableAt ℝ (fun w => if 0 < (pt w).spdiameter then Shape.sphereEnvelope r (pt w).spdiameter else 1) w₀ := by
    rcases h with h | h
    · rcases lt_or_gt_of_ne h with h | h
      · refine (differentiableAt_const (1 : ℝ)).congr_of_eventuallyEq ?_
        filter_upwards [hF.spd.continuousAt.eventually_lt continuousAt_const h] with w hw
        rw [if_neg (not_lt.2 hw.le)]
      · have d : DifferentiableAt ℝ (fun w => Shape.sphereEnvelope r (pt w).spdiameter) w₀ :=
          DifferentiableAt.comp w₀ (f := fun w => (pt w).spdiameter) (C43.derivative r _ h).differentiableAt hF.spd
        refine d.congr_of_eventuallyEq ?_
        filter_upwards [continuousAt_const.eventually_lt hF.spd.continuousAt h] with w hw
        rw [if_pos hw]
    · simp only [h]
      exact differentiableAt_const _
  unfold envelope
  refine (hb.mul hc).mul ?_
  simp only [hF.stepcut]
  exact differentiableAt_const _

/-- The curve of one phase. -/
theorem curve_diff (s : Sel) (i : ℤ) (hp : ∀ᶠ w in nhds w₀, (decisions (Dt w) (pt w) s).Perm (decisions (Dt w₀) (pt w₀) s))
    (hb : ¬Bad (Dt w₀) (pt w₀) s) (h : (pt w₀).spdiameter ≠ 0 ∨ ∀ w, (pt w).spdiameter = (pt w₀).spdiameter) :
    DifferentiableAt ℝ (fun w => curve (Dt w) (pt w) s i) w₀ := by
  have h1 : (pt w₀).np ≠ 0 := fun e => hb (.inr (.inl e))
  have h2 : (pt w₀).ncv ≠ 0 := fun e => hb (.inr (.inr (.inl e)))
  have h3 : (pt w₀).bavg ≠ 0 := fun e => hb (.inr (.inr (.inr (.inl e))))
  have h4 : rtot (pt w₀) ≠ 0 := fun e => hb (.inr (.inr (.inr (.inr (.inl e)))))
  have e : (fun w => curve (Dt w) (pt w) s i) = fun w =>
      (pairSum (Dt w) (pt w) s i / (pt w).np / (Dt w₀).r i - 4 * Real.pi * (Dt w₀).r i * (pt w).rho0 *
        (ract (pt w) s / rtot (pt w))) * envelope (Dt w) (pt w) ((Dt w₀).r i) := by
    funext w
    have e1 : (Dt w).r i = (Dt w₀).r i := by rw [hD.same w]; rfl
    unfold curve
    rw [e1]
  rw [e]
  have hrho : DifferentiableAt ℝ (fun w => (pt w).rho0) w₀ := (np_diff hF).dv (ncv_diff hF) (h2)
  exact ((((pairSum_diff hD hF s i hp h1 h3).dv (np_diff hF) (h1)).dc _).sub ((hrho.const_mul _).mul
    ((ract_diff hF s h1 h3).dv (rtot_diff hF h1 h3) (h4)))).mul (env_diff hD hF _ h)

/-- The phase stays usable. -/
theorem good_near (s : Sel) (hn : ∀ᶠ w in nhds w₀, ∀ x ∈ visited (Dt w) (pt w) s, eventOf (Dt w) (pt w) x ≠ .nan)
    (hb : ¬Bad (Dt w₀) (pt w₀) s) : ∀ᶠ w in nhds w₀, ¬Bad (Dt w) (pt w) s := by
  have h1 : (pt w₀).np ≠ 0 := fun e => hb (.inr (.inl e))
  have h2 : (pt w₀).ncv ≠ 0 := fun e => hb (.inr (.inr (.inl e)))
  have h3 : (pt w₀).bavg ≠ 0 := fun e => hb (.inr (.inr (.inr (.inl e))))
  have h4 : rtot (pt w₀) ≠ 0 := fun e => hb (.inr (.inr (.inr (.inr (.inl e)))))
  filter_upwards [hn, (np_diff hF).continuousAt.eventually_ne h1, (ncv_diff hF).continuousAt.eventually_ne h2,
    (bavg_diff hF h1).continuousAt.eventually_ne h3, (rtot_diff hF h1 h3).continuousAt.eventually_ne h4] with w g0 g1 g2 g3 g4
  rintro (⟨x, hx, e⟩ | e | e | e | e | ⟨i, i1, i2, e⟩)
  · exact g0 x hx e
  · exact g1 e
  · exact g2 e
  · exact g3 e
  · exact g4 e
  · refine hb (.inr (.inr (.inr (.inr (.inr ⟨i, ?_, ?_, ?_⟩)))))
    · rw [hD.same w] at i1; exact i1
    · rw [hD.same w] at i2; exact i2
    · rw [hD.same w] at e; exact e

theorem path_of : Path Dt pt w₀ where
  grid := fun w => by
    have a : (Dt w).rcmax = (Dt w₀).rcmax := by rw [hD.same w]; rfl
    refine ⟨by rw [hD.same w]; rfl, by rw [hD.same w]; rfl, by rw [hD.same w]; rfl, by rw [hD.same w], by rw [hD.same w], ?_⟩
    unfold hiEnd
    rw [hF.stepcut w, a]
  rcut := hF.rcut
  sratio := hF.sratio.continuousAt

/-- Steady elements of a list. -/
theorem steady_near (L : List ((ℕ × ℕ) × (ℤ × ℤ × ℤ))) (hS : ∀ x ∈ L, Steady (Dt w₀) (pt w₀) x) :
    ∀ᶠ w in nhds w₀, L.flatMap (piece (Dt w) (pt w)) = L.flatMap (piece (Dt w₀) (pt w₀)) ∧
      ∀ x ∈ L, eventOf (Dt w) (pt w) x ≠ .nan :=
  steady_list (path_of hD hF) L hS (fun x _ => (dist2_diff hF x).continuousAt) (fun x _ h => (msd_diff hF x h).continuousAt)
    fun x _ h => (cor_diff hD hF x h).continuousAt

/-- The decisions do not change and the peaks stay numbers. -/
def Kept (Dt : E → Data) (pt : E → PPhase) (w₀ : E) (s : Sel) : Prop :=
  ∀ᶠ w in nhds w₀, (decisions (Dt w) (pt w) s).Perm (decisions (Dt w₀) (pt w₀) s) ∧
    ∀ x ∈ visited (Dt w) (pt w) s, eventOf (Dt w) (pt w) x ≠ .nan

/-- Fixed cells. -/
theorem kept_cell (s : Sel) (hc : ∀ w, (pt w).cell = (pt w₀).cell) (hS : ∀ x ∈ visited (Dt w₀) (pt w₀) s, Steady (Dt w₀) (pt w₀) x) :
    Kept Dt pt w₀ s := by
  have hv : ∀ w, visited (Dt w) (pt w) s = visited (Dt w₀) (pt w₀) s := by
    intro w
    have hci : circumDiameter (pt w).toPhs = circumDiameter (pt w₀).toPhs := by
      unfold circumDiameter
      have e1 : ((pt w).toPhs.atom = []) = ((pt w₀).toPhs.atom = []) := by
        rw [← List.length_eq_zero_iff, ← List.length_eq_zero_iff]
        simp only [PPhase.toPhs, List.length_map, hF.len w]
      have e2 : (pt w).toPhs.skal = (pt w₀).toPhs.skal := by
        unfold Phs.skal Phs.gten
        show (fun h k => skalpro (tensor (pt w).cell.a0 (pt w).cell.win) h k) = _
        rw [hc w]
        rfl
      simp only [e1, e2]
    have hsp : sphere (Dt w) (pt w) = sphere (Dt w₀) (pt w₀) := by
      have d1 : (Dt w).rmin2 = (Dt w₀).rmin2 := by rw [hD.same w]; rfl
      have d2 : (Dt w).rmax2 = (Dt w₀).rmax2 := by rw [hD.same w]; rfl
      unfold sphere
      rw [d1, d2, hci, hc w, hF.icc w, hF.stepcut w]
    unfold visited
    rw [hF.len w, hsp]
  unfold Kept
  filter_upwards [steady_near hD hF _ hS] with w hw
  rw [decisions_eq, decisions_eq, hv w]
  exact ⟨by rw [hw.1], hw.2⟩

end

/-! ## Orthogonal cells with changing edges -/

theorem scale2 {p q : PPhase} (Op : Orth p.cell) (Oq : Orth q.cell) (h : ∀ k, 0 < p.cell.a0 k ∧ p.cell.a0 k ≤ 2 * q.cell.a0 k)
    (v : Fin 3 → ℝ) : √(p.toPhs.skal v v) ≤ 2 * √(q.toPhs.skal v v) := by
  rw [skal_orth Op, skal_orth Oq]
  have key : ∀ j, (v j * p.cell.a0 j) ^ 2 ≤ 2 ^ 2 * (v j * q.cell.a0 j) ^ 2 := by
    intro j
    obtain ⟨h1, h2⟩ := h j
    have a1 : p.cell.a0 j ^ 2 ≤ 4 * q.cell.a0 j ^ 2 := by nlinarith
    calc (v j * p.cell.a0 j) ^ 2 = v j ^ 2 * p.cell.a0 j ^ 2 := by ring
      _ ≤ v j ^ 2 * (4 * q.cell.a0 j ^ 2) := mul_le_mul_of_nonneg_left a1 (sq_nonneg _)
      _ = _ := by ring
  have two : ∀ y : ℝ, 2 * √y = √(2 ^ 2 * y) := fun y => by
    rw [Real.sqrt_mul (by norm_num), Real.sqrt_sq (by norm_num)]
  unfold sq3
  rw [two]
  exact Real.sqrt_le_sqrt (by linarith [key 0, key 1, key 2])

theorem fine2 {p q : PPhase} (Oq : Orth q.cell) (F : C19.Fine p.toPhs) (hw : q.cell.win = p.cell.win) (hi : q.icc = p.icc)
    (he : ∀ k, 0 < q.cell.a0 k) : C19.Fine q.toPhs where
  acc := by
    obtain ⟨m, hm⟩ := F.acc
    unfold lattice at hm ⊢
    have e : voll q.toPhs.cell = voll p.toPhs.cell := by
      show voll q.cell = voll p.cell
      unfold voll
      rw [hw]
    rw [e]
    split at hm
    · cases hm
    · rename_i hc
      rw [if_neg hc]
      exact ⟨_, rfl⟩
  edge := he
  angle := fun j => by
    show 0 < q.cell.win j ∧ q.cell.win j < 180
    rw [hw]
    exact F.angle j
  small := fun i j _ => by
    left
    have := Oq.cos (third i j)
    show _ * Parser.bcosd (q.cell.win (third i j)) = 0
    rw [this, mul_zero]
  icc := fun j => by
    show 0 < q.icc j
    rw [hi]
    exact F.icc j

theorem orth2 {p q : PPhase} (Op : Orth p.cell) (hw : q.cell.win = p.cell.win) (he : ∀ k, q.cell.a0 k ≠ 0) : Orth q.cell :=
  ⟨fun k => by rw [hw]; exact Op.cos k, fun k => by rw [hw]; exact Op.sin k, he⟩

section
variable {Dt : E → Data} {pt : E → PPhase} {w₀ : E} (hD : DFam Dt w₀) (hF : Fam pt w₀)
include hD hF

theorem kept_orth (s : Sel) (O : Orth (pt w₀).cell) (F : C19.Fine (pt w₀).toPhs) (hw : ∀ w, (pt w).cell.win = (pt w₀).cell.win)
    (ca : ∀ k, ContinuousAt (fun w => (pt w).cell.a0 k) w₀)
    (hp : ∀ i j, i < (pt w₀).atom.length → j < (pt w₀).atom.length → ∀ k, |((pt w₀).atm i).pos k - ((pt w₀).atm j).pos k| < 1)
    (hs : (pt w₀).stepcut ≤ 0) (hS : ∀ x ∈ selPairs s (pt w₀).atom.length, ∀ T, Steady (Dt w₀) (pt w₀) (x, T)) :
    Kept Dt pt w₀ s := by
  set n := (pt w₀).atom.length with hn
  have hat : (pt w₀).toPhs.atom ≠ [] → 0 < n := by
    intro e
    rw [← List.length_pos_iff] at e
    simpa [PPhase.toPhs] using e
  set R := 2 * (2 * circumDiameter (pt w₀).toPhs + √(Dt w₀).rmax2) with hR
  set K : Sphere.Cst := { rmin := 0, rmax := |R|, lat := (sphere (Dt w₀) (pt w₀)).lat } with hK
  set L := Sphere.points K with hL
  have g : C18.Good K.lat := C24.good (D := Dt w₀) F
  have nd : L.Nodup := C18.nodup_points g
  have a0 : ∀ k, 0 < (pt w₀).cell.a0 k := fun k => F.edge k
  -- nearby points
  have near : ∀ᶠ w in nhds w₀, (∀ k, (pt w₀).cell.a0 k / 2 < (pt w).cell.a0 k ∧ (pt w).cell.a0 k < 2 * (pt w₀).cell.a0 k) ∧
      ∀ i j, i < n → j < n → ∀ k, |((pt w).atm i).pos k - ((pt w).atm j).pos k| < 1 := by
    refine Eventually.and ?_ ?_
    · rw [eventually_all]
      intro k
      have h1 : (pt w₀).cell.a0 k / 2 < (pt w₀).cell.a0 k := by linarith [a0 k]
      have h2 : (pt w₀).cell.a0 k < 2 * (pt w₀).cell.a0 k := by linarith [a0 k]
      exact (continuousAt_const.eventually_lt (ca k) h1).and ((ca k).eventually_lt continuousAt_const h2)
    · have : ∀ᶠ w in nhds w₀, ∀ i ∈ Finset.range n, ∀ j ∈ Finset.range n, ∀ k : Fin 3,
          |((pt w).atm i).pos k - ((pt w).atm j).pos k| < 1 := by
        rw [Filter.eventually_all_finset]
        intro i hi
        rw [Filter.eventually_all_finset]
        intro j hj
        rw [eventually_all]
        intro k
        have c : ContinuousAt (fun w => |((pt w).atm i).pos k - ((pt w).atm j).pos k|) w₀ :=
          ((hF.pos i k).continuousAt.sub (hF.pos j k).continuousAt).abs
        exact c.eventually_lt continuousAt_const (hp i j (by simpa using hi) (by simpa using hj) k)
      filter_upwards [this] with w h i j hi hj k
      exact h i (by simpa using hi) j (by simpa using hj) k
  have hcov : ∀ w, (∀ k, (pt w₀).cell.a0 k / 2 < (pt w).cell.a0 k ∧ (pt w).cell.a0 k < 2 * (pt w₀).cell.a0 k) →
      (∀ i j, i < n → j < n → ∀ k, |((pt w).atm i).pos k - ((pt w).atm j).pos k| < 1) →
      Orth (pt w).cell ∧ C19.Fine (pt w).toPhs ∧ C24.Near (pt w) ∧
      ∀ i j T, i < (pt w).atom.length → j < (pt w).atom.length →
        event (Dt w) (pt w) ((pt w).atm i) ((pt w).atm j) T ≠ .skip → T ∈ L := by
    intro w h1 h2
    have hpos : ∀ k, 0 < (pt w).cell.a0 k := fun k => by have := (h1 k).1; linarith [a0 k]
    have Ow : Orth (pt w).cell := orth2 O (hw w) fun k => (hpos k).ne'
    have Fw := fine2 Ow F (hw w) (hF.icc w) hpos
    refine ⟨Ow, Fw, C24.near_of _ Fw fun i j hi hj k => (h2 i j (by rw [hn, ← hF.len w]; exact hi) (by rw [hn, ← hF.len w]; exact hj) k).le, ?_⟩
    intro i j T hi hj he
    rw [hF.len w] at hi hj
    rw [hL, C18.no_rmin K g le_rfl (abs_nonneg R)]
    show C18.len2 (sphere (Dt w₀) (pt w₀)).lat T < |R| ^ 2
    rw [C24.len2 F, sq_abs]
    have q1 := (C24.tri Fw i j T).1
    have q2 := Real.sqrt_le_sqrt (C24.event_range he).2
    have e2 : (Dt w).rmax2 = (Dt w₀).rmax2 := by rw [hD.same w]; rfl
    have q3 := scale2 Ow O (fun k => ⟨hpos k, (h1 k).2.le⟩) fun m => ((pt w).atm i).pos m - ((pt w).atm j).pos m
    have q4 := C19.diag_bound _ F (by
      intro e
      have : (pt w₀).toPhs.atom.length = n := by simp [PPhase.toPhs, hn]
      rw [e] at this
      simp at this
      omega) _ fun k => (h2 i j hi hj k).le
    have q5 : C24.tlen (pt w₀) T ≤ 2 * C24.tlen (pt w) T := by
      have := scale2 O Ow (fun k => ⟨a0 k, by have := (h1 k).1; linarith⟩) (C19.tvec (pt w₀).toPhs T)
      have e : C19.tvec (pt w).toPhs T = C19.tvec (pt w₀).toPhs T := by
        funext k
        unfold C19.tvec
        show _ * ((pt w).icc k : ℝ) = _ * ((pt w₀).icc k : ℝ)
        rw [hF.icc w]
      unfold C24.tlen
      rw [e]
      exact this
    rw [e2] at q2
    have q7 : C24.tlen (pt w₀) T < R := by rw [hR]; linarith
    exact pow_lt_pow_left₀ q7 (Real.sqrt_nonneg _) two_ne_zero
  have key := steady_near hD hF (onList s n L) fun x hx => by
    unfold onList at hx
    rw [List.mem_flatMap] at hx
    obtain ⟨y, hy, hx⟩ := hx
    rw [List.mem_map] at hx
    obtain ⟨T, -, rfl⟩ := hx
    exact hS y hy T
  obtain ⟨-, -, N0, c0⟩ := hcov w₀ (near.self_of_nhds).1 (near.self_of_nhds).2
  have d0 := cover (Dt w₀) (pt w₀) s F N0 hs L nd c0
  unfold Kept
  filter_upwards [key, near] with w ht hw'
  obtain ⟨-, Fw, Nw, cw⟩ := hcov w hw'.1 hw'.2
  have ct := cover (Dt w) (pt w) s Fw Nw (by rw [hF.stepcut w]; exact hs) L nd cw
  rw [hF.len w] at ct
  constructor
  · refine ct.1.trans ?_
    rw [ht.1]
    exact d0.1.symm
  · intro x hx he
    obtain ⟨y, hy, hn⟩ := ct.2 ⟨x, hx, he⟩
    exact ht.2 y hy hn

end

/-- Metric quantities of fixed cells. -/
theorem metric_cell {pt : E → PPhase} {w₀ : E} (hc : ∀ w, (pt w).cell = (pt w₀).cell) :
    (∀ i j, DifferentiableAt ℝ (fun w => (pt w).toPhs.gten i j) w₀) ∧ (∀ i, DifferentiableAt ℝ (fun w => recEdge (pt w).cell i) w₀) ∧
    DifferentiableAt ℝ (fun w => vol (pt w).cell) w₀ := by
  refine ⟨fun i j => ?_, fun i => ?_, ?_⟩
  · have : (fun w => (pt w).toPhs.gten i j) = fun _ => (pt w₀).toPhs.gten i j := by
      funext w
      unfold Phs.gten
      show tensor (pt w).cell.a0 (pt w).cell.win i j = _
      rw [hc w]
      rfl
    rw [this]
    exact differentiableAt_const _
  · simp only [hc]
    exact differentiableAt_const _
  · simp only [hc]
    exact differentiableAt_const _

/-- Metric quantities of orthogonal cells. -/
theorem metric_orth {pt : E → PPhase} {w₀ : E} (O : Orth (pt w₀).cell) (hw : ∀ w, (pt w).cell.win = (pt w₀).cell.win)
    (da : ∀ k, DifferentiableAt ℝ (fun w => (pt w).cell.a0 k) w₀) :
    (∀ i j, DifferentiableAt ℝ (fun w => (pt w).toPhs.gten i j) w₀) ∧ (∀ i, DifferentiableAt ℝ (fun w => recEdge (pt w).cell i) w₀) ∧
    DifferentiableAt ℝ (fun w => vol (pt w).cell) w₀ := by
  have ev : ∀ᶠ w in nhds w₀, Orth (pt w).cell := by
    have : ∀ᶠ w in nhds w₀, ∀ k, (pt w).cell.a0 k ≠ 0 := by
      rw [eventually_all]
      exact fun k => (da k).continuousAt.eventually_ne (O.edge k)
    filter_upwards [this] with w h
    exact orth2 O (hw w) h
  refine ⟨fun i j => ?_, fun i => ?_, ?_⟩
  · have d : DifferentiableAt ℝ (fun w => if i = j then (pt w).cell.a0 i ^ 2 else 0) w₀ := by
      by_cases e : i = j
      · simp only [if_pos e]; exact (da i).pow 2
      · simp only [if_neg e]; exact differentiableAt_const _
    refine d.congr_of_eventuallyEq ?_
    filter_upwards [ev] with w h
    exact gten_orth h i j
  · refine ((differentiableAt_const (1 : ℝ)).dv (da i) (O.edge i)).congr_of_eventuallyEq ?_
    filter_upwards [ev] with w h
    exact rec_orth h i
  · refine (((da 0).mul (da 1)).mul (da 2)).congr_of_eventuallyEq ?_
    filter_upwards [ev] with w h
    exact vol_orth h

end Pdffit.Deriv
