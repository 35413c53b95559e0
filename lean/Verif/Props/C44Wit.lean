import Verif.Props.C44
import Verif.Lemmas.DerivWitB
import Mathlib.Analysis.SpecialFunctions.Trigonometric.Deriv

/-!
# C44: examples, and cases where the columns are not derivatives

* With several phases the column of `qbroad` has the factor of the last phase.
* In cells that are not orthogonal the columns of positions, displacement parameters and edges are wrong.
* The columns of angles neglect the change of the width of the peaks.
* A vanishing occupancy or scale factor gives a column that is not a number.
-/

namespace Pdffit.C44
open Geom Parser Bonds Det Layout Deriv Filter

/-- A way to show that a column is not the derivative. -/
theorem not_correct {D : Data} (h : D.Ok) (hq : D.qmax ≤ 0) (is : ℕ) (v : RVar) (psel : List (Option (PPhase × Sel)))
    (hb : ∀ x, some x ∈ psel → ¬Bad D x.1 x.2) (i : ℤ) (h1 : D.ncmin ≤ i) (h2 : i ≤ D.ncmax) (g : ℝ → ℝ) (g' : ℝ)
    (hg : ∀ᶠ t in nhds (value D is psel v), ∀ f, determine (updData v t is D) (updSel v t psel) = .ok (some f) → f i = g t)
    (hd : HasDerivAt g g' (value D is psel v)) (hne : column D is v psel i ≠ g') : ¬Correct D is v psel := by
  rintro ⟨c, F, e1, e2, e3⟩
  have hc : c i = column D is v psel i := by
    by_cases h0 : Div0 D is v psel
    · exfalso
      obtain ⟨t, e4, -⟩ := total_spec h psel
      rw [if_pos hb] at e4
      obtain ⟨p, e5, -⟩ := raw_spec h is v psel
      obtain ⟨l, e6, -⟩ := calcs_spec h psel
      unfold fitA at e1
      rw [e4, e5, e6] at e1
      simp only [Res.bind_ok] at e1
      rw [if_pos h0] at e1
      cases e1
    · obtain ⟨c', e4, e5⟩ := fitA_of h is v psel hb h0
      rw [e4] at e1
      cases e1
      rw [e5 i h1 h2]
      unfold filt
      rw [if_neg (not_lt.2 hq)]
  have heq : (fun t => F t i) =ᶠ[nhds (value D is psel v)] g := by
    filter_upwards [hg, e2] with t ht hF
    exact ht _ hF
  have := (e3 i h1 h2).congr_of_eventuallyEq heq.symm
  exact hne (hc ▸ (this.unique hd))

/-- A column with a division by zero is not the derivative. -/
theorem div0_violated {D : Data} (h : D.Ok) (is : ℕ) (v : RVar) (psel : List (Option (PPhase × Sel))) (h0 : Div0 D is v psel) :
    fitA D is v psel = .ok none ∧ ¬Correct D is v psel := by
  have e : fitA D is v psel = .ok none := by
    obtain ⟨t, e4, -⟩ := total_spec h psel
    obtain ⟨p, e5, -⟩ := raw_spec h is v psel
    obtain ⟨l, e6, -⟩ := calcs_spec h psel
    unfold fitA
    rw [e4, e5, e6]
    simp only [Res.bind_ok]
    split
    · rfl
    · rw [if_pos h0]
  refine ⟨e, ?_⟩
  rintro ⟨c, F, e1, -⟩
  rw [e] at e1
  cases e1

/-- A data set with scale factor zero. -/
theorem dscale_violated {D : Data} (h : D.Ok) (is : ℕ) (psel : List (Option (PPhase × Sel))) (h0 : D.dscale = 0) :
    fitA D is (.dscale is) psel = .ok none ∧ ¬Correct D is (.dscale is) psel :=
  div0_violated h is _ psel (.inl ⟨rfl, h0⟩)

/-- An atom with occupancy zero. -/
theorem occ_violated {D : Data} (h : D.Ok) (is : ℕ) (psel : List (Option (PPhase × Sel))) (ip ia : ℕ) (ph : PPhase) (s : Sel)
    (hx : psel[ip]? = some (some (ph, s))) (h0 : (ph.atm ia).occ = 0) :
    fitA D is (.occ ip ia) psel = .ok none ∧ ¬Correct D is (.occ ip ia) psel :=
  div0_violated h is _ psel (.inr ⟨ip, ia, ph, s, rfl, hx, h0⟩)

theorem reg90 : Reg (33 / 10) 90 0 (1 / 200) := by
  constructor <;> norm_num [C45.cosd90]

theorem reg120 : Reg (33 / 10) 120 0 (1 / 200) := by
  constructor <;> norm_num [C45.cosd120]

theorem wit_good {a γ x u : ℝ} (R : Reg a γ x u) (qb : ℝ) :
    ∀ y, some y ∈ [some (wit a γ x u, witS)] → ¬Bad (witD qb) y.1 y.2 := by
  intro y hy
  simp only [List.mem_singleton, Option.some.injEq] at hy
  subst hy
  exact (wit_dec R qb).2

/-- The value of the curve. -/
noncomputable def val₀ (qb a γ x u : ℝ) : ℝ :=
  hgt₀ qb a γ x u / 2 / (11 / 5) - 4 * Real.pi * (11 / 5) * (2 / (√(1 - bcosd γ ^ 2) * a * 4 * 10))

theorem wit_value {a γ x u : ℝ} (R : Reg a γ x u) (qb : ℝ) (f : ℤ → ℝ)
    (hf : determine (witD qb) [some (wit a γ x u, witS)] = .ok (some f)) : f 0 = val₀ qb a γ x u := by
  have h := (determine_some (witD_ok qb) hf).2 0 (by rw [witD_ncmin]) (by rw [witD_ncmax])
  rw [h]
  simp only [List.filterMap_cons, id_eq, List.filterMap_nil, List.map_cons, List.map_nil, List.sum_cons, List.sum_nil, add_zero]
  unfold filt
  rw [if_neg (by simp [witD]), wit_curve R]
  simp [witD, wit, val₀]

/-- The peak of the structure with angle 120 for which the centre is at the grid point. -/
noncomputable def pk₀ : Pk := pk (witD 0) (wit (33 / 10) 120 0 (1 / 200)) x₀ (√(dist2 (wit (33 / 10) 120 0 (1 / 200)) x₀))
  (sigB (witD 0) (wit (33 / 10) 120 0 (1 / 200)) x₀ false) 0

theorem msd120 : msd₀ 120 (1 / 200) = 1 / 60 := by
  unfold msd₀
  rw [C45.cosd120]
  norm_num

theorem pk_dist : pk₀.dist = 11 / 5 := by
  show √(dist2 (wit (33 / 10) 120 0 (1 / 200)) x₀) = _
  rw [wit_dist reg120]
  norm_num

theorem pk_sigmap : pk₀.sigmap = √(1 / 60) := by
  show √(msdOf (wit (33 / 10) 120 0 (1 / 200)) x₀) = _
  rw [wit_msd reg120, msd120]

theorem pk_sigma : pk₀.sigma = √(1 / 60) := by
  show √(msdOf (wit (33 / 10) 120 0 (1 / 200)) x₀) * √(1 - 0 / _ - 0 / _ + 0 ^ 2 * _) * 1 = _
  rw [wit_msd reg120, msd120]
  simp

theorem pk_rk : pk₀.rk = 11 / 5 := by
  show (11 : ℝ) / 5 + ((0 : ℤ) : ℝ) * (1 / 10) = 11 / 5
  simp

theorem pk_d : pk₀.d = ![11 / 5, 0, 0] := by
  funext k
  show vec (wit (33 / 10) 120 0 (1 / 200)) x₀ k * (![33 / 10, 4, 10] : Fin 3 → ℝ) k = _
  rw [wit_vec0]
  fin_cases k <;> simp
  norm_num

theorem pk_T : pk₀.T = hgt₀ 0 (33 / 10) 120 0 (1 / 200) := by
  rw [← wit_hgt reg120 0]
  unfold hgt Pk.T pk₀ pk
  dsimp only
  congr 1
  simp [half, x₀]
  ring

theorem pk_T_pos : 0 < pk₀.T := by
  rw [pk_T]
  unfold hgt₀ gaus
  rw [msd120]
  have : 0 < √(1 / 60 : ℝ) := Real.sqrt_pos.2 (by norm_num)
  have : 0 < √(2 * Real.pi) := Real.sqrt_pos.2 (by positivity)
  have : 0 < √(1 + 0 ^ 2 * (33 / 10 * (0 + 2 / 3)) ^ 2 : ℝ) := Real.sqrt_pos.2 (by positivity)
  positivity

theorem pk_rd : pk₀.rd = 0 := by
  unfold Pk.rd
  rw [pk_rk, pk_dist]
  simp

theorem pk_dTds : pk₀.dTds = -(pk₀.T / √(1 / 60)) := by
  unfold Pk.dTds
  rw [pk_rd, pk_sigma]
  ring

theorem pk_dTdr : pk₀.dTdr = 0 := by
  unfold Pk.dTdr
  rw [pk_rk, pk_dist]
  simp

theorem pk_dsdsp : pk₀.dsdsp = 1 := by
  unfold Pk.dsdsp
  rw [pk_sigma, pk_sigmap]
  exact div_self (Real.sqrt_pos.2 (by norm_num)).ne'

theorem pk_dsdr : pk₀.dsdr = 0 := by
  unfold Pk.dsdr
  show _ * (2 * 0 / _ + 0 / _ + 2 * 0 ^ 2 * _) = 0
  simp

theorem pk_s0 : pk₀.s 0 = 1 / 100 := by
  show (1 / 200 : ℝ) + 1 / 200 = _
  norm_num

theorem pk_gd0 : pk₀.gd 0 = 11 / 5 := by
  unfold Pk.gd
  rw [pk_d]
  simp

theorem pk_sd0 : pk₀.sd 0 = 11 / 500 := by
  unfold Pk.sd
  rw [pk_d]
  simp [pk_s0]
  norm_num

theorem pk_dgx : pk₀.dgx 0 = 3 / 5 * pk₀.T := by
  have hs : √(1 / 60 : ℝ) ^ 2 = 1 / 60 := Real.sq_sqrt (by norm_num)
  have hs0 : √(1 / 60 : ℝ) ≠ 0 := (Real.sqrt_pos.2 (by norm_num)).ne'
  have ha : pk₀.ph.cell.a0 0 = 33 / 10 := rfl
  unfold Pk.dgx
  dsimp only
  rw [pk_dTds, pk_dsdsp, pk_dsdr, pk_dTdr, pk_gd0, pk_sd0, pk_dist, pk_sigmap, ha]
  unfold Pk.dspdr
  rw [pk_sigmap, pk_dist]
  field_simp
  rw [hs]
  ring

theorem pk_dga : pk₀.dga 0 = 4 / 33 * pk₀.T := by
  have hs : √(1 / 60 : ℝ) ^ 2 = 1 / 60 := Real.sq_sqrt (by norm_num)
  have hs0 : √(1 / 60 : ℝ) ≠ 0 := (Real.sqrt_pos.2 (by norm_num)).ne'
  have ha : pk₀.ph.cell.a0 0 = 33 / 10 := rfl
  have hd : pk₀.d 0 = 11 / 5 := by rw [pk_d]; rfl
  unfold Pk.dga
  dsimp only
  rw [pk_dTds, pk_dsdsp, pk_dsdr, pk_dTdr, pk_gd0, pk_sd0, pk_dist, pk_sigmap, ha, hd]
  unfold Pk.dspdr
  rw [pk_sigmap, pk_dist]
  field_simp
  ring_nf
  rw [hs]
  ring

theorem pk_dgu : pk₀.dgu 0 = -30 * pk₀.T := by
  have hs : √(1 / 60 : ℝ) ^ 2 = 1 / 60 := Real.sq_sqrt (by norm_num)
  have hs0 : √(1 / 60 : ℝ) ≠ 0 := (Real.sqrt_pos.2 (by norm_num)).ne'
  have hd : pk₀.d 0 = 11 / 5 := by rw [pk_d]; rfl
  show pk₀.fsimp * pk₀.d 0 ^ 2 = _
  unfold Pk.fsimp
  rw [pk_dTds, pk_dsdsp, pk_dist, pk_sigmap, hd]
  field_simp
  rw [hs]
  ring

theorem pk_dgw : pk₀.dgw 2 = 0 := by
  have hd : pk₀.d (2 + 2) = 0 := by rw [pk_d]; rfl
  unfold Pk.dgw
  dsimp only
  rw [hd]
  simp

/-- The structure of the following counterexamples: two atoms in a cell with an angle of 120 degrees. -/
noncomputable def psel₀ : List (Option (PPhase × Sel)) := [some (wit (33 / 10) 120 0 (1 / 200), witS)]

theorem good₀ : ∀ y, some y ∈ psel₀ → ¬Bad (witD 0) y.1 y.2 := wit_good reg120 0

theorem col₀ (v : RVar) (hv : owner v = some 0) : column (witD 0) 0 v psel₀ 0 =
    runOn v (phaseStmts (witD 0) (wit (33 / 10) 120 0 (1 / 200)) witS 0 (11 / 5) (curve (witD 0) (wit (33 / 10) 120 0 (1 / 200)) witS 0))
      (valOf v (pk₀.adds 0 0 0 1)) := by
  rw [column_phase (witD 0) 0 v psel₀ 0 (wit (33 / 10) 120 0 (1 / 200), witS) rfl hv 0, witD_r]
  dsimp only
  rw [wit_decSum reg120]
  rfl

theorem fac₀ : fac (witD 0) (wit (33 / 10) 120 0 (1 / 200)) (11 / 5) = 1 / (2 * (11 / 5)) := by
  unfold fac facs facp shapeEnv bk
  rw [wit_np]
  simp [wit, witD]

/-- Derivative of the height of the peak at the grid point, where a shift of the peak has no effect. -/
theorem hgt_flat (r σ : ℝ → ℝ) (r' σ' t₀ : ℝ) (hr : HasDerivAt r r' t₀) (hs : HasDerivAt σ σ' t₀) (r0 : r t₀ = 11 / 5) (s0 : σ t₀ ≠ 0) :
    HasDerivAt (fun t => 2 * gaus (witD 0) (r t) (σ t) 0) (-(2 * gaus (witD 0) (11 / 5) (σ t₀) 0) / σ t₀ * σ') t₀ := by
  refine (gaus_deriv (witD 0) 0 2 r σ r' σ' t₀ hr hs s0).congr_deriv ?_
  have : (witD 0).rmin + ((0 : ℤ) : ℝ) * (witD 0).deltar - r t₀ = 0 := by rw [r0]; simp [witD]
  rw [this, r0]
  ring

theorem T₀ : 2 * gaus (witD 0) (11 / 5) (√(1 / 60)) 0 = pk₀.T := by
  rw [pk_T]
  unfold hgt₀
  rw [msd120, show (33 / 10 : ℝ) * (0 + 2 / 3) = 11 / 5 by norm_num]
  simp

/-- Displacement parameters in a cell that is not orthogonal. -/
theorem u_violated : ¬Correct (witD 0) 0 (.u 0 0 0) psel₀ := by
  have hval : value (witD 0) 0 psel₀ (.u 0 0 0) = 1 / 200 := rfl
  have hT := pk_T_pos
  have hs : √(1 / 60 : ℝ) * √(1 / 60) = 1 / 60 := Real.mul_self_sqrt (by norm_num)
  have hs0 : √(1 / 60 : ℝ) ≠ 0 := (Real.sqrt_pos.2 (by norm_num)).ne'
  have hm : HasDerivAt (fun t => msd₀ 120 t) (4 / 3) (1 / 200) := by
    have : (fun t => msd₀ 120 t) = fun t : ℝ => (t + (1 / 200 + 1 / 400)) / (3 / 4) := by
      funext t
      unfold msd₀
      rw [C45.cosd120]
      ring
    rw [this]
    refine (((hasDerivAt_id' (1 / 200 : ℝ)).add_const _).div_const _).congr_deriv ?_
    norm_num
  have hsg : HasDerivAt (fun t => √(msd₀ 120 t) * √(1 + 0 ^ 2 * (33 / 10 * (0 + 2 / 3)) ^ 2))
      (4 / 3 / (2 * √(1 / 60))) (1 / 200) := by
    have := hm.sqrt (by rw [msd120]; norm_num)
    rw [msd120] at this
    simpa using this
  have hh := (hgt_flat (fun _ => 33 / 10 * (0 + 2 / 3)) _ 0 _ (1 / 200) (hasDerivAt_const _ _) hsg (by norm_num)
    (by rw [msd120]; simp)).congr_deriv (g' := -pk₀.T / √(1 / 60) * (4 / 3 / (2 * √(1 / 60))))
    (by rw [msd120, show √(1 + 0 ^ 2 * (33 / 10 * (0 + 2 / 3)) ^ 2 : ℝ) = 1 by simp, mul_one, T₀])
  have hg : HasDerivAt (fun t => val₀ 0 (33 / 10) 120 0 t) (-40 * pk₀.T / 2 / (11 / 5)) (1 / 200) := by
    have := ((hh.div_const 2).div_const (11 / 5)).sub_const (4 * Real.pi * (11 / 5) * (2 / (√(1 - bcosd 120 ^ 2) * (33 / 10) * 4 * 10)))
    refine HasDerivAt.congr_deriv this ?_
    have e : -pk₀.T / √(1 / 60) * (4 / 3 / (2 * √(1 / 60))) = -40 * pk₀.T := by
      have : -pk₀.T / √(1 / 60) * (4 / 3 / (2 * √(1 / 60))) = -pk₀.T * (2 / 3) / (√(1 / 60) * √(1 / 60)) := by
        field_simp
        norm_num
      rw [this, hs]
      ring
    rw [e]
  refine not_correct (witD_ok 0) (by simp [witD]) 0 _ psel₀ good₀ 0 (by rw [witD_ncmin]) (by rw [witD_ncmax])
    (fun t => val₀ 0 (33 / 10) 120 0 t) _ ?_ (by rw [hval]; exact hg) ?_
  · rw [hval]
    filter_upwards [(lt_mem_nhds (by norm_num) : ∀ᶠ t : ℝ in nhds (1 / 200), 0 < t)] with t ht f hf
    have R : Reg (33 / 10) 120 0 t := { reg120 with u1 := ht }
    refine wit_value R 0 f ?_
    have e : updSel (.u 0 0 0) t psel₀ = [some (wit (33 / 10) 120 0 t, witS)] := by
      have : Function.update (![200⁻¹, 200⁻¹, 200⁻¹, 0, 0, 0] : Fin 6 → ℝ) 0 t = ![t, 200⁻¹, 200⁻¹, 0, 0, 0] := by
        funext k
        fin_cases k <;> simp
      unfold psel₀ updSel
      simp [updPhase, onAtom, wit, this]
    rw [← e]
    exact hf
  · rw [col₀ _ rfl, run_u _ _ _ _ _ _ 0 0 (by simp [wit]), val_u, fac₀, if_pos rfl, if_neg (by norm_num), pk_dgu]
    intro e
    linarith

/-- Positions in a cell that is not orthogonal. -/
theorem pos_violated : ¬Correct (witD 0) 0 (.pos 0 0 0) psel₀ := by
  have hval : value (witD 0) 0 psel₀ (.pos 0 0 0) = 0 := rfl
  have hT := pk_T_pos
  have hr : HasDerivAt (fun t : ℝ => 33 / 10 * (t + 2 / 3)) (33 / 10) 0 := by
    refine (((hasDerivAt_id' (0 : ℝ)).add_const _).const_mul _).congr_deriv ?_
    norm_num
  have hsg : HasDerivAt (fun t : ℝ => √(msd₀ 120 (1 / 200)) * √(1 + 0 ^ 2 * (33 / 10 * (t + 2 / 3)) ^ 2)) 0 0 := by
    have : (fun t : ℝ => √(msd₀ 120 (1 / 200)) * √(1 + 0 ^ 2 * (33 / 10 * (t + 2 / 3)) ^ 2)) = fun _ => √(1 / 60) := by
      funext t
      rw [msd120]
      simp
    rw [this]
    exact hasDerivAt_const _ _
  have hh := hgt_flat _ _ _ _ 0 hr hsg (by norm_num) (by rw [msd120]; simp)
  rw [mul_zero] at hh
  have hg : HasDerivAt (fun t => val₀ 0 (33 / 10) 120 t (1 / 200)) 0 0 := by
    have := ((hh.div_const 2).div_const (11 / 5)).sub_const (4 * Real.pi * (11 / 5) * (2 / (√(1 - bcosd 120 ^ 2) * (33 / 10) * 4 * 10)))
    refine HasDerivAt.congr_deriv this ?_
    norm_num
  refine not_correct (witD_ok 0) (by simp [witD]) 0 _ psel₀ good₀ 0 (by rw [witD_ncmin]) (by rw [witD_ncmax])
    (fun t => val₀ 0 (33 / 10) 120 t (1 / 200)) _ ?_ (by rw [hval]; exact hg) ?_
  · rw [hval]
    filter_upwards [(lt_mem_nhds (by norm_num) : ∀ᶠ t : ℝ in nhds 0, -(1 / 100) < t),
      (gt_mem_nhds (by norm_num) : ∀ᶠ t : ℝ in nhds 0, t < 1 / 100)] with t h1 h2 f hf
    have R : Reg (33 / 10) 120 t (1 / 200) := { reg120 with x1 := h1, x2 := h2 }
    refine wit_value R 0 f ?_
    have e : updSel (.pos 0 0 0) t psel₀ = [some (wit (33 / 10) 120 t (1 / 200), witS)] := by
      have : Function.update (![0, 0, 0] : Fin 3 → ℝ) 0 t = ![t, 0, 0] := by
        funext k
        fin_cases k <;> simp
      unfold psel₀ updSel
      simp [updPhase, onAtom, wit, this]
    rw [← e]
    exact hf
  · rw [col₀ _ rfl, run_pos _ _ _ _ _ _ 0 0 (by simp [wit]), val_pos, fac₀, if_pos rfl, if_neg (by norm_num), pk_dgx]
    intro e
    linarith

theorem facp₀ : facp (witD 0) (wit (33 / 10) 120 0 (1 / 200)) (11 / 5) = 1 := by
  unfold facp shapeEnv bk
  simp [wit, witD]

theorem facs₀ : facs (wit (33 / 10) 120 0 (1 / 200)) (11 / 5) = 1 / (2 * (11 / 5)) := by
  unfold facs
  rw [wit_np]

theorem dnorm₀ : dnorm (wit (33 / 10) 120 0 (1 / 200)) witS = 1 := by
  unfold dnorm
  rw [wit_ract, wit_rtot]
  norm_num

theorem rho₀ : (wit (33 / 10) 120 0 (1 / 200)).rho0 = 2 / (√(3 / 4) * (33 / 10) * 4 * 10) := by
  unfold PPhase.rho0
  rw [wit_np, wit_ncv, C45.cosd120, show (1 : ℝ) - (-(1 / 2)) ^ 2 = 3 / 4 by norm_num]

/-- Edges of a cell that is not orthogonal. -/
theorem a0_violated : ¬Correct (witD 0) 0 (.a0 0 0) psel₀ := by
  have hval : value (witD 0) 0 psel₀ (.a0 0 0) = 33 / 10 := rfl
  have hT := pk_T_pos
  have hS : √(3 / 4 : ℝ) ≠ 0 := (Real.sqrt_pos.2 (by norm_num)).ne'
  have hr : HasDerivAt (fun t : ℝ => t * (0 + 2 / 3)) (2 / 3) (33 / 10) := by
    refine ((hasDerivAt_id' (33 / 10 : ℝ)).mul_const _).congr_deriv ?_
    norm_num
  have hsg : HasDerivAt (fun t : ℝ => √(msd₀ 120 (1 / 200)) * √(1 + 0 ^ 2 * (t * (0 + 2 / 3)) ^ 2)) 0 (33 / 10) := by
    have : (fun t : ℝ => √(msd₀ 120 (1 / 200)) * √(1 + 0 ^ 2 * (t * (0 + 2 / 3)) ^ 2)) = fun _ => √(1 / 60) := by
      funext t
      rw [msd120]
      simp
    rw [this]
    exact hasDerivAt_const _ _
  have hh := hgt_flat _ _ _ _ (33 / 10) hr hsg (by norm_num) (by rw [msd120]; simp)
  rw [mul_zero] at hh
  have hrho : HasDerivAt (fun t : ℝ => 4 * Real.pi * (11 / 5) * (2 / (√(1 - bcosd 120 ^ 2) * t * 4 * 10)))
      (-(4 * Real.pi * (11 / 5) * (2 / (√(3 / 4) * (33 / 10) * 4 * 10)) / (33 / 10))) (33 / 10) := by
    rw [C45.cosd120, show (1 : ℝ) - (-(1 / 2)) ^ 2 = 3 / 4 by norm_num]
    have h1 : HasDerivAt (fun t : ℝ => √(3 / 4) * t * 4 * 10) (√(3 / 4) * 1 * 4 * 10) (33 / 10) :=
      ((((hasDerivAt_id' (33 / 10 : ℝ)).const_mul _).mul_const 4).mul_const 10)
    have h2 := ((h1.fun_inv (by positivity)).const_mul 2).const_mul (4 * Real.pi * (11 / 5))
    simp only [← div_eq_mul_inv] at h2
    refine h2.congr_deriv ?_
    field_simp
  have hg : HasDerivAt (fun t => val₀ 0 t 120 0 (1 / 200))
      (4 * Real.pi * (11 / 5) * (2 / (√(3 / 4) * (33 / 10) * 4 * 10)) / (33 / 10)) (33 / 10) := by
    have := ((hh.div_const 2).div_const (11 / 5)).fun_sub hrho
    refine HasDerivAt.congr_deriv this ?_
    ring
  refine not_correct (witD_ok 0) (by simp [witD]) 0 _ psel₀ good₀ 0 (by rw [witD_ncmin]) (by rw [witD_ncmax])
    (fun t => val₀ 0 t 120 0 (1 / 200)) _ ?_ (by rw [hval]; exact hg) ?_
  · rw [hval]
    filter_upwards [(lt_mem_nhds (by norm_num) : ∀ᶠ t : ℝ in nhds (33 / 10), 13 / 4 < t),
      (gt_mem_nhds (by norm_num) : ∀ᶠ t : ℝ in nhds (33 / 10), t < 67 / 20)] with t h1 h2 f hf
    have R : Reg t 120 0 (1 / 200) := { reg120 with a1 := h1, a2 := h2 }
    refine wit_value R 0 f ?_
    have e : updSel (.a0 0 0) t psel₀ = [some (wit t 120 0 (1 / 200), witS)] := by
      have : Function.update (![33 / 10, 4, 10] : Fin 3 → ℝ) 0 t = ![t, 4, 10] := by
        funext k
        fin_cases k <;> simp
      unfold psel₀ updSel
      simp [updPhase, wit, this]
    rw [← e]
    exact hf
  · rw [col₀ _ rfl, run_a0, val_a0, facp₀, facs₀, dnorm₀, rho₀, pk_dga, show (wit (33 / 10) 120 0 (1 / 200)).cell.a0 0 = 33 / 10 from rfl]
    intro e
    have : pk₀.T = 0 := by linarith
    linarith

/-- Angles. -/
theorem win_violated : ¬Correct (witD 0) 0 (.win 0 2) psel₀ := by
  have hval : value (witD 0) 0 psel₀ (.win 0 2) = 120 := rfl
  have hT := pk_T_pos
  have hS : √(3 / 4 : ℝ) ≠ 0 := (Real.sqrt_pos.2 (by norm_num)).ne'
  have hS2 : √(3 / 4 : ℝ) ^ 2 = 3 / 4 := Real.sq_sqrt (by norm_num)
  have hs : √(1 / 60 : ℝ) * √(1 / 60) = 1 / 60 := Real.mul_self_sqrt (by norm_num)
  have hs0 : √(1 / 60 : ℝ) ≠ 0 := (Real.sqrt_pos.2 (by norm_num)).ne'
  have hsin : bsind 120 ≠ 0 := by
    intro e
    have := C45.sind_sq 120
    rw [e, C45.cosd120] at this
    norm_num at this
  have hrad : rad ≠ 0 := by unfold rad; positivity
  set c' := -rad * bsind 120 with hc'
  have c0 : c' ≠ 0 := mul_ne_zero (neg_ne_zero.2 hrad) hsin
  have hc : HasDerivAt bcosd c' 120 := by
    have h1 : HasDerivAt (fun t : ℝ => rad * t) (rad * 1) 120 := (hasDerivAt_id' (120 : ℝ)).const_mul rad
    refine (h1.cos).congr_deriv ?_
    rw [hc']
    unfold bsind
    ring
  have hc2 : HasDerivAt (fun t => 1 - bcosd t ^ 2) c' 120 := by
    refine ((hc.fun_pow 2).const_sub 1).congr_deriv ?_
    rw [C45.cosd120]
    ring
  have hm : HasDerivAt (fun t => msd₀ t (1 / 200)) (-(8 / 225) * c') 120 := by
    have h1 : HasDerivAt (fun t => 1 / 200 + 1 / 200 + 2 * (1 / 200) * bcosd t ^ 2) (-(1 / 100) * c') 120 := by
      refine (((hc.fun_pow 2).const_mul (2 * (1 / 200))).const_add _).congr_deriv ?_
      rw [C45.cosd120]
      ring
    refine (h1.fun_div hc2 (by rw [C45.cosd120]; norm_num)).congr_deriv ?_
    rw [C45.cosd120]
    ring
  have hsg : HasDerivAt (fun t => √(msd₀ t (1 / 200)) * √(1 + 0 ^ 2 * (33 / 10 * (0 + 2 / 3)) ^ 2))
      (-(8 / 225) * c' / (2 * √(1 / 60))) 120 := by
    have := hm.sqrt (by rw [msd120]; norm_num)
    rw [msd120] at this
    simpa using this
  have hh := (hgt_flat (fun _ => 33 / 10 * (0 + 2 / 3)) _ 0 _ 120 (hasDerivAt_const _ _) hsg (by norm_num)
    (by rw [msd120]; simp)).congr_deriv (g' := -pk₀.T / √(1 / 60) * (-(8 / 225) * c' / (2 * √(1 / 60))))
    (by rw [msd120, show √(1 + 0 ^ 2 * (33 / 10 * (0 + 2 / 3)) ^ 2 : ℝ) = 1 by simp, mul_one, T₀])
  have hrho : HasDerivAt (fun t : ℝ => 4 * Real.pi * (11 / 5) * (2 / (√(1 - bcosd t ^ 2) * (33 / 10) * 4 * 10)))
      (-(4 * Real.pi * (11 / 5) * (2 / (√(3 / 4) * (33 / 10) * 4 * 10)) * (2 / 3 * c'))) 120 := by
    have h1 := hc2.sqrt (by rw [C45.cosd120]; norm_num)
    rw [C45.cosd120, show (1 : ℝ) - (-(1 / 2)) ^ 2 = 3 / 4 by norm_num] at h1
    have h2 := ((h1.mul_const (33 / 10)).mul_const 4).mul_const 10
    have e : (1 : ℝ) - bcosd 120 ^ 2 = 3 / 4 := by rw [C45.cosd120]; norm_num
    have h3 := ((h2.fun_inv (by rw [e]; positivity)).const_mul 2).const_mul (4 * Real.pi * (11 / 5))
    rw [e] at h3
    simp only [← div_eq_mul_inv] at h3
    refine h3.congr_deriv ?_
    have e3 : (2 : ℝ) / 3 = 1 / (2 * √(3 / 4) ^ 2) := by rw [hS2]; norm_num
    rw [e3]
    field_simp
  have hg : HasDerivAt (fun t => val₀ 0 (33 / 10) t 0 (1 / 200))
      (16 / 15 * c' * pk₀.T / 2 / (11 / 5) + 4 * Real.pi * (11 / 5) * (2 / (√(3 / 4) * (33 / 10) * 4 * 10)) * (2 / 3 * c')) 120 := by
    have := ((hh.div_const 2).div_const (11 / 5)).fun_sub hrho
    refine HasDerivAt.congr_deriv this ?_
    have e : -pk₀.T / √(1 / 60) * (-(8 / 225) * c' / (2 * √(1 / 60))) = 16 / 15 * c' * pk₀.T := by
      have : -pk₀.T / √(1 / 60) * (-(8 / 225) * c' / (2 * √(1 / 60))) = pk₀.T * (4 / 225) * c' / (√(1 / 60) * √(1 / 60)) := by
        field_simp
        norm_num
      rw [this, hs]
      ring
    rw [e]
    ring
  have hdd : ddrho (wit (33 / 10) 120 0 (1 / 200)).cell 2 = 2 / 3 * c' := by
    unfold ddrho vol
    rw [wit_voll, C45.cosd120]
    show ((33 / 10 : ℝ) * 4 * 10 / (√(1 - (-(1 / 2)) ^ 2) * (33 / 10) * 4 * 10)) ^ 2 *
      (rad * bsind 120 * (bcosd 120 - bcosd 90 * bcosd 90)) = _
    rw [C45.cosd120, C45.cosd90, show (1 : ℝ) - (-(1 / 2)) ^ 2 = 3 / 4 by norm_num, hc']
    have e3 : (2 : ℝ) / 3 = 1 / (2 * √(3 / 4) ^ 2) := by rw [hS2]; norm_num
    rw [e3]
    field_simp
    norm_num
  refine not_correct (witD_ok 0) (by simp [witD]) 0 _ psel₀ good₀ 0 (by rw [witD_ncmin]) (by rw [witD_ncmax])
    (fun t => val₀ 0 (33 / 10) t 0 (1 / 200)) _ ?_ (by rw [hval]; exact hg) ?_
  · rw [hval]
    have hcc := hc.continuousAt
    filter_upwards [(lt_mem_nhds (by norm_num) : ∀ᶠ t : ℝ in nhds 120, 0 < t),
      (gt_mem_nhds (by norm_num) : ∀ᶠ t : ℝ in nhds 120, t < 180),
      hcc.eventually_lt continuousAt_const (show bcosd 120 < -(1 / 4) by rw [C45.cosd120]; norm_num),
      (hcc.pow 2).eventually_lt continuousAt_const (show bcosd 120 ^ 2 < 5 / 16 by rw [C45.cosd120]; norm_num)] with t h1 h2 h3 h4 f hf
    have R : Reg (33 / 10) t 0 (1 / 200) := { reg120 with
      g1 := h1, g2 := h2, c2 := h4.le, cs := .inr (by rw [abs_of_neg (by linarith)]; linarith) }
    refine wit_value R 0 f ?_
    have e : updSel (.win 0 2) t psel₀ = [some (wit (33 / 10) t 0 (1 / 200), witS)] := by
      have : Function.update (![90, 90, 120] : Fin 3 → ℝ) 2 t = ![90, 90, t] := by
        funext k
        fin_cases k <;> simp
      unfold psel₀ updSel
      simp [updPhase, wit, this]
    rw [← e]
    exact hf
  · rw [col₀ _ rfl, run_win, val_win, facp₀, facs₀, dnorm₀, rho₀, pk_dgw, hdd]
    intro e
    have : c' * pk₀.T = 0 := by linarith
    rcases mul_eq_zero.1 this with h | h
    · exact c0 h
    · linarith

/-- Peak broadening with two phases, the second of which has scale factor zero. -/
theorem qbroad_violated : ¬Correct (witD 1) 0 (.qbroad 0)
    [some (wit (33 / 10) 120 0 (1 / 200), witS), some ({ wit (33 / 10) 120 0 (1 / 200) with pscale := 0 }, witS)] := by
  set W := wit (33 / 10) 120 0 (1 / 200) with hW
  set psel : List (Option (PPhase × Sel)) := [some (W, witS), some ({ W with pscale := 0 }, witS)] with hp
  have hval : value (witD 1) 0 psel (.qbroad 0) = 1 := by simp [value, owner, witD]
  have hb : ∀ qb, ∀ x, some x ∈ psel → ¬Bad (witD qb) x.1 x.2 := by
    intro qb x hx
    rw [hp] at hx
    simp only [List.mem_cons, Option.some.injEq, List.not_mem_nil, or_false] at hx
    have := (wit_dec reg120 qb).2
    rcases hx with rfl | rfl
    · exact this
    · exact this
  have hT : 0 < 2 * gaus (witD 0) (11 / 5) (√(1 / 60) * √(1 + 1 ^ 2 * (33 / 10 * (0 + 2 / 3)) ^ 2)) 0 := by
    unfold gaus
    have : 0 < √(1 / 60 : ℝ) := Real.sqrt_pos.2 (by norm_num)
    have : 0 < √(2 * Real.pi) := Real.sqrt_pos.2 (by positivity)
    have : 0 < √(1 + 1 ^ 2 * (33 / 10 * (0 + 2 / 3)) ^ 2 : ℝ) := Real.sqrt_pos.2 (by positivity)
    positivity
  have hs : 0 < √(1 / 60 : ℝ) := Real.sqrt_pos.2 (by norm_num)
  have hq : 0 < √(1 + 1 ^ 2 * (33 / 10 * (0 + 2 / 3)) ^ 2 : ℝ) := Real.sqrt_pos.2 (by positivity)
  have hsg : HasDerivAt (fun t : ℝ => √(msd₀ 120 (1 / 200)) * √(1 + t ^ 2 * (33 / 10 * (0 + 2 / 3)) ^ 2))
      (√(1 / 60) * (2 * (33 / 10 * (0 + 2 / 3)) ^ 2 / (2 * √(1 + 1 ^ 2 * (33 / 10 * (0 + 2 / 3)) ^ 2)))) 1 := by
    have h1 : HasDerivAt (fun t : ℝ => 1 + t ^ 2 * (33 / 10 * (0 + 2 / 3)) ^ 2) (2 * (33 / 10 * (0 + 2 / 3)) ^ 2) 1 := by
      refine ((((hasDerivAt_id' (1 : ℝ)).fun_pow 2).mul_const _).const_add 1).congr_deriv ?_
      norm_num
    rw [msd120]
    exact (h1.sqrt (by positivity)).const_mul _
  have hh := (hgt_flat (fun _ => 33 / 10 * (0 + 2 / 3)) _ 0 _ 1 (hasDerivAt_const _ _) hsg (by norm_num)
    (by rw [msd120]; positivity)).congr_deriv (g' := -(2 * gaus (witD 0) (11 / 5) (√(1 / 60) * √(1 + 1 ^ 2 * (33 / 10 * (0 + 2 / 3)) ^ 2)) 0) /
        (√(1 / 60) * √(1 + 1 ^ 2 * (33 / 10 * (0 + 2 / 3)) ^ 2)) *
        (√(1 / 60) * (2 * (33 / 10 * (0 + 2 / 3)) ^ 2 / (2 * √(1 + 1 ^ 2 * (33 / 10 * (0 + 2 / 3)) ^ 2))))) (by rw [msd120])
  have hg := ((hh.div_const 2).div_const (11 / 5)).sub_const (4 * Real.pi * (11 / 5) * (2 / (√(1 - bcosd 120 ^ 2) * (33 / 10) * 4 * 10)))
  refine not_correct (witD_ok 1) (by simp [witD]) 0 _ psel (hb 1) 0 (by rw [witD_ncmin]) (by rw [witD_ncmax])
    (fun t => val₀ t (33 / 10) 120 0 (1 / 200)) _ ?_ (by rw [hval]; exact hg) ?_
  · refine .of_forall fun t f hf => ?_
    have e1 : updData (.qbroad 0) t 0 (witD 1) = witD t := by simp [updData, witD]
    rw [e1, updSel_none _ rfl] at hf
    have h := (determine_some (witD_ok t) hf).2 0 (by rw [witD_ncmin]) (by rw [witD_ncmax])
    rw [h, hp]
    simp only [List.filterMap_cons, id_eq, List.filterMap_nil, List.map_cons, List.map_nil, List.sum_cons, List.sum_nil, add_zero, mul_zero,
      zero_mul]
    unfold filt
    rw [if_neg (by simp [witD]), hW, wit_curve reg120]
    simp [witD, wit, val₀]
  · rw [column_qbroad]
    have : lastFac (witD 1) 0 (cal (witD 1) psel) = 0 := by
      rw [hp]
      simp [lastFac, cal, fac, facp]
    rw [this, mul_zero]
    have : 0 < 2 * gaus (witD 0) (11 / 5) (√(1 / 60) * √(1 + 1 ^ 2 * (33 / 10 * (0 + 2 / 3)) ^ 2)) 0 /
        (√(1 / 60) * √(1 + 1 ^ 2 * (33 / 10 * (0 + 2 / 3)) ^ 2)) *
        (√(1 / 60) * (2 * (33 / 10 * (0 + 2 / 3)) ^ 2 / (2 * √(1 + 1 ^ 2 * (33 / 10 * (0 + 2 / 3)) ^ 2)))) / 2 / (11 / 5) := by
      positivity
    intro e
    have e' := neg_eq_zero.2 e.symm
    refine this.ne' (Eq.trans ?_ e')
    ring

/-- The diameter of a particle: zero means no shape factor, and the curve jumps to zero for small positive values. -/
theorem spdiameter_violated : ¬Correct (witD 0) 0 (.spdiameter 0) psel₀ := by
  have hval : value (witD 0) 0 psel₀ (.spdiameter 0) = 0 := rfl
  rintro ⟨c, F, -, e2, e3⟩
  rw [hval] at e2 e3
  have hc := (e3 0 (by rw [witD_ncmin]) (by rw [witD_ncmax])).continuousAt
  have hup : ∀ t, updSel (.spdiameter 0) t psel₀ = [some ({ wit (33 / 10) 120 0 (1 / 200) with spdiameter := t }, witS)] := by
    intro t
    unfold psel₀ updSel
    simp [updPhase]
  have h0 : F 0 0 = val₀ 0 (33 / 10) 120 0 (1 / 200) := by
    have := e2.self_of_nhds
    rw [hup] at this
    exact wit_value reg120 0 _ this
  have hpos : ∀ᶠ t in nhdsWithin (0 : ℝ) (Set.Ioi 0), F t 0 = 0 := by
    filter_upwards [e2.filter_mono nhdsWithin_le_nhds, self_mem_nhdsWithin,
      (gt_mem_nhds (by norm_num : (0 : ℝ) < 11 / 5) : ∀ᶠ t : ℝ in nhds 0, t < 11 / 5).filter_mono nhdsWithin_le_nhds] with t ht t0 t1
    rw [hup] at ht
    have h := (determine_some (witD_ok 0) ht).2 0 (by rw [witD_ncmin]) (by rw [witD_ncmax])
    rw [h]
    simp only [List.filterMap_cons, id_eq, List.filterMap_nil, List.map_cons, List.map_nil, List.sum_cons, List.sum_nil, add_zero]
    unfold filt
    rw [if_neg (by simp [witD])]
    unfold curve envelope
    rw [witD_r, if_pos (show 0 < ({ wit (33 / 10) 120 0 (1 / 200) with spdiameter := t } : PPhase).spdiameter from t0)]
    have : Shape.sphereEnvelope (11 / 5) t = 0 := C43.vanishes _ t t0 t1.le
    rw [this]
    ring
  have hlim := tendsto_nhds_unique (hc.tendsto.mono_left nhdsWithin_le_nhds) (tendsto_const_nhds.congr' (hpos.mono fun t ht => ht.symm))
  rw [h0] at hlim
  have hv : 0 < val₀ 0 (33 / 10) 120 0 (1 / 200) := by
    unfold val₀
    rw [← pk_T, ← T₀, C45.cosd120, show (1 : ℝ) - (-(1 / 2)) ^ 2 = 3 / 4 by norm_num]
    have p1 := Real.pi_pos
    have p2 : Real.pi ≤ 4 := Real.pi_le_four
    have hS : 4 / 5 < √(3 / 4 : ℝ) := by apply Real.lt_sqrt_of_sq_lt; norm_num
    have h1 : 4 * Real.pi * (11 / 5) * (2 / (√(3 / 4) * (33 / 10) * 4 * 10)) < 3 / 4 := by
      have : 2 / (√(3 / 4) * (33 / 10) * 4 * 10) ≤ 2 / (4 / 5 * (33 / 10) * 4 * 10) :=
        div_le_div_of_nonneg_left (by norm_num) (by norm_num) (by linarith)
      nlinarith
    have h2 : 2 < gaus (witD 0) (11 / 5) (√(1 / 60)) 0 := by
      unfold gaus
      have : (witD 0).rmin + ((0 : ℤ) : ℝ) * (witD 0).deltar - 11 / 5 = 0 := by simp [witD]
      rw [this]
      have e : √(2 * Real.pi) * √(1 / 60) = √(Real.pi / 30) := by
        rw [← Real.sqrt_mul (by positivity)]
        congr 1
        ring
      rw [e]
      have : √(Real.pi / 30) < 1 / 2 := by
        rw [Real.sqrt_lt' (by norm_num)]
        linarith
      have h3 : 0 < √(Real.pi / 30) := Real.sqrt_pos.2 (by positivity)
      simp only [zero_div, ne_eq, OfNat.ofNat_ne_zero, not_false_eq_true, zero_pow, mul_zero, Real.exp_zero, mul_one]
      rw [lt_div_iff₀ h3]
      linarith
    linarith
  linarith

/-! ## Examples for the theorems -/

/-- No pair is at a threshold; `c` is `rcut`. -/
theorem wit_steady {a γ x u : ℝ} (R : Reg a γ x u) (qb c : ℝ) (hc : a * (x + 2 / 3) ≠ c) (y : ℕ × ℕ) (hy : y ∈ selPairs witS 2)
    (T : ℤ × ℤ × ℤ) : Steady (witD qb) { wit a γ x u with rcut := c } (y, T) := by
  have hd : ∀ z, dist2 { wit a γ x u with rcut := c } z = dist2 (wit a γ x u) z := fun z => rfl
  have hm : ∀ z, msdOf { wit a γ x u with rcut := c } z = msdOf (wit a γ x u) z := fun z => rfl
  have hsb : ∀ z b, sigB (witD qb) { wit a γ x u with rcut := c } z b = sigB (witD qb) (wit a γ x u) z b := fun z b => rfl
  have hco : ∀ z, corfact (witD qb) { wit a γ x u with rcut := c } z = corfact (witD qb) (wit a γ x u) z := fun z => rfl
  by_cases e : (y, T) = x₀
  · rw [e]
    have hr := wit_range R
    have hs := wit_sig R qb
    have hh : hiEnd (witD qb) { wit a γ x u with rcut := c } = 11 / 5 := by
      unfold hiEnd
      rw [if_neg (by simp [wit]), witD_rcmax]
    constructor
    · rw [hd, wit_dist0, witD_rmin2]; nlinarith
    · rw [hd, wit_dist0, witD_rmax2]; nlinarith
    · intro _ _; rw [hm, wit_msd R]; linarith [msd₀_ge R]
    · intro _ _; rw [hd, hco]; exact (lt_of_lt_of_le one_pos (wit_cor qb)).ne'
    · intro _ _; rw [hd, wit_dist R]; exact hc
    · intro _; simp [wit]
    · intro _ _ _
      left
      rw [hsb, hd, wit_dist R, witD_rcmin]
      have := hs (decide (a * (x + 2 / 3) < ({ wit a γ x u with rcut := c } : PPhase).rcut))
      linarith
    · intro _ _ _
      left
      rw [hh, hsb, hd, wit_dist R]
      have := hs (decide (a * (x + 2 / 3) < ({ wit a γ x u with rcut := c } : PPhase).rcut))
      linarith
  · have hm := hy
    unfold selPairs at hm
    rw [List.mem_filter, mem_halfPairs] at hm
    have ho := wit_other R y.1 y.2 (by omega) (by omega) T e
    have hn : ¬((witD qb).rmin2 < dist2 (wit a γ x u) (y, T) ∧ dist2 (wit a γ x u) (y, T) < (witD qb).rmax2) := by
      rw [witD_rmin2, witD_rmax2]
      rintro ⟨h1, h2⟩
      rcases ho with h | h <;> linarith
    constructor
    · rw [hd, witD_rmin2]; rcases ho with h | h <;> intro e <;> linarith
    · rw [hd, witD_rmax2]; rcases ho with h | h <;> intro e <;> linarith
    · intro h1 h2; exact absurd ⟨h1, h2⟩ hn
    · intro h1 h2; exact absurd ⟨h1, h2⟩ hn
    · intro h1 h2; exact absurd ⟨h1, h2⟩ hn
    · intro _; simp [wit]
    · intro h1 h2; exact absurd ⟨h1, h2⟩ hn
    · intro h1 h2; exact absurd ⟨h1, h2⟩ hn

theorem wit_orth : Orth (wit (33 / 10) 90 0 (1 / 200)).cell where
  cos := fun k => by
    show bcosd ((![90, 90, 90] : Fin 3 → ℝ) k) = 0
    fin_cases k <;> exact C45.cosd90
  sin := fun k => by
    show bsind ((![90, 90, 90] : Fin 3 → ℝ) k) = 1
    fin_cases k <;> exact C45.sind90
  edge := fun k => by
    show (![33 / 10, 4, 10] : Fin 3 → ℝ) k ≠ 0
    fin_cases k <;> simp

section examples
/-- The structure of the examples, with `rcut` 0 or 5/2. -/
noncomputable def ex (c : ℝ) : PPhase := { wit (33 / 10) 90 0 (1 / 200) with rcut := c }

theorem ex_steady (qb c : ℝ) (hc : c ≠ 11 / 5) (y : ℕ × ℕ) (hy : y ∈ selPairs witS 2) (T : ℤ × ℤ × ℤ) : Steady (witD qb) (ex c) (y, T) :=
  wit_steady reg90 qb c (by norm_num; exact hc.symm) y hy T

theorem ex_visited (qb c : ℝ) (hc : c ≠ 11 / 5) : ∀ x ∈ visited (witD qb) (ex c) witS, Steady (witD qb) (ex c) x := by
  rintro ⟨y, T⟩ hx
  unfold visited at hx
  rw [List.mem_flatMap] at hx
  obtain ⟨z, hz, hx⟩ := hx
  rw [List.mem_map] at hx
  obtain ⟨T', -, e⟩ := hx
  cases e
  exact ex_steady qb c hc _ hz _

/-- The curve is a number. -/
theorem ex_curve (qb c : ℝ) (hc : c ≠ 11 / 5) : ∃ f, determine (witD qb) [some (ex c, witS)] = .ok (some f) := by
  have hb : ∀ x, some x ∈ [some (ex c, witS)] → ¬Bad (witD qb) x.1 x.2 := by
    intro x hx
    simp only [List.mem_singleton, Option.some.injEq] at hx
    subst hx
    have hg := (wit_dec reg90 qb).2
    rintro (⟨x, hx, hn⟩ | hn)
    · have := steady_list (Dt := fun _ => witD qb) (pt := fun _ => ex c) (t₀ := 0)
        ⟨fun t => ⟨rfl, rfl, rfl, rfl, rfl, rfl⟩, fun t => rfl, continuousAt_const⟩ (visited (witD qb) (ex c) witS) (ex_visited qb c hc)
        (fun _ _ => continuousAt_const) (fun _ _ _ => continuousAt_const) fun _ _ _ => continuousAt_const
      exact this.self_of_nhds.2 x hx hn
    · exact hg (.inr hn)
  obtain ⟨f, hf, -⟩ := determine_of (witD_ok qb) hb
  exact ⟨f, hf⟩

/-- A structure with an isolated peak: every theorem applies. -/
example : Correct (witD 1) 0 (.dscale 0) [some (ex 0, witS)] ∧ Correct (witD 1) 0 (.qdamp 0) [some (ex 0, witS)] ∧
    Correct (witD 1) 0 (.pscale 0) [some (ex 0, witS)] ∧ Correct (witD 1) 0 (.occ 0 1) [some (ex 0, witS)] := by
  obtain ⟨f, hf⟩ := ex_curve 1 0 (by norm_num)
  exact ⟨dscale (witD_ok 1) hf 0 (by simp [witD]), qdamp (witD_ok 1) hf 0, pscale (witD_ok 1) hf 0 0 _ _ rfl,
    occ (witD_ok 1) hf 0 0 _ _ rfl 1 (by simp [ex, wit]) (by simp [ex, wit, PPhase.atm])⟩

example : Correct (witD 1) 0 (.delta2 0) [some (ex 0, witS)] ∧ Correct (witD 1) 0 (.delta1 0) [some (ex 0, witS)] ∧
    Correct (witD 1) 0 (.sratio 0) [some (ex (5 / 2), witS)] ∧ Correct (witD 1) 0 (.qbroad 0) [some (ex 0, witS)] := by
  obtain ⟨f, hf⟩ := ex_curve 1 0 (by norm_num)
  obtain ⟨f', hf'⟩ := ex_curve 1 (5 / 2) (by norm_num)
  have hS := ex_visited 1 0 (by norm_num)
  refine ⟨delta2_partial (witD_ok 1) hf 0 0 _ _ rfl hS, delta1_partial (witD_ok 1) hf 0 0 _ _ rfl hS,
    sratio_partial (witD_ok 1) hf' 0 0 _ _ rfl (ex_visited 1 (5 / 2) (by norm_num)), qbroad_steady_partial (witD_ok 1) hf 0 0 _ _ rfl ?_ hS⟩
  intro q hq y
  cases q with
  | zero => exact absurd rfl hq
  | succ q => simp

example (ia : ℕ) (hi : ia < 2) (k : Fin 3) (m : Fin 6) : Correct (witD 1) 0 (.pos 0 ia k) [some (ex 0, witS)] ∧
    Correct (witD 1) 0 (.u 0 ia m) [some (ex 0, witS)] ∧ Correct (witD 1) 0 (.a0 0 k) [some (ex 0, witS)] := by
  obtain ⟨f, hf⟩ := ex_curve 1 0 (by norm_num)
  have hS := ex_visited 1 0 (by norm_num)
  exact ⟨pos_steady_partial (witD_ok 1) hf 0 0 _ _ rfl wit_orth ia hi k hS, u_steady_partial (witD_ok 1) hf 0 0 _ _ rfl wit_orth ia hi m hS,
    a0_steady_partial (witD_ok 1) hf 0 0 _ _ rfl wit_orth (wit_fine reg90) (wit_close reg90) le_rfl k (ex_steady 1 0 (by norm_num))⟩

/-- A spherical particle of diameter 10. -/
example : Correct (witD 1) 0 (.spdiameter 0) [some ({ ex 0 with spdiameter := 10 }, witS)] := by
  have hb : ∀ x, some x ∈ [some ({ ex 0 with spdiameter := 10 }, witS)] → ¬Bad (witD 1) x.1 x.2 := by
    intro x hx
    simp only [List.mem_singleton, Option.some.injEq] at hx
    subst hx
    exact (wit_dec reg90 1).2
  obtain ⟨f, hf, -⟩ := determine_of (witD_ok 1) hb
  exact spdiameter (witD_ok 1) hf 0 0 _ _ rfl (by norm_num) (by norm_num [witD])

/-- Variables of another phase or another data set. -/
example : Foreign 0 [some (ex 0, witS)] (.a0 1 0) ∧ Foreign 0 [some (ex 0, witS)] (.qbroad 1) := by
  constructor <;> simp [Foreign, owner]

end examples

end Pdffit.C44
