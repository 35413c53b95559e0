import Verif.Lemmas.DerivWit

/-! # The curve of the structures with one contributing pair -/

namespace Pdffit.Deriv
open Geom Parser Bonds Det Layout Filter

theorem wit_voll (a γ x u : ℝ) : voll (wit a γ x u).cell = 1 - bcosd γ ^ 2 := by
  show voll ⟨![a, 4, 10], ![90, 90, γ]⟩ = _
  simp [voll, C45.cosd90]

/-- Mean square displacement of the pair. -/
noncomputable def msd₀ (γ u : ℝ) : ℝ := (u + 1 / 200 + 2 * (1 / 200) * bcosd γ ^ 2) / (1 - bcosd γ ^ 2)

section
variable {a γ x u : ℝ} (R : Reg a γ x u)
include R

theorem reg_s2 : 11 / 16 ≤ 1 - bcosd γ ^ 2 := by have := R.c2; linarith

theorem msd₀_ge : 1 / 200 < msd₀ γ u := by
  have h1 := reg_s2 R
  have h2 := R.u1
  have h3 := sq_nonneg (bcosd γ)
  unfold msd₀
  rw [lt_div_iff₀ (by linarith)]
  linarith

theorem wit_dist_pos : 0 < a * (x + 2 / 3) := by
  have := R.a1
  have := R.x1
  have h1 : 0 < a := by linarith
  have h2 : 0 < x + 2 / 3 := by linarith
  exact mul_pos h1 h2

theorem wit_dist : √(dist2 (wit a γ x u) x₀) = a * (x + 2 / 3) := by
  rw [wit_dist0, Real.sqrt_sq (wit_dist_pos R).le]

theorem wit_msd : msdOf (wit a γ x u) x₀ = msd₀ γ u := by
  have hd := wit_dist_pos R
  have ha : a ≠ 0 := by have := R.a1; linarith
  have hx : x + 2 / 3 ≠ 0 := by have := R.x1; linarith
  have s2 := reg_s2 R
  have hS : √(1 - bcosd γ ^ 2) ^ 2 = 1 - bcosd γ ^ 2 := Real.sq_sqrt (by linarith)
  have hS0 : √(1 - bcosd γ ^ 2) ≠ 0 := (Real.sqrt_pos.2 (by linarith)).ne'
  have hv : vol (wit a γ x u).cell = √(1 - bcosd γ ^ 2) * a * 4 * 10 := by
    unfold vol
    rw [wit_voll]
    rfl
  have r0 : recEdge (wit a γ x u).cell 0 = 1 / (√(1 - bcosd γ ^ 2) * a) := by
    unfold recEdge
    rw [hv]
    show (4 : ℝ) * 10 * bsind 90 / _ = _
    rw [C45.sind90]
    field_simp
  have r1 : recEdge (wit a γ x u).cell 1 = 1 / (√(1 - bcosd γ ^ 2) * 4) := by
    unfold recEdge
    rw [hv]
    show (10 : ℝ) * a * bsind 90 / _ = _
    rw [C45.sind90]
    field_simp
  unfold msdOf PPhase.msd
  dsimp only
  rw [show (wit a γ x u).toPhs.skal (vec (wit a γ x u) x₀) (vec (wit a γ x u) x₀) = dist2 (wit a γ x u) x₀ from rfl, wit_dist R, wit_vec0,
    wit_gten, G_eq R, r0, r1]
  have e0 : ∑ j, (!![a * a, a * 4 * bcosd γ, 0; a * 4 * bcosd γ, 4 * 4, 0; 0, 0, 10 * 10] : Matrix (Fin 3) (Fin 3) ℝ) 0 j *
      ((![x + 2 / 3, 0, 0] : Fin 3 → ℝ) j / (a * (x + 2 / 3))) = a := by
    simp [Fin.sum_univ_three]
    rw [← mul_div_assoc, div_eq_iff hd.ne']
    ring
  have e1 : ∑ j, (!![a * a, a * 4 * bcosd γ, 0; a * 4 * bcosd γ, 4 * 4, 0; 0, 0, 10 * 10] : Matrix (Fin 3) (Fin 3) ℝ) 1 j *
      ((![x + 2 / 3, 0, 0] : Fin 3 → ℝ) j / (a * (x + 2 / 3))) = 4 * bcosd γ := by
    simp [Fin.sum_univ_three]
    rw [← mul_div_assoc, div_eq_iff hd.ne']
    ring
  have e2 : ∑ j, (!![a * a, a * 4 * bcosd γ, 0; a * 4 * bcosd γ, 4 * 4, 0; 0, 0, 10 * 10] : Matrix (Fin 3) (Fin 3) ℝ) 2 j *
      ((![x + 2 / 3, 0, 0] : Fin 3 → ℝ) j / (a * (x + 2 / 3))) = 0 := by
    simp [Fin.sum_univ_three]
  erw [e0, e1, e2]
  unfold msd₀
  simp only [x₀, wit, PPhase.atm]
  simp only [List.getD_cons_zero, List.getD_cons_succ]
  simp only [Matrix.cons_val]
  clear r0 r1 hv
  set S := √(1 - bcosd γ ^ 2) with hSd
  clear_value S
  rw [← hS]
  field_simp
  ring

omit R in
theorem wit_np : (wit a γ x u).np = 2 := by
  simp [PPhase.np, wit]
  norm_num

omit R in
theorem wit_bavg : (wit a γ x u).bavg = 1 := by
  unfold PPhase.bavg
  rw [wit_np]
  simp [wit]

omit R in
theorem wit_weight (i : ℕ) (hi : i < 2) : (wit a γ x u).weight i = 1 := by
  unfold PPhase.weight
  rw [wit_bavg, div_one]
  have : i = 0 ∨ i = 1 := by omega
  rcases this with rfl | rfl <;> rfl

omit R in
theorem half2 : halfPairs 2 = [(0, 0), (0, 1), (1, 1)] := by decide

omit R in
theorem wit_rtot : rtot (wit a γ x u) = 4 := by
  unfold rtot
  show (List.map _ (halfPairs 2)).sum = 4
  rw [half2]
  simp [half, wit_weight]
  norm_num

omit R in
theorem wit_ract : ract (wit a γ x u) witS = 4 := by
  rw [← wit_rtot (a := a) (γ := γ) (x := x) (u := u)]
  unfold ract rtot
  congr 2

omit R in
theorem wit_ncv : (wit a γ x u).ncv = √(1 - bcosd γ ^ 2) * a * 4 * 10 := by
  unfold PPhase.ncv vol
  rw [wit_voll]
  show ((1 * 1 * 1 : ℕ) : ℝ) * (√(1 - bcosd γ ^ 2) * a * 4 * 10) = _
  simp

omit R in
theorem wit_cor (qb : ℝ) : 1 ≤ corfact (witD qb) (wit a γ x u) (dist2 (wit a γ x u) x₀) := by
  unfold corfact
  show 1 ≤ 1 - 0 / _ - 0 / _ + qb ^ 2 * _
  rw [zero_div, zero_div, wit_dist0]
  have := mul_nonneg (sq_nonneg qb) (sq_nonneg (a * (x + 2 / 3)))
  linarith

theorem wit_range : (213 : ℝ) / 100 < a * (x + 2 / 3) ∧ a * (x + 2 / 3) < 227 / 100 := by
  have a1 := R.a1
  have a2 := R.a2
  have x1 := R.x1
  have x2 := R.x2
  constructor <;> nlinarith

theorem wit_sig (qb : ℝ) (b : Bool) : 7 / 100 < sigB (witD qb) (wit a γ x u) x₀ b := by
  unfold sigB
  rw [wit_msd R]
  have h1 : (7 : ℝ) / 100 < √(msd₀ γ u) := by
    have := msd₀_ge R
    apply Real.lt_sqrt_of_sq_lt
    linarith
  have h2 : 1 ≤ √(corfact (witD qb) (wit a γ x u) (dist2 (wit a γ x u) x₀)) := by
    rw [Real.one_le_sqrt]
    exact wit_cor qb
  have h3 : phiB (wit a γ x u) b = 1 := by cases b <;> simp [phiB, wit]
  rw [h3, mul_one]
  nlinarith

theorem wit_event (qb : ℝ) : eventOf (witD qb) (wit a γ x u) x₀ =
    .peak (a * (x + 2 / 3)) (sigB (witD qb) (wit a γ x u) x₀ false) := by
  have hr := wit_range R
  have h := event_in (D := witD qb) (ph := wit a γ x u) (x := x₀) (by rw [witD_rmin2, wit_dist0]; nlinarith)
    (by rw [witD_rmax2, wit_dist0]; nlinarith) (by rw [wit_msd R]; linarith [msd₀_ge R]) (lt_of_lt_of_le one_pos (wit_cor qb))
    (fun hc => by
      exfalso
      have := Real.sqrt_nonneg (dist2 (wit a γ x u) x₀)
      change _ < (0 : ℝ) at hc
      linarith)
  rw [wit_dist R] at h
  rw [h]
  have : decide (a * (x + 2 / 3) < (wit a γ x u).rcut) = false := by
    rw [decide_eq_false_iff_not, not_lt]
    exact (wit_dist_pos R).le
  rw [this]

theorem wit_piece (qb : ℝ) : piece (witD qb) (wit a γ x u) x₀ = [(x₀, 0, false)] := by
  have hr := wit_range R
  have hs := wit_sig R qb false
  have e1 : ib (witD qb) (a * (x + 2 / 3)) (sigB (witD qb) (wit a γ x u) x₀ false) = 0 := by
    unfold ib
    rw [witD_rcmin, max_eq_left (by linarith), show (witD qb).rmin = 11 / 5 from rfl, sub_self, zero_div, nint_zero]
  have e2 : ie (witD qb) (wit a γ x u) (a * (x + 2 / 3)) (sigB (witD qb) (wit a γ x u) x₀ false) = 0 := by
    rw [ie_eq]
    have : hiEnd (witD qb) (wit a γ x u) = 11 / 5 := by
      unfold hiEnd
      rw [if_neg (by simp [wit]), witD_rcmax]
    rw [this, min_eq_left (by linarith), show (witD qb).rmin = 11 / 5 from rfl, sub_self, zero_div, nint_zero]
  unfold piece
  rw [wit_event R]
  dsimp only
  rw [e1, e2]
  have : decide (a * (x + 2 / 3) < (wit a γ x u).rcut) = false := by
    rw [decide_eq_false_iff_not, not_lt]
    exact (wit_dist_pos R).le
  rw [this]
  rfl

theorem wit_skip (qb : ℝ) (i j : ℕ) (hij : i ≤ j) (hj : j < 2) (T : ℤ × ℤ × ℤ) (h : ((i, j), T) ≠ x₀) :
    eventOf (witD qb) (wit a γ x u) ((i, j), T) = .skip := by
  apply event_out
  rw [witD_rmin2, witD_rmax2]
  exact wit_other R i j hij hj T h

omit R in
/-- Exchange of the atoms. -/
theorem dist2_swap (ph : PPhase) (i j : ℕ) (T : ℤ × ℤ × ℤ) :
    dist2 ph ((i, j), T) = dist2 ph ((j, i), (-T.1, -T.2.1, -T.2.2)) := by
  have : vec ph ((i, j), T) = fun k => -vec ph ((j, i), (-T.1, -T.2.1, -T.2.2)) k := by
    funext k
    unfold vec dd
    fin_cases k <;> simp <;> ring
  unfold dist2 Phs.skal skalpro
  rw [this]
  simp

theorem wit_near : C24.Near (wit a γ x u) := C24.near_of _ (wit_fine R) (wit_close R)

theorem wit_dec (qb : ℝ) : (decisions (witD qb) (wit a γ x u) witS).Perm [(x₀, 0, false)] ∧ ¬Bad (witD qb) (wit a γ x u) witS := by
  have hc := cover (witD qb) (wit a γ x u) witS (wit_fine R) (wit_near R) le_rfl [(-1, 0, 0), (1, 0, 0)] (by decide) (by
    intro i j T hi hj he
    change i < 2 at hi
    change j < 2 at hj
    by_contra hT
    apply he
    by_cases hij : i ≤ j
    · refine wit_skip R qb i j hij hj T ?_
      intro e
      apply hT
      unfold x₀ at e
      simp only [Prod.mk.injEq] at e
      obtain ⟨-, e⟩ := e
      rw [e]
      simp
    · have h0 : dist2 (wit a γ x u) ((i, j), T) < 36 / 25 ∨ 256 / 25 < dist2 (wit a γ x u) ((i, j), T) := by
        rw [dist2_swap]
        refine wit_other R j i (by omega) hi _ ?_
        intro e
        apply hT
        unfold x₀ at e
        simp only [Prod.mk.injEq] at e
        obtain ⟨-, e1, e2, e3⟩ := e
        have : T = (1, 0, 0) := by
          refine Prod.ext ?_ (Prod.ext ?_ ?_)
          · show T.1 = 1; omega
          · show T.2.1 = 0; omega
          · show T.2.2 = 0; omega
        rw [this]
        simp
      have : eventOf (witD qb) (wit a γ x u) ((i, j), T) = .skip := by
        apply event_out
        rw [witD_rmin2, witD_rmax2]
        exact h0
      exact this)
  have el : onList witS (wit a γ x u).atom.length [(-1, 0, 0), (1, 0, 0)] =
      [((0, 0), (-1, 0, 0)), ((0, 0), (1, 0, 0)), x₀, ((0, 1), (1, 0, 0)), ((1, 1), (-1, 0, 0)), ((1, 1), (1, 0, 0))] := by
    unfold onList selPairs
    show List.flatMap _ ((halfPairs 2).filter _) = _
    rw [half2]
    rfl
  have p0 : ∀ y, eventOf (witD qb) (wit a γ x u) y = .skip → piece (witD qb) (wit a γ x u) y = [] := by
    intro y hy
    unfold piece
    rw [hy]
  have s1 := wit_skip R qb 0 0 (by omega) (by omega) (-1, 0, 0) (by decide)
  have s2 := wit_skip R qb 0 0 (by omega) (by omega) (1, 0, 0) (by decide)
  have s3 := wit_skip R qb 0 1 (by omega) (by omega) (1, 0, 0) (by decide)
  have s4 := wit_skip R qb 1 1 (by omega) (by omega) (-1, 0, 0) (by decide)
  have s5 := wit_skip R qb 1 1 (by omega) (by omega) (1, 0, 0) (by decide)
  rw [el] at hc
  constructor
  · refine hc.1.trans ?_
    simp only [List.flatMap_cons, List.flatMap_nil, p0 _ s1, p0 _ s2, p0 _ s3, p0 _ s4, p0 _ s5, wit_piece R, List.nil_append, List.append_nil]
    exact List.Perm.refl _
  · rintro (hn | hn | hn | hn | hn | hn)
    · obtain ⟨y, hy, he⟩ := hc.2 hn
      simp only [List.mem_cons, List.not_mem_nil, or_false] at hy
      rcases hy with rfl | rfl | rfl | rfl | rfl | rfl
      · rw [s1] at he; cases he
      · rw [s2] at he; cases he
      · rw [wit_event R] at he; cases he
      · rw [s3] at he; cases he
      · rw [s4] at he; cases he
      · rw [s5] at he; cases he
    · rw [wit_np] at hn; norm_num at hn
    · rw [wit_ncv] at hn
      have s2 := reg_s2 R
      have hS0 : 0 < √(1 - bcosd γ ^ 2) := Real.sqrt_pos.2 (by linarith)
      have ha : 0 < a := by have := R.a1; linarith
      have : 0 < √(1 - bcosd γ ^ 2) * a * 4 * 10 := by positivity
      linarith
    · rw [wit_bavg] at hn; norm_num at hn
    · rw [wit_rtot] at hn; norm_num at hn
    · obtain ⟨i, h1, h2, h3⟩ := hn
      rw [witD_ncmin] at h1
      rw [witD_ncmax] at h2
      have : i = 0 := by omega
      rw [this, witD_r] at h3
      norm_num at h3

/-- A sum over the decisions. -/
theorem wit_decSum (qb : ℝ) (f : Dec → ℝ) : decSum (witD qb) (wit a γ x u) witS f 0 = f (x₀, 0, false) := by
  unfold decSum
  rw [((wit_dec R qb).1.map _).sum_eq]
  simp

/-- The height of the peak. -/
noncomputable def hgt₀ (qb a γ x u : ℝ) : ℝ :=
  2 * gaus (witD 0) (a * (x + 2 / 3)) (√(msd₀ γ u) * √(1 + qb ^ 2 * (a * (x + 2 / 3)) ^ 2)) 0

theorem wit_hgt (qb : ℝ) : hgt (witD qb) (wit a γ x u) (x₀, 0, false) = hgt₀ qb a γ x u := by
  unfold hgt hgt₀ sigB ampl
  dsimp only
  rw [wit_dist R, wit_msd R]
  have : corfact (witD qb) (wit a γ x u) (dist2 (wit a γ x u) x₀) = 1 + qb ^ 2 * (a * (x + 2 / 3)) ^ 2 := by
    unfold corfact
    show 1 - 0 / _ - 0 / _ + qb ^ 2 * _ = _
    rw [zero_div, zero_div, wit_dist0]
    ring
  rw [this, show half x₀.1.1 x₀.1.2 = 2 from by simp [half, x₀], show phiB (wit a γ x u) false = 1 from rfl,
    show x₀.1.1 = 0 from rfl, show x₀.1.2 = 1 from rfl, wit_weight 0 (by omega), wit_weight 1 (by omega)]
  have o0 : ((wit a γ x u).atm 0).occ = 1 := rfl
  have o1 : ((wit a γ x u).atm 1).occ = 1 := rfl
  rw [o0, o1]
  unfold gaus
  simp [witD]

theorem wit_curve (qb : ℝ) : curve (witD qb) (wit a γ x u) witS 0 =
    hgt₀ qb a γ x u / 2 / (11 / 5) - 4 * Real.pi * (11 / 5) * (2 / (√(1 - bcosd γ ^ 2) * a * 4 * 10)) := by
  unfold curve
  rw [pairSum_dec, wit_decSum R, wit_hgt R, wit_np, witD_r, wit_ract, wit_rtot]
  unfold PPhase.rho0 envelope
  rw [wit_np, wit_ncv]
  simp [witD, wit]

end

end Pdffit.Deriv
