import Verif.Props.C91

/-!
# C91, continued: with a step cut the choice of the cell matters

The search for atoms below the step cut goes as far as the step cut plus the diagonal of the cell, but peaks of more distant atoms can be wide
enough to reach below the step cut. A larger cell has a longer diagonal, and finds more of them.
-/

namespace Pdffit.C91
open Det Bonds Geom Pdffit.Parser C24 C60 Axes

/-- A simple cubic crystal with large displacements and a small step cut. -/
noncomputable def single : PPhase where
  cell := ⟨![1, 1, 1], ![90, 90, 90]⟩
  icc := ![1, 1, 1]
  atom := [⟨![0, 0, 0], 1, ![1, 1, 1, 0, 0, 0], 1⟩]
  delta2 := 0
  delta1 := 0
  rcut := 0
  sratio := 1
  stepcut := 1 / 4
  spdiameter := 0
  pscale := 1

/-- The same crystal with a cell of twice the length. -/
noncomputable def double : PPhase := { single with
  cell := ⟨![2, 1, 1], ![90, 90, 90]⟩
  atom := [⟨![0, 0, 0], 1, ![1, 1, 1, 0, 0, 0], 1⟩, ⟨![1 / 2, 0, 0], 1, ![1, 1, 1, 0, 0, 0], 1⟩] }

/-- Two grid points, at 1/4 and 9/4. -/
noncomputable def twoD : Data := ⟨1 / 4, 2, 1 / 4, 9 / 4, 0, 0, 0, 1⟩

theorem single90 : ∀ k, single.toPhs.cell.win k = 90 := by intro k; fin_cases k <;> rfl
theorem double90 : ∀ k, double.toPhs.cell.win k = 90 := by intro k; fin_cases k <;> rfl

theorem ortho_fine (p : Phs) (h : ∀ k, p.cell.win k = 90) (he : ∀ i, 0 < p.cell.a0 i) (hi : ∀ i, 0 < p.icc i) : C19.Fine p where
  acc := by
    have hv : voll p.cell = 1 := by unfold voll; simp only [h, C45.cosd90]; norm_num
    refine ⟨_, if_neg ?_⟩
    rw [hv, not_le]
    unfold eps
    norm_num
  edge := he
  angle := by intro i; rw [h]; norm_num
  small := by intro i j _; left; rw [h, C45.cosd90, mul_zero]
  icc := hi

theorem single_fine : C19.Fine single.toPhs := ortho_fine _ single90 (by intro i; fin_cases i <;> simp [single, PPhase.toPhs])
  (by intro i; fin_cases i <;> simp [single, PPhase.toPhs])
theorem double_fine : C19.Fine double.toPhs := ortho_fine _ double90 (by intro i; fin_cases i <;> simp [double, PPhase.toPhs])
  (by intro i; fin_cases i <;> simp [double, single, PPhase.toPhs])

theorem single_near : Near single := near_of _ single_fine fun i j hi hj k => by
  have hi : i < 1 := hi
  have hj : j < 1 := hj
  interval_cases i; interval_cases j; simp

theorem double_near : Near double := near_of _ double_fine fun i j hi hj k => by
  have hi : i < 2 := hi
  have hj : j < 2 := hj
  interval_cases i <;> interval_cases j <;> fin_cases k <;> norm_num [double, PPhase.atm, abs_le]

def pair : Fin 2 ≃ Fin 1 × Box ![2, 1, 1] where
  toFun i := (0, fun k => match k with
    | 0 => (i : Fin 2)
    | 1 => (0 : Fin 1)
    | 2 => (0 : Fin 1))
  invFun x := x.2 0
  left_inv _ := rfl
  right_inv x := by
    obtain ⟨a, d⟩ := x
    refine Prod.ext (Subsingleton.elim (α := Fin 1) _ _) (funext fun k => ?_)
    match k with
    | 0 => rfl
    | 1 => exact Subsingleton.elim (α := Fin 1) _ _
    | 2 => exact Subsingleton.elim (α := Fin 1) _ _

theorem pair_2 (i : Fin 2) (k : Fin 3) : ((pair i).2 k : ℕ) = ![i.1, 0, 0] k := by fin_cases k <;> rfl

theorem double_same : Same single double noSel noSel ![2, 1, 1] pair 0 0 where
  pos_n := fun k => by fin_cases k <;> simp
  win := rfl
  period := fun k => by fin_cases k <;> norm_num [double, single]
  pos := fun ⟨i, h⟩ k => by
    show _ = single.cell.a0 k * ((single.atm 0).pos k + 0 + (single.icc k : ℕ) *
      ((((pair ⟨i, h⟩).2 k : ℕ) : ℤ) + (![2, 1, 1] k : ℕ) * ((0 : ℤ) : ℝ)))
    have h2 : ((((pair ⟨i, h⟩).2 k : ℕ) : ℤ) : ℝ) = (((![i, 0, 0] k : ℕ) : ℤ) : ℝ) := congrArg _ (congrArg _ (pair_2 ⟨i, h⟩ k))
    refine Eq.trans ?_ (congrArg (fun x : ℝ => single.cell.a0 k * ((single.atm 0).pos k + 0 + (single.icc k : ℕ) *
      (x + (![2, 1, 1] k : ℕ) * ((0 : ℤ) : ℝ)))) h2.symm)
    have hi : i < 2 := h
    interval_cases i <;> fin_cases k <;> norm_num [double, single, PPhase.atm]
  occ := fun ⟨i, h⟩ => by
    match i, h with
    | 0, _ => rfl
    | 1, _ => rfl
  u := fun ⟨i, h⟩ => by
    match i, h with
    | 0, _ => rfl
    | 1, _ => rfl
  sf := fun ⟨i, h⟩ => by
    match i, h with
    | 0, _ => rfl
    | 1, _ => rfl
  igI := fun _ => rfl
  igJ := fun _ => rfl
  rest := ⟨rfl, rfl, rfl, rfl, rfl, rfl, rfl⟩

theorem two_r : twoD.rcmin = 1 / 4 ∧ twoD.rcmax = 9 / 4 := by
  constructor
  · exact if_neg (lt_irrefl _)
  · exact if_neg (lt_irrefl _)

theorem two_rmin2 : twoD.rmin2 = 1 / 100 := by
  unfold Data.rmin2
  rw [two_r.1]
  norm_num

theorem two_rmax2 : twoD.rmax2 = (13 / 4) ^ 2 := by
  unfold Data.rmax2
  rw [two_r.2]
  norm_num

theorem two_ok : twoD.Ok := ⟨by norm_num [twoD], le_rfl, by norm_num [twoD]⟩

/-! ## The searches -/

theorem single_circum : circumDiameter single.toPhs < 7 / 4 := by
  have hs : √(3 : ℝ) < 1733 / 1000 := (Real.sqrt_lt' (by norm_num)).2 (by norm_num)
  have h0 := Real.sqrt_nonneg 3
  have e : ∀ u ∈ diagonals, √(single.toPhs.skal u u) = √3 := by
    intro u hu
    rw [C20.skal_ortho _ single90]
    congr 1
    simp only [diagonals, List.mem_cons, List.not_mem_nil, or_false] at hu
    rcases hu with rfl | rfl | rfl | rfl <;> simp [single, PPhase.toPhs] <;> norm_num
  unfold circumDiameter
  rw [if_neg (by simp [single, PPhase.toPhs])]
  obtain ⟨-, -, h⟩ := fold_max (fun u => √(single.toPhs.skal u u)) diagonals (-1)
  have hb : diagonals.foldl (fun mx u => if √(single.toPhs.skal u u) > mx then √(single.toPhs.skal u u) else mx) (-1) ≤ √3 := by
    rcases h with h | ⟨u, hu, h⟩
    · rw [h]; linarith
    · rw [← h]; exact (e u hu).le
  have he : eps < 1 / 1000 := by unfold eps; norm_num
  have := C45.eps_pos
  nlinarith

theorem double_circum : 12 / 5 < circumDiameter double.toPhs := by
  have h := C19.diag_bound _ double_fine (by simp [double, PPhase.toPhs]) (fun _ => 1) (fun _ => by simp)
  rw [C20.skal_ortho _ double90] at h
  simp only [double, single, PPhase.toPhs, Matrix.cons_val] at h
  norm_num at h
  have hs : 12 / 5 < √(6 : ℝ) := Real.lt_sqrt_of_sq_lt (by norm_num)
  exact hs.trans h

/-- Squared length of a translation of the small cell. -/
def q1 (T : ℤ × ℤ × ℤ) : ℤ := T.1 ^ 2 + T.2.1 ^ 2 + T.2.2 ^ 2
/-- Squared length of a translation of the large cell. -/
def q2 (T : ℤ × ℤ × ℤ) : ℤ := 4 * T.1 ^ 2 + T.2.1 ^ 2 + T.2.2 ^ 2

theorem single_tlen (T : ℤ × ℤ × ℤ) : tlen single T = √(q1 T : ℝ) := by
  unfold tlen q1
  rw [C20.skal_ortho _ single90]
  simp [C19.tvec, single, PPhase.toPhs]

theorem double_tlen (T : ℤ × ℤ × ℤ) : tlen double T = √(q2 T : ℝ) := by
  unfold tlen q2
  rw [C20.skal_ortho _ double90]
  simp [C19.tvec, double, single, PPhase.toPhs]
  ring_nf

theorem single_ball {T : ℤ × ℤ × ℤ} (h : T ∈ ball twoD single) : q1 T ≤ 3 := by
  have h : tlen single T < if 0 < single.stepcut then
    min (√twoD.rmax2 + circumDiameter single.toPhs) (single.stepcut + circumDiameter single.toPhs) else _ := h
  rw [if_pos (by norm_num [single])] at h
  have h := h.trans_le (min_le_right _ _)
  have hc := single_circum
  rw [single_tlen, show single.stepcut = 1 / 4 from rfl] at h
  have h2 : √(q1 T : ℝ) < 2 := by linarith
  rw [Real.sqrt_lt' (by norm_num)] at h2
  have : (q1 T : ℝ) < 4 := by linarith
  have : q1 T < 4 := by exact_mod_cast this
  omega

theorem double_ball {T : ℤ × ℤ × ℤ} (h : q2 T ≤ 7) : T ∈ ball twoD double := by
  show tlen double T < if 0 < double.stepcut then
    min (√twoD.rmax2 + circumDiameter double.toPhs) (double.stepcut + circumDiameter double.toPhs) else _
  rw [if_pos (by norm_num [double, single]), two_rmax2, Real.sqrt_sq (by norm_num), show double.stepcut = 1 / 4 from rfl, min_eq_right (by linarith),
    double_tlen]
  have hc := double_circum
  have h7 : (q2 T : ℝ) ≤ 7 := by exact_mod_cast h
  have : √(q2 T : ℝ) < 53 / 20 := (Real.sqrt_lt' (by norm_num)).2 (by linarith)
  linarith

/-- A translation between two atoms of the large cell in terms of the small one. -/
theorem trans_eq (i j : Fin 2) (T : ℤ × ℤ × ℤ) :
    Pdffit.C60.trans (ph := single) (ph' := double) pair 0 i j T = (2 * T.1 - (i.1 - j.1), T.2.1, T.2.2) := by
  obtain ⟨i, hi⟩ := i
  obtain ⟨j, hj⟩ := j
  refine Prod.ext ?_ (Prod.ext ?_ ?_)
  · show (2 : ℤ) * T.1 - ((i : ℤ) - (j : ℤ)) - 2 * (0 - 0) = 2 * T.1 - ((i : ℤ) - (j : ℤ))
    ring
  · show (1 : ℤ) * T.2.1 - (0 - 0) - 1 * (0 - 0) = T.2.1
    ring
  · show (1 : ℤ) * T.2.2 - (0 - 0) - 1 * (0 - 0) = T.2.2
    ring

theorem ball_of (i j : Fin 2) (T : ℤ × ℤ × ℤ) (h : Pdffit.C60.trans (ph := single) (ph' := double) pair 0 i j T ∈ ball twoD single) :
    T ∈ ball twoD double := by
  have h := single_ball h
  rw [trans_eq] at h
  unfold q1 at h
  dsimp only at h
  apply double_ball
  unfold q2
  have hd : -1 ≤ (i.1 : ℤ) - j.1 ∧ (i.1 : ℤ) - j.1 ≤ 1 := by
    have hi := i.2
    have hj := j.2
    omega
  generalize (i.1 : ℤ) - j.1 = d at *
  obtain ⟨d1, d2⟩ := hd
  interval_cases d
  · nlinarith [sq_nonneg (T.2.1), sq_nonneg T.2.2, sq_nonneg (2 * T.1 + 1)]
  · nlinarith
  · nlinarith [sq_nonneg (T.2.1), sq_nonneg T.2.2, sq_nonneg (2 * T.1 - 1)]

/-! ## The sums -/

/-- Contribution of a translation at the first grid point. -/
noncomputable def t1 (T : ℤ × ℤ × ℤ) : ℝ := term twoD single (single.atm 0) (single.atm 0) 1 T 0

theorem t1_nonneg (T : ℤ × ℤ × ℤ) : 0 ≤ t1 T := term_nonneg _ _ zero_le_one le_rfl _ _

theorem term_double (i j : Fin 2) (T : ℤ × ℤ × ℤ) : term twoD double (double.atm i) (double.atm j) 1 T 0 =
    t1 (Pdffit.C60.trans (ph := single) (ph' := double) pair 0 i j T) :=
  term_same double_same single_fine double_fine twoD i j 1 T 0

/-- An atom at the distance of 2 contributes at 1/4. -/
theorem t1_pos : 0 < t1 (0, 2, 0) := by
  have hd : dd single (single.atm 0) (single.atm 0) (0, 2, 0) = ![0, -2, 0] := by
    funext k; fin_cases k <;> norm_num [dd, single, PPhase.atm]
  have hsk : single.toPhs.skal (dd single (single.atm 0) (single.atm 0) (0, 2, 0)) (dd single (single.atm 0) (single.atm 0) (0, 2, 0)) = 2 ^ 2 := by
    rw [hd, C20.skal_ortho _ single90]
    simp [single, PPhase.toPhs]
  have ar : recEdge single.cell 1 = 1 := by
    have hv : voll single.cell = 1 := by
      unfold voll
      simp only [show ∀ k, single.cell.win k = 90 from single90, C45.cosd90]; norm_num
    unfold recEdge vol
    rw [hv, show single.cell.win 1 = 90 from rfl, C45.sind90]
    simp [single]
  have g : single.toPhs.gten 1 1 = 1 := by
    show tensor single.cell.a0 single.cell.win 1 1 = 1
    norm_num [tensor, single]
  have hm : single.msd (single.atm 0) (single.atm 0) (dd single (single.atm 0) (single.atm 0) (0, 2, 0)) = 2 := by
    unfold PPhase.msd
    dsimp only
    rw [hsk, Real.sqrt_sq (by norm_num)]
    have u : ∀ i : Fin 6, (single.atm 0).u i + (single.atm 0).u i = ![2, 2, 2, 0, 0, 0] i := by
      intro i
      fin_cases i <;> norm_num [single, PPhase.atm]
    have h01 : single.toPhs.gten 0 1 = 0 ∧ single.toPhs.gten 2 1 = 0 := by
      constructor <;> show tensor single.cell.a0 single.cell.win _ _ = 0 <;>
        simp [tensor, show ∀ k, single.cell.win k = 90 from single90, C45.cosd90]
    rw [hd]
    simp only [u, ar, Fin.sum_univ_three, g, h01.1, h01.2, Matrix.cons_val]
    norm_num
  have hc : corfact twoD single (2 ^ 2) = 1 := by norm_num [corfact, twoD, single]
  have hs : sigma twoD single (2 ^ 2) 2 = √2 := by
    unfold sigma
    rw [hc, if_neg (by show ¬_ < (0 : ℝ); exact not_lt.2 (Real.sqrt_nonneg _))]
    norm_num
  have hev : event twoD single (single.atm 0) (single.atm 0) (0, 2, 0) = .peak 2 √2 := by
    unfold event
    dsimp only
    rw [hsk, hm, two_rmin2, two_rmax2, hc, hs, if_neg (by norm_num), if_neg (by norm_num), if_neg (by norm_num),
      if_neg (by norm_num), if_neg (by norm_num), Real.sqrt_sq (by norm_num)]
  have h2 : 1 < √(2 : ℝ) := Real.lt_sqrt_of_sq_lt (by norm_num)
  unfold t1 term
  rw [hev]
  dsimp only
  rw [if_pos]
  · unfold gaus
    have := Real.pi_pos
    positivity
  · unfold ib ie
    rw [two_r.1, two_r.2, if_pos (by norm_num [single]), show single.stepcut = 1 / 4 from rfl, show twoD.rmin = 1 / 4 from rfl,
      max_eq_left (by linarith), min_eq_right (le_min (by norm_num) (by linarith)), sub_self, zero_div]
    have := nint_int 0
    rw [Int.cast_zero] at this
    rw [this]
    exact ⟨le_rfl, le_rfl⟩

theorem t1_support : (Function.support t1).Finite := by
  have F : C19.Fine ({ single with stepcut := 0 } : PPhase).toPhs := ortho_fine _ single90 single_fine.edge single_fine.icc
  have N : Near { single with stepcut := 0 } := fun i j hi hj => single_near i j hi hj
  refine ((Sphere.points (sphere twoD { single with stepcut := 0 })).finite_toSet).subset fun T hT => ?_
  have he : event twoD { single with stepcut := 0 } (single.atm 0) (single.atm 0) T ≠ .skip := by
    intro h0
    apply hT
    show term twoD single (single.atm 0) (single.atm 0) 1 T 0 = 0
    have h0 : event twoD single (single.atm 0) (single.atm 0) T = .skip := h0
    unfold term
    rw [h0]
  exact (points_iff F N (i := 0) (j := 0) one_pos one_pos T he).2 (in_ball twoD F N le_rfl (i := 0) (j := 0) one_pos one_pos he)

theorem single_np : single.np = 1 := by norm_num [PPhase.np, single]
theorem single_bavg : single.bavg = 1 := by
  have : single.bavg = (1 * 1 + 0) / single.np := rfl
  rw [this, single_np]; norm_num
theorem single_weight : single.weight 0 = 1 := by
  show 1 / single.bavg = 1; rw [single_bavg]; norm_num
theorem double_weight (i : Fin 2) : double.weight i = 1 := (Pdffit.C60.weight_same double_same i).trans single_weight
theorem double_occ (i : Fin 2) : (double.atm i).occ = 1 := double_same.occ i

open Classical in
theorem S_single : S twoD single 0 0 0 = ∑ᶠ T, if T ∈ ball twoD single then t1 T else 0 := by
  unfold S
  refine finsum_congr fun T => ?_
  rw [finsum_eq_if, single_weight, show (single.atm 0).occ = 1 from rfl, one_mul, one_mul]
  rfl

open Classical in
theorem S_double (i j : Fin 2) : S twoD double i j 0 =
    ∑ᶠ T, if T ∈ ball twoD double then t1 (Pdffit.C60.trans (ph := single) (ph' := double) pair 0 i j T) else 0 := by
  unfold S
  refine finsum_congr fun T => ?_
  rw [finsum_eq_if, double_weight, double_weight, double_occ, double_occ, one_mul, one_mul, term_double]

theorem trans_inj (i j : Fin 2) : Function.Injective (Pdffit.C60.trans (ph := single) (ph' := double) pair 0 i j) := by
  intro a b h
  rw [trans_eq, trans_eq] at h
  simp only [Prod.mk.injEq] at h
  refine Prod.ext ?_ (Prod.ext h.2.1 h.2.2)
  omega

open Classical in
/-- One row of the sum. -/
theorem row (i : Fin 2) : S twoD single 0 0 0 < ∑ j : Fin 2, S twoD double i j 0 := by
  set g : ℤ × ℤ × ℤ → ℝ := fun T => if T ∈ ball twoD single then t1 T else 0 with hg
  have hgf : (Function.support g).Finite := t1_support.subset fun T hT h0 => hT (by
    show (if _ then _ else _) = _
    rw [h0, ite_self])
  let tr (j : Fin 2) := Pdffit.C60.trans (ph := single) (ph' := double) pair 0 i j
  let h (j : Fin 2) (T : ℤ × ℤ × ℤ) : ℝ := if T ∈ ball twoD double then t1 (tr j T) else 0
  have hh : ∀ j, (Function.support (h j)).Finite := fun j =>
    (t1_support.preimage (trans_inj i j).injOn).subset fun T hT h0 => hT (by
      show (if _ then t1 (tr j T) else _) = _
      rw [show t1 (tr j T) = 0 from h0, ite_self])
  have hgt : ∀ j, (Function.support fun T => g (tr j T)).Finite := fun j => hgf.preimage (trans_inj i j).injOn
  have hle : ∀ j T, g (tr j T) ≤ h j T := by
    intro j T
    by_cases hT : tr j T ∈ ball twoD single
    · show (if _ then _ else _) ≤ (if _ then _ else _)
      rw [if_pos hT, if_pos (ball_of i j T hT)]
    · show (if _ then _ else _) ≤ (if _ then _ else _)
      rw [if_neg hT]
      split
      · exact t1_nonneg _
      · exact le_rfl
  have hsum : S twoD single 0 0 0 = ∑ j : Fin 2, ∑ᶠ T, g (tr j T) := by
    rw [S_single, ← sum_trans (ph := single) (ph' := double) double_same.pos_n pair 0 i ⟨0, one_pos⟩ g hgf]
    exact Fintype.sum_equiv ((Equiv.uniqueProd (Box ![2, 1, 1]) (Fin 1)).symm.trans pair.symm) _ _ fun d => rfl
  rw [hsum]
  simp only [S_double]
  refine Finset.sum_lt_sum (fun j _ => finsum_le_finsum' (hgt j) (hh j) (hle j)) ⟨i, Finset.mem_univ _, ?_⟩
  rw [← sub_pos, ← finsum_sub_distrib (hh i) (hgt i)]
  refine finsum_pos (fun T => sub_nonneg.2 (hle i T)) ⟨(0, 2, 0), ?_⟩ (((hh i).union (hgt i)).subset (Function.support_sub _ _))
  have e : tr i (0, 2, 0) = (0, 2, 0) := by
    show Pdffit.C60.trans _ _ _ _ _ = _
    rw [trans_eq]; simp
  show 0 < (if _ then t1 (tr i (0, 2, 0)) else 0) - (if _ then _ else 0)
  rw [e, if_pos (double_ball (by norm_num [q2])), if_neg (fun hc => by have := single_ball hc; norm_num [q1] at this), sub_zero]
  exact t1_pos

theorem pairSum_lt : 2 * pairSum twoD single noSel 0 < pairSum twoD double noSel 0 := by
  rw [pairSum_full single_fine single_near, pairSum_full double_fine double_near,
    show single.atom.length = 1 from rfl, show double.atom.length = 2 from rfl]
  simp only [Finset.sum_range_succ, Finset.sum_range_zero, zero_add, show ∀ i j, skip noSel i j = false from fun _ _ => rfl, if_true]
  have r0 := row 0
  have r1 := row 1
  rw [Fin.sum_univ_two] at r0 r1
  have r0 : S twoD single 0 0 0 < S twoD double 0 0 0 + S twoD double 0 1 0 := r0
  have r1 : S twoD single 0 0 0 < S twoD double 1 0 0 + S twoD double 1 1 0 := r1
  linarith

theorem single_ncv : single.ncv = 1 := by
  have : voll single.cell = 1 := by
    unfold voll
    simp only [show ∀ k, single.cell.win k = 90 from single90, C45.cosd90]; norm_num
  unfold PPhase.ncv vol
  rw [this]
  simp [single]
theorem single_rtot : rtot single = 1 := by
  have : halfPairs single.atom.length = [(0, 0)] := rfl
  unfold rtot
  rw [this]
  simp only [List.map_cons, List.map_nil, List.sum_cons, List.sum_nil, single_weight, half]
  norm_num
theorem mult2 : mult ![2, 1, 1] = 2 := rfl

theorem two_r_pos {i : ℤ} (hi : 0 ≤ i) : 0 < twoD.r i := by
  have h : (0 : ℝ) ≤ i := by exact_mod_cast hi
  show 0 < (i : ℝ) * 2 + 1 / 4
  linarith

theorem step_good : ¬Bad twoD single noSel ∧ ¬Bad twoD double noSel := by
  have hu : ∀ i, (∀ k, 0 ≤ (single.atm i).u k) ∧ (single.atm i).u 3 = 0 ∧ (single.atm i).u 4 = 0 ∧ (single.atm i).u 5 = 0 := by
    intro i
    match i with
    | 0 => exact ⟨fun k => by fin_cases k <;> norm_num [single, PPhase.atm], rfl, rfl, rfl⟩
    | i + 1 => exact ⟨fun k => le_rfl, rfl, rfl, rfl⟩
  have hu' : ∀ i, (∀ k, 0 ≤ (double.atm i).u k) ∧ (double.atm i).u 3 = 0 ∧ (double.atm i).u 4 = 0 ∧ (double.atm i).u 5 = 0 := by
    intro i
    match i with
    | 0 => exact hu 0
    | 1 => exact hu 0
    | i + 2 => exact ⟨fun k => le_rfl, rfl, rfl, rfl⟩
  constructor
  · rintro (⟨x, -, h⟩ | h | h | h | h | ⟨i, h1, -, h⟩)
    · exact event_ne_nan _ _ _ _ _ (hu _) (hu _) le_rfl h
    · rw [single_np] at h; norm_num at h
    · rw [single_ncv] at h; norm_num at h
    · rw [single_bavg] at h; norm_num at h
    · rw [single_rtot] at h; norm_num at h
    · exact (two_r_pos ((ncmin_nonneg two_ok).trans h1)).ne' h
  · rintro (⟨x, -, h⟩ | h | h | h | h | ⟨i, h1, -, h⟩)
    · exact event_ne_nan _ _ _ _ _ (hu' _) (hu' _) le_rfl h
    · rw [Pdffit.C60.np_same double_same, single_np, mult2] at h; norm_num at h
    · rw [Pdffit.C60.ncv_same double_same, single_ncv, mult2] at h; norm_num at h
    · rw [Pdffit.C60.bavg_same double_same, single_bavg] at h; norm_num at h
    · rw [Pdffit.C60.rtot_same double_same, single_rtot, mult2] at h; norm_num at h
    · exact (two_r_pos ((ncmin_nonneg two_ok).trans h1)).ne' h

/-- The curves of `single` and `double`, which describe the same crystal, differ at the first grid point. -/
theorem double_larger : ∃ f f', determine twoD [some (single, noSel)] = .ok (some f) ∧ determine twoD [some (double, noSel)] = .ok (some f') ∧
    twoD.ncmin = 0 ∧ f 0 < f' 0 := by
  have h0 : twoD.ncmin = 0 := by
    unfold Data.ncmin
    rw [two_r.1]
    have : (1 / 4 - twoD.rmin) / twoD.deltar = ((0 : ℤ) : ℝ) := by norm_num [twoD]
    rw [this, nint_int]
  have h1 : (0 : ℤ) ≤ twoD.ncmax := by rw [← h0]; exact ncmin_le_ncmax two_ok
  obtain ⟨f, e1, e2⟩ := determine_of two_ok (psel := [some (single, noSel)]) (by
    intro x hx
    simp only [List.mem_singleton, Option.some.injEq] at hx
    subst hx
    exact step_good.1)
  obtain ⟨f', e1', e2'⟩ := determine_of two_ok (psel := [some (double, noSel)]) (by
    intro x hx
    simp only [List.mem_singleton, Option.some.injEq] at hx
    subst hx
    exact step_good.2)
  refine ⟨f, f', e1, e1', h0, ?_⟩
  rw [e2 0 h0.le h1, e2' 0 h0.le h1]
  have hq : ∀ c : ℤ → ℝ, filt twoD c 0 = c 0 := fun c => if_neg (by show ¬(0 : ℝ) < 0; exact lt_irrefl _)
  have hp := pairSum_lt
  have henv : ∀ ph : PPhase, ph.spdiameter = 0 → ph.stepcut = 1 / 4 → envelope twoD ph (twoD.r 0) = 1 := by
    intro ph e1 e2
    unfold envelope
    rw [e1, e2, if_neg (by show ¬(0 : ℝ) < 0; exact lt_irrefl _), if_neg (lt_irrefl _), if_pos (by norm_num), if_pos (by norm_num [twoD, Data.r])]
    norm_num
  have hrr := two_r_pos (le_refl 0)
  simp only [List.filterMap_cons, List.filterMap_nil, id, List.map_cons, List.map_nil, List.sum_cons, List.sum_nil, hq]
  rw [show single.pscale = 1 from rfl, show double.pscale = 1 from rfl, show twoD.dscale = 1 from rfl]
  unfold curve
  rw [henv single rfl rfl, henv double rfl rfl, Pdffit.C60.np_same double_same, Pdffit.C60.rho0_same double_same,
    Pdffit.C60.ract_same double_same, Pdffit.C60.rtot_same double_same, mult2, single_np, single_rtot]
  have : pairSum twoD single noSel 0 / 1 / twoD.r 0 < pairSum twoD double noSel 0 / (((2 : ℕ) : ℝ) * 1) / twoD.r 0 := by
    apply div_lt_div_of_pos_right _ hrr
    push_cast
    linarith
  push_cast at this ⊢
  have hk : ∀ x : ℝ, 2 * (2 * x) / (2 * (2 * 1)) = x / 1 := fun x => by ring
  rw [hk]
  linarith

/-- Violation: with a step cut the curve depends on the choice of the cell, also when the atoms are listed close together. -/
theorem cut_matters : ∃ (D : Data) (ph ph' : PPhase) (s s' : Sel) (ι : Type) (_ : Fintype ι)
    (e : Fin ph'.atom.length ≃ Fin ph.atom.length × ι) (P : Matrix (Fin 3) (Fin 3) ℝ) (Q : Matrix (Fin 3) (Fin 3) ℤ)
    (w : Fin ph'.atom.length → Fin 3 → ℤ) (o : Fin 3 → ℝ) (f f' : ℤ → ℝ), D.Ok ∧ SameCrystal ph ph' s s' ι e P Q w o ∧
      C19.Fine ph.toPhs ∧ C19.Fine ph'.toPhs ∧ Near ph ∧ Near ph' ∧ determine D [some (ph, s)] = .ok (some f) ∧
      determine D [some (ph', s')] = .ok (some f') ∧ f D.ncmin < f' D.ncmin := by
  obtain ⟨f, f', h1, h2, h3, h4⟩ := double_larger
  refine ⟨twoD, single, double, noSel, noSel, Box ![2, 1, 1], inferInstance, pair, _, _, _, _, f, f', two_ok,
    of_same double_same single_fine double_fine, single_fine, double_fine, single_near, double_near, h1, h2, ?_⟩
  rw [h3]
  exact h4

end Pdffit.C91
