import Verif.Lemmas.DerivCover
import Verif.Props.C45

/-! # A family of structures with one contributing pair -/

namespace Pdffit.Deriv
open Geom Parser Bonds Det Layout Filter

/-- Two atoms on the first axis of a cell with edges `a`, 4, 10 and angles 90, 90, `γ`. -/
noncomputable def wit (a γ x u : ℝ) : PPhase where
  cell := ⟨![a, 4, 10], ![90, 90, γ]⟩
  icc := ![1, 1, 1]
  atom := [⟨![x, 0, 0], 1, ![u, 1 / 200, 1 / 200, 0, 0, 0], 1⟩,
    ⟨![1 / 3, 0, 0], 1, ![1 / 200, 1 / 200, 1 / 200, 0, 0, 0], 1⟩]
  delta2 := 0
  delta1 := 0
  rcut := 0
  sratio := 1
  stepcut := 0
  spdiameter := 0
  pscale := 1

/-- One grid point at 2.2. -/
noncomputable def witD (qb : ℝ) : Data := ⟨11 / 5, 1 / 10, 11 / 5, 11 / 5, 0, 0, qb, 1⟩

/-- All atoms are selected. -/
def witS : Sel := ⟨fun _ => false, fun _ => false⟩

theorem witD_ok (qb : ℝ) : (witD qb).Ok := ⟨by norm_num [witD], by norm_num [witD], by norm_num [witD]⟩

theorem witD_rcmin (qb : ℝ) : (witD qb).rcmin = 11 / 5 := by unfold Data.rcmin witD; simp
theorem witD_rcmax (qb : ℝ) : (witD qb).rcmax = 11 / 5 := by unfold Data.rcmax witD; simp
theorem witD_rmin2 (qb : ℝ) : (witD qb).rmin2 = 36 / 25 := by unfold Data.rmin2; rw [witD_rcmin]; norm_num
theorem witD_rmax2 (qb : ℝ) : (witD qb).rmax2 = 256 / 25 := by unfold Data.rmax2; rw [witD_rcmax]; norm_num
theorem nint_zero : nint 0 = 0 := by
  have : |(0 : ℝ) - (0 : ℤ)| < 1 / 2 := by norm_num
  exact nint_near this
theorem witD_ncmin (qb : ℝ) : (witD qb).ncmin = 0 := by
  unfold Data.ncmin
  rw [witD_rcmin]
  have : (11 / 5 - (witD qb).rmin) / (witD qb).deltar = 0 := by simp [witD]
  rw [this, nint_zero]
theorem witD_ncmax (qb : ℝ) : (witD qb).ncmax = 0 := by
  unfold Data.ncmax
  rw [witD_rcmax]
  have : (11 / 5 - (witD qb).rmin) / (witD qb).deltar = 0 := by simp [witD]
  rw [this, nint_zero]
theorem witD_r (qb : ℝ) : (witD qb).r 0 = 11 / 5 := by simp [Data.r, witD]

/-- Where the family is used. -/
structure Reg (a γ x u : ℝ) : Prop where
  a1 : 13 / 4 < a
  a2 : a < 67 / 20
  x1 : -(1 / 100) < x
  x2 : x < 1 / 100
  g1 : 0 < γ
  g2 : γ < 180
  cs : bcosd γ = 0 ∨ 1 / 4 ≤ |bcosd γ|
  c2 : bcosd γ ^ 2 ≤ 5 / 16
  u1 : 0 < u

/-- The element of the metric tensor for the first two axes. -/
noncomputable def G (a γ : ℝ) : ℝ := if |a * 4 * bcosd γ| < eps then 0 else a * 4 * bcosd γ

theorem wit_gten (a γ x u : ℝ) : (wit a γ x u).toPhs.gten = !![a * a, G a γ, 0; G a γ, 4 * 4, 0; 0, 0, 10 * 10] := by
  have c := C45.cosd90
  have t01 : third 0 1 = 2 := by decide
  have t10 : third 1 0 = 2 := by decide
  have t02 : third 0 2 = 1 := by decide
  have t20 : third 2 0 = 1 := by decide
  have t12 : third 1 2 = 0 := by decide
  have t21 : third 2 1 = 0 := by decide
  funext i j
  unfold Phs.gten tensor
  show (if i ≠ j then if |![a, 4, 10] i * ![a, 4, 10] j * bcosd (![90, 90, γ] (third i j))| < eps then 0
    else ![a, 4, 10] i * ![a, 4, 10] j * bcosd (![90, 90, γ] (third i j)) else ![a, 4, 10] i * ![a, 4, 10] j) = _
  fin_cases i <;> fin_cases j <;> simp [t01, t10, t02, t20, t12, t21, c, G, mul_comm 4 a]

theorem wit_skal (a γ x u : ℝ) (v : Fin 3 → ℝ) : (wit a γ x u).toPhs.skal v v =
    a ^ 2 * v 0 ^ 2 + 16 * v 1 ^ 2 + 100 * v 2 ^ 2 + 2 * G a γ * v 0 * v 1 := by
  unfold Phs.skal skalpro
  rw [wit_gten]
  simp [Fin.sum_univ_three]
  ring

theorem G_sq {a γ x u : ℝ} (R : Reg a γ x u) : G a γ ^ 2 ≤ 5 * a ^ 2 := by
  have h := R.c2
  have := sq_nonneg a
  unfold G
  split
  · nlinarith
  · have : (a * 4 * bcosd γ) ^ 2 = 16 * a ^ 2 * bcosd γ ^ 2 := by ring
    nlinarith

theorem G_eq {a γ x u : ℝ} (R : Reg a γ x u) : G a γ = a * 4 * bcosd γ := by
  unfold G
  split
  · rename_i h
    rcases R.cs with hc | hc
    · rw [hc, mul_zero]
    · exfalso
      have h1 : eps < 1 := by unfold eps; norm_num
      have : |a * 4 * bcosd γ| = a * 4 * |bcosd γ| := by
        rw [abs_mul, abs_of_pos]
        have := R.a1
        linarith
      rw [this] at h
      have := R.a1
      nlinarith
  · rfl

/-- The pair that contributes. -/
def x₀ : (ℕ × ℕ) × (ℤ × ℤ × ℤ) := ((0, 1), (-1, 0, 0))

theorem wit_vec0 (a γ x u : ℝ) : vec (wit a γ x u) x₀ = ![x + 2 / 3, 0, 0] := by
  funext k
  show (wit a γ x u |>.atm 0).pos k - (wit a γ x u |>.atm 1).pos k - _ * _ = _
  fin_cases k <;> simp [x₀, wit, PPhase.atm]
  ring

theorem wit_dist0 (a γ x u : ℝ) : dist2 (wit a γ x u) x₀ = (a * (x + 2 / 3)) ^ 2 := by
  unfold dist2
  rw [wit_vec0, wit_skal]
  simp
  ring

/-- All other pairs are out of range. -/
theorem wit_other {a γ x u : ℝ} (R : Reg a γ x u) (i j : ℕ) (hij : i ≤ j) (hj : j < 2) (T : ℤ × ℤ × ℤ) (h : ((i, j), T) ≠ x₀) :
    dist2 (wit a γ x u) ((i, j), T) < 36 / 25 ∨ 256 / 25 < dist2 (wit a γ x u) ((i, j), T) := by
  obtain ⟨p, q, o⟩ := T
  have a1 := R.a1
  have a2 := R.a2
  have x1 := R.x1
  have x2 := R.x2
  have hG := G_sq R
  unfold dist2
  rw [wit_skal]
  set y := vec (wit a γ x u) ((i, j), (p, q, o)) 0 with hy
  have h1 : vec (wit a γ x u) ((i, j), (p, q, o)) 1 = -q := by
    show (wit a γ x u |>.atm i).pos 1 - (wit a γ x u |>.atm j).pos 1 - _ * _ = _
    have : i = 0 ∨ i = 1 := by omega
    have : j = 0 ∨ j = 1 := by omega
    rcases ‹i = 0 ∨ i = 1› with rfl | rfl <;> rcases ‹j = 0 ∨ j = 1› with rfl | rfl <;> simp [wit, PPhase.atm]
  have h2 : vec (wit a γ x u) ((i, j), (p, q, o)) 2 = -o := by
    show (wit a γ x u |>.atm i).pos 2 - (wit a γ x u |>.atm j).pos 2 - _ * _ = _
    have : i = 0 ∨ i = 1 := by omega
    have : j = 0 ∨ j = 1 := by omega
    rcases ‹i = 0 ∨ i = 1› with rfl | rfl <;> rcases ‹j = 0 ∨ j = 1› with rfl | rfl <;> simp [wit, PPhase.atm]
  have h0 : y = -p ∨ y = x - 1 / 3 - p ∧ (i, j) = (0, 1) := by
    have e : y = (wit a γ x u |>.atm i).pos 0 - (wit a γ x u |>.atm j).pos 0 - p * 1 := by
      rw [hy]
      show (wit a γ x u |>.atm i).pos 0 - (wit a γ x u |>.atm j).pos 0 - _ * _ = _
      simp [wit]
    rw [e]
    have : i = 0 ∨ i = 1 := by omega
    have : j = 0 ∨ j = 1 := by omega
    rcases ‹i = 0 ∨ i = 1› with rfl | rfl <;> rcases ‹j = 0 ∨ j = 1› with rfl | rfl <;> simp [wit, PPhase.atm] at hij ⊢
  rw [h1, h2]
  have form : a ^ 2 * (a ^ 2 * y ^ 2 + 16 * (-(q : ℝ)) ^ 2 + 100 * (-(o : ℝ)) ^ 2 + 2 * G a γ * y * -(q : ℝ)) =
      (a ^ 2 * y - G a γ * q) ^ 2 + (16 * a ^ 2 - G a γ ^ 2) * q ^ 2 + 100 * a ^ 2 * o ^ 2 := by ring
  set d := a ^ 2 * y ^ 2 + 16 * (-(q : ℝ)) ^ 2 + 100 * (-(o : ℝ)) ^ 2 + 2 * G a γ * y * -(q : ℝ) with hd
  have pa : 0 < a ^ 2 := by positivity
  have s1 := sq_nonneg (a ^ 2 * y - G a γ * q)
  have sq1 : ∀ n : ℤ, n ≠ 0 → (1 : ℝ) ≤ (n : ℝ) ^ 2 := by
    intro n hn
    have : 1 ≤ n ^ 2 := by
      have := Int.one_le_abs hn
      rw [← sq_abs]
      nlinarith
    exact_mod_cast this
  by_cases ho : o = 0
  swap
  · right
    have := sq1 o ho
    have s2 : 0 ≤ (16 * a ^ 2 - G a γ ^ 2) * (q : ℝ) ^ 2 := mul_nonneg (by linarith) (sq_nonneg _)
    have : a ^ 2 * 100 ≤ a ^ 2 * d := by rw [form]; nlinarith
    have := le_of_mul_le_mul_left this pa
    linarith
  by_cases hq : q = 0
  swap
  · right
    have := sq1 q hq
    have s2 : 11 * a ^ 2 ≤ (16 * a ^ 2 - G a γ ^ 2) * (q : ℝ) ^ 2 := by nlinarith
    have s3 : 0 ≤ 100 * a ^ 2 * (o : ℝ) ^ 2 := by positivity
    have : a ^ 2 * 11 ≤ a ^ 2 * d := by rw [form]; linarith
    have := le_of_mul_le_mul_left this pa
    linarith
  subst ho hq
  have hd' : d = (a * y) ^ 2 := by rw [hd]; simp; ring
  rw [hd']
  rcases h0 with h0 | ⟨h0, hp⟩
  · by_cases hp : p = 0
    · subst hp
      left
      rw [h0]
      norm_num
    · right
      have := sq1 p hp
      rw [h0]
      nlinarith
  · have hp1 : p ≠ -1 := by
      rintro rfl
      rw [hp] at h
      exact h rfl
    rcases lt_trichotomy p 0 with hn | hn | hn
    · right
      have : p ≤ -2 := by omega
      have : (p : ℝ) ≤ -2 := by exact_mod_cast this
      have y1 : 5 / 3 - 1 / 100 ≤ y := by rw [h0]; linarith
      have : 13 / 4 * (5 / 3 - 1 / 100) ≤ a * y := by nlinarith
      nlinarith
    · left
      subst hn
      have y1 : -(1 / 3) - 1 / 100 ≤ y := by rw [h0]; push_cast; linarith
      have y2 : y ≤ -(1 / 3) + 1 / 100 := by rw [h0]; push_cast; linarith
      have b1 : -(115 / 100 + 1 / 1000) ≤ a * y := by nlinarith
      have b2 : a * y ≤ 0 := by nlinarith
      nlinarith
    · right
      have : 1 ≤ p := by omega
      have : (1 : ℝ) ≤ p := by exact_mod_cast this
      have y1 : y ≤ -(4 / 3) + 1 / 100 := by rw [h0]; linarith
      have : a * y ≤ 13 / 4 * (-(4 / 3) + 1 / 100) := by nlinarith
      nlinarith

theorem wit_fine {a γ x u : ℝ} (R : Reg a γ x u) : C19.Fine (wit a γ x u).toPhs where
  acc := by
    have c := C45.cosd90
    have : voll (wit a γ x u).toPhs.cell = 1 - bcosd γ ^ 2 := by
      show voll ⟨![a, 4, 10], ![90, 90, γ]⟩ = _
      simp [voll, c]
    unfold lattice
    rw [this, if_neg]
    · exact ⟨_, rfl⟩
    · have h1 : eps < 1 / 2 := by unfold eps; norm_num
      have := R.c2
      linarith
  edge := fun i => by
    have := R.a1
    show 0 < ![a, 4, 10] i
    fin_cases i <;> simp
    linarith
  angle := fun i => by
    have h1 := R.g1
    have h2 := R.g2
    show 0 < ![90, 90, γ] i ∧ ![90, 90, γ] i < 180
    fin_cases i <;> simp [h1, h2] <;> norm_num
  small := by
    have c := C45.cosd90
    have t01 : third 0 1 = 2 := by decide
    have t10 : third 1 0 = 2 := by decide
    have t02 : third 0 2 = 1 := by decide
    have t20 : third 2 0 = 1 := by decide
    have t12 : third 1 2 = 0 := by decide
    have t21 : third 2 1 = 0 := by decide
    have key : a * 4 * bcosd γ = 0 ∨ eps ≤ |a * 4 * bcosd γ| := by
      rcases R.cs with hc | hc
      · left; rw [hc, mul_zero]
      · right
        have h1 : eps < 1 := by unfold eps; norm_num
        have : |a * 4 * bcosd γ| = a * 4 * |bcosd γ| := by
          rw [abs_mul, abs_of_pos]
          have := R.a1
          linarith
        rw [this]
        have := R.a1
        nlinarith
    intro i j hij
    show ![a, 4, 10] i * ![a, 4, 10] j * bcosd (![90, 90, γ] (third i j)) = 0 ∨
      eps ≤ |![a, 4, 10] i * ![a, 4, 10] j * bcosd (![90, 90, γ] (third i j))|
    fin_cases i <;> fin_cases j
    · exact absurd rfl hij
    · exact key
    · left; simp [t02, c]
    · have e : (4 : ℝ) * a * bcosd γ = a * 4 * bcosd γ := by ring
      show (4 : ℝ) * a * bcosd γ = 0 ∨ eps ≤ |4 * a * bcosd γ|
      rw [e]
      exact key
    · exact absurd rfl hij
    · left; simp [t12, c]
    · left; simp [t20, c]
    · left; simp [t21, c]
    · exact absurd rfl hij
  icc := fun i => by
    show 0 < ![1, 1, 1] i
    fin_cases i <;> simp

theorem wit_close {a γ x u : ℝ} (R : Reg a γ x u) (i j : ℕ) (hi : i < (wit a γ x u).atom.length) (hj : j < (wit a γ x u).atom.length)
    (k : Fin 3) : |((wit a γ x u).atm i).pos k - ((wit a γ x u).atm j).pos k| ≤ 1 := by
  have x1 := R.x1
  have x2 := R.x2
  change i < 2 at hi
  change j < 2 at hj
  have : i = 0 ∨ i = 1 := by omega
  have : j = 0 ∨ j = 1 := by omega
  rcases ‹i = 0 ∨ i = 1› with rfl | rfl <;> rcases ‹j = 0 ∨ j = 1› with rfl | rfl <;> fin_cases k <;>
    simp [wit, PPhase.atm] <;> rw [abs_le] <;> constructor <;> linarith

end Pdffit.Deriv
