import Verif.Lemmas.FMetric
import Verif.Props.C22

/-!
# C88  Bond angles in double arithmetic

C22 is about exact numbers. Here every operation is rounded as in IEEE 754 double arithmetic (without overflow and underflow).
-/

namespace Pdffit.C88
open FAngle Binary Special

/-- The metric tensor of a structure. -/
def gten (L : Lib) (p : Phs) : Fin 3 → Fin 3 → ℚ := FAngle.tensor L p.a0 p.win

/-- Three atoms of a structure. -/
structure Atoms (p : Phs) (i j k : ℤ) (ai aj ak : Atm) : Prop where
  cells : ∀ n, p.icc n ≠ 0
  pos : 1 ≤ i ∧ 1 ≤ j ∧ 1 ≤ k
  ne : i ≠ j ∧ i ≠ k ∧ j ≠ k
  hi : p.atom[(i - 1).toNat]? = some ai
  hj : p.atom[(j - 1).toNat]? = some aj
  hk : p.atom[(k - 1).toNat]? = some ak

/-- The bond vectors from `aj`. -/
def vec (L : Lib) (p : Phs) (aj ai : Atm) : Fin 3 → ℚ := makeNearest (gten L p) p (diff aj ai)

theorem eq_angle {L : Lib} {p : Phs} {i j k : ℤ} {ai aj ak : Atm} (A : Atoms p i j k ai aj ak) :
    bondAngle L p i j k = .ok (angle L (gten L p) (FAngle.dtensor L p.a0 p.win p.da0 p.dwin) (vec L p aj ai) (vec L p aj ak) (ddiff aj ai) (ddiff aj ak)) := by
  obtain ⟨h0, ⟨p1, p2, p3⟩, ⟨n1, n2, n3⟩, e1, e2, e3⟩ := A
  have l1 := (List.getElem?_eq_some_iff.1 e1).1
  have l2 := (List.getElem?_eq_some_iff.1 e2).1
  have l3 := (List.getElem?_eq_some_iff.1 e3).1
  unfold bondAngle
  rw [if_neg (by omega), if_neg (by omega)]
  have ex : ¬∃ n, p.icc n = 0 := by rintro ⟨n, h⟩; exact h0 n h
  simp only [Res.at?, e1, e2, e3]
  show (if ∃ n, p.icc n = 0 then _ else _) = _
  rw [if_neg ex]
  rfl

/-- Any three different atoms give a result, others ValueError. -/
theorem C88_valid (L : Lib) (p : Phs) (i j k : ℤ) : (bondAngle L p i j k = .err .value ↔
    ¬((1 ≤ i ∧ i ≤ p.atom.length) ∧ (1 ≤ j ∧ j ≤ p.atom.length) ∧ (1 ≤ k ∧ k ≤ p.atom.length) ∧ i ≠ j ∧ i ≠ k ∧ j ≠ k)) ∧
    bondAngle L p i j k ≠ .ub := by
  by_cases h : (1 ≤ i ∧ i ≤ p.atom.length) ∧ (1 ≤ j ∧ j ≤ p.atom.length) ∧ (1 ≤ k ∧ k ≤ p.atom.length) ∧ i ≠ j ∧ i ≠ k ∧ j ≠ k
  · have e : ∃ r, bondAngle L p i j k = .ok r := by
      unfold bondAngle
      rw [if_neg (by omega), if_neg (by omega), Res.at?_of_lt (i := (i - 1).toNat) (by omega), Res.at?_of_lt (i := (j - 1).toNat) (by omega),
        Res.at?_of_lt (i := (k - 1).toNat) (by omega)]
      simp only [Res.bind_ok]
      split_ifs
      · exact ⟨_, rfl⟩
      · exact ⟨_, rfl⟩
    obtain ⟨r, e⟩ := e
    rw [e]
    simp [h]
  · have e : bondAngle L p i j k = .err .value := by
      unfold bondAngle
      by_cases h1 : i < 1 ∨ i > p.atom.length ∨ j < 1 ∨ j > p.atom.length ∨ k < 1 ∨ k > p.atom.length
      · rw [if_pos h1]
      · rw [if_neg h1, if_pos (by omega)]
    rw [e]
    simp only [h, not_false_eq_true]
    simp

/-- The angle is a number unless the atoms are nearly in a line; a number is in [0, 180], and its cosine has a small error. -/
theorem C88_angle_partial {L : Lib} {p : Phs} {i j k : ℤ} {ai aj ak : Atm} (A : Atoms p i j k ai aj ak) {c : ℚ} (M : Metric (gten L p) c)
    (hi : vec L p aj ai ≠ 0) (hk : vec L p aj ak ≠ 0) : ∃ r d, bondAngle L p i j k = .ok (r, d) ∧
      (∀ t, r = some t → 0 ≤ t ∧ t ≤ 180 ∧ |Real.cos (Real.pi / 180 * t) - cosine (gten L p) (vec L p aj ai) (vec L p aj ak)| ≤ c / 2 ^ 47) ∧
      (r = none → 1 - c / 2 ^ 47 < |cosine (gten L p) (vec L p aj ai) (vec L p aj ak)|) ∧
      (|cosine (gten L p) (vec L p aj ai) (vec L p aj ak)| ≤ 1 - c / 2 ^ 46 → ∃ e, 0 ≤ e ∧ d = .num e) := by
  set q := cosine (gten L p) (vec L p aj ai) (vec L p aj ak) with hq
  obtain ⟨a, ha, he⟩ := arg_near M hi hk
  rw [← hq] at he
  have hc0 : (3 : ℝ) ≤ c := by exact_mod_cast M.three
  have hc1 : (c : ℝ) ≤ 2 ^ 46 := by exact_mod_cast M.le
  have hq1 : |q| ≤ 1 := cosine_le M _ _
  rw [eq_angle A]
  unfold angle
  rw [ha]
  refine ⟨_, _, rfl, ?_, ?_, ?_⟩
  · intro t ht
    unfold ang at ht
    split_ifs at ht with h1
    have h1' : |(a : ℝ)| ≤ 1 := by
      have : ((|a| : ℚ) : ℝ) ≤ ((1 : ℚ) : ℝ) := Rat.cast_le.2 h1
      push_cast at this
      exact this
    rw [abs_le] at h1'
    obtain rfl := Option.some.inj ht
    refine ⟨(C22.acosd_mem _).1, (C22.acosd_mem _).2, ?_⟩
    have : Real.pi / 180 * Parser.bacosd (a : ℝ) = Real.arccos a := by
      unfold Parser.bacosd Parser.rad
      field_simp
    rw [this, Real.cos_arccos h1'.1 h1'.2]
    exact he
  · intro hn
    unfold ang at hn
    split_ifs at hn with h1
    have h1' : 1 < |(a : ℝ)| := by
      have : ((1 : ℚ) : ℝ) < ((|a| : ℚ) : ℝ) := Rat.cast_lt.2 (not_le.1 h1)
      push_cast at this
      exact this
    have := abs_sub_abs_le_abs_sub (a : ℝ) q
    linarith
  · intro hs
    have h1 : |(a : ℝ)| ≤ 1 - 1 / 2 ^ 46 := by
      have := abs_sub_abs_le_abs_sub (a : ℝ) q
      norm_num at he hs ⊢
      linarith
    have h1' : |a| ≤ 1 - 1 / 2 ^ 46 := by
      have : ((|a| : ℚ) : ℝ) ≤ ((1 - 1 / 2 ^ 46 : ℚ) : ℝ) := by push_cast; exact h1
      exact Rat.cast_le.1 this
    have h2 : a * a ≤ 1 - 1 / 2 ^ 46 := by
      rw [← abs_mul_abs_self]
      have h3 : |a| * |a| ≤ |a| * 1 := mul_le_mul_of_nonneg_left (h1'.trans (by norm_num)) (abs_nonneg _)
      linarith
    have h3 : rnd53 (a * a) < 1 := by
      have h4 := rnd53_err (a * a)
      rw [abs_of_nonneg (mul_self_nonneg a), abs_le] at h4
      norm_num at h2 h4 ⊢
      linarith [h4.2]
    have h5 := rnd53_pos (sub_pos.2 h3)
    have h6 : a ≠ 1 := by
      rintro rfl
      norm_num at h1'
    unfold dang
    rw [if_pos h6]
    dsimp only
    rw [if_neg (not_lt.2 h5.le), if_neg h5.ne']
    exact ⟨_, abs_nonneg _, rfl⟩

theorem last_of (g : Fin 3 → Fin 3 → ℚ) (o : Fin 3 → ℚ) (l : List (Fin 3 → ℚ)) (s : Fin 3 → ℚ) :
    l.foldl (fun s t => if skal g t t < skal g o o then t else s) s = ((l.filter fun t => skal g t t < skal g o o).getLast?).getD s := by
  induction l generalizing s with
  | nil => rfl
  | cons t l ih =>
    rw [List.foldl_cons, ih, List.filter_cons]
    by_cases h : skal g t t < skal g o o
    · simp only [h, if_true, decide_true, List.getLast?_cons, Option.getD_some]
    · simp only [h, if_false, decide_false]
      rfl

/-- The bond vector in a cell that is not orthogonal: of the images of the difference of the positions with coordinates in `(-n, n)`, the last one that is shorter
than the first, which has no positive coordinate. -/
theorem C88_nearest (g : Fin 3 → Fin 3 → ℚ) (p : Phs) (x o : Fin 3 → ℚ) (hw : ∃ i, fmod (x i) (p.icc i) ≠ 0) (hg : ∃ i, p.win i ≠ 90)
    (ho : ∀ i, o i = if 0 < fmod (x i) (p.icc i) then rnd53 (fmod (x i) (p.icc i) - p.icc i) else fmod (x i) (p.icc i)) :
    makeNearest g p x = (((tests o p.icc).filter fun t => skal g t t < skal g o o).getLast?).getD o := by
  have : o = fun i => if 0 < fmod (x i) (p.icc i) then rnd53 (fmod (x i) (p.icc i) - p.icc i) else fmod (x i) (p.icc i) := funext ho
  subst this
  unfold makeNearest
  dsimp only
  rw [if_neg (by push Not; exact ⟨hw, hg⟩), last_of]

/-- An angle of 180 degrees has no deviation: it is NaN or infinite. -/
theorem C88_deviation {L : Lib} {p : Phs} {i j k : ℤ} {d : Dbl} (h : bondAngle L p i j k = .ok (some 180, d)) : d = .nan ∨ d = .pinf := by
  have key : ∀ g dg x y dx dy, angle L g dg x y dx dy = (some 180, d) → d = .nan ∨ d = .pinf := by
    intro g dg x y dx dy h
    unfold angle at h
    cases ha : arg g x y with
    | none => rw [ha] at h; simp at h
    | some a =>
      rw [ha] at h
      obtain ⟨h1, h2⟩ := Prod.mk.inj h
      unfold ang at h1
      split_ifs at h1 with h3
      have h4 : Parser.bacosd (a : ℝ) = 180 := Option.some.inj h1
      have h5 : Real.arccos (a : ℝ) = Real.pi := by
        unfold Parser.bacosd Parser.rad at h4
        have := Real.pi_pos
        field_simp at h4
        linarith
      rw [Real.arccos_eq_pi] at h5
      have h6 : a ≤ -1 := by exact_mod_cast h5
      have h7 : a = -1 := le_antisymm h6 (abs_le.1 h3).1
      subst h7
      rw [← h2]
      unfold dang
      rw [if_pos (by norm_num)]
      have e : rnd53 (1 - rnd53 (-1 * -1)) = 0 := by decide +kernel
      rw [e]
      simp only [lt_irrefl, if_false, if_true]
      split_ifs
      · exact Or.inl rfl
      · exact Or.inr rfl
  unfold bondAngle at h
  split_ifs at h
  · obtain ⟨ai, -, h⟩ := Res.bind_eq_ok.1 h
    obtain ⟨aj, -, h⟩ := Res.bind_eq_ok.1 h
    obtain ⟨ak, -, h⟩ := Res.bind_eq_ok.1 h
    simp at h
  · obtain ⟨ai, -, h⟩ := Res.bind_eq_ok.1 h
    obtain ⟨aj, -, h⟩ := Res.bind_eq_ok.1 h
    obtain ⟨ak, -, h⟩ := Res.bind_eq_ok.1 h
    exact key _ _ _ _ _ _ (Res.ok.inj h)

/-- Where the scalar product is a sum of three terms, the order of the atoms does not matter. -/
theorem C88_symmetric_partial {L : Lib} {p : Phs} (ho : ∀ i j, i ≠ j → gten L p i j = 0) {i j k : ℤ} {ai aj ak : Atm} (A : Atoms p i j k ai aj ak) :
    ∃ r d e, bondAngle L p i j k = .ok (r, d) ∧ bondAngle L p k j i = .ok (r, e) := by
  have B : Atoms p k j i ak aj ai := ⟨A.cells, ⟨A.pos.2.2, A.pos.2.1, A.pos.1⟩, ⟨A.ne.2.2.symm, A.ne.2.1.symm, A.ne.1.symm⟩, A.hk, A.hj, A.hi⟩
  rw [eq_angle A, eq_angle B]
  have hs : ∀ x y, skal (gten L p) x y = skal (gten L p) y x := by
    intro x y
    unfold skal
    congr 1
    funext s q
    by_cases h : q.1 = q.2
    · rw [h]
      unfold prod
      rw [mul_comm (x q.2)]
    · rw [ho _ _ h]
      unfold prod
      rw [mul_zero, mul_zero]
  have ha : arg (gten L p) (vec L p aj ai) (vec L p aj ak) = arg (gten L p) (vec L p aj ak) (vec L p aj ai) := by
    unfold arg
    rw [hs (vec L p aj ai) (vec L p aj ak), mul_comm (sqrt53 (skal (gten L p) (vec L p aj ai) (vec L p aj ai)))]
  unfold angle
  rw [ha]
  cases arg (gten L p) (vec L p aj ak) (vec L p aj ai) with
  | none => exact ⟨_, _, _, rfl, rfl⟩
  | some a => exact ⟨_, _, _, rfl, rfl⟩

/-- An atom without deviations. -/
def at_ (x y z : ℚ) : Atm := ⟨![x, y, z], 0⟩

/-- Three atoms on the diagonal of a cube with edges `a`. -/
def cube (a : ℚ) : Phs := ⟨fun _ => a, fun _ => 90, 0, 0, fun _ => 1, [at_ 0 0 0, at_ (1 / 4) (1 / 4) (1 / 4), at_ (1 / 2) (1 / 2) (1 / 2)]⟩

/-- The elements of the tensor off the diagonal are set to zero. -/
theorem small {c x : ℚ} (hc : |c| ≤ 1 / 2 ^ 31) (hx : |x| ≤ 16) : |rnd53 (x * c)| < FAngle.eps := by
  have h1 : |x * c| ≤ 16 * (1 / 2 ^ 31) := by rw [abs_mul]; exact mul_le_mul hx hc (abs_nonneg _) (by norm_num)
  have h2 := rnd53_err (x * c)
  have h3 := abs_sub_abs_le_abs_sub (rnd53 (x * c)) (x * c)
  unfold FAngle.eps
  have h4 : |rnd53 (x * c)| ≤ 16 * (1 / 2 ^ 31) + 16 * (1 / 2 ^ 31) / 2 ^ 53 := by linarith
  refine lt_of_le_of_lt h4 ?_
  norm_num

theorem cube_gten {L : Lib} (hL : |L.cosd 90| ≤ 1 / 2 ^ 31) {a : ℚ} (ha : a = 3 ∨ a = 4) : gten L (cube a) = fun i j => if i = j then a * a else 0 := by
  have hr : rnd53 (a * a) = a * a ∧ |a * a| ≤ 16 := by
    rcases ha with rfl | rfl
    · exact ⟨by decide +kernel, by norm_num⟩
    · exact ⟨by decide +kernel, by norm_num⟩
  funext i j
  unfold gten FAngle.tensor cube
  dsimp only
  by_cases h : i = j
  · rw [if_neg (by simpa using h), if_pos h, hr.1]
  · rw [if_pos h, if_neg h, hr.1, if_pos (small hL hr.2)]

theorem zero_dgten (L : Lib) (vec win : Fin 3 → ℚ) : FAngle.dtensor L vec win 0 0 = 0 := by
  have h0 : rnd53 0 = 0 := by decide +kernel
  funext i j
  unfold FAngle.dtensor
  simp [h0, FAngle.eps]

theorem cube_atoms (a : ℚ) : Atoms (cube a) 1 2 3 (at_ 0 0 0) (at_ (1 / 4) (1 / 4) (1 / 4)) (at_ (1 / 2) (1 / 2) (1 / 2)) :=
  ⟨fun _ => by simp [cube], by decide, by decide, rfl, rfl, rfl⟩

/-- Violation: the angle of three atoms in a line is not a number. -/
theorem C88_straight {L : Lib} (hL : |L.cosd 90| ≤ 1 / 2 ^ 31) : bondAngle L (cube 4) 1 2 3 = .ok (none, .nan) := by
  rw [eq_angle (cube_atoms 4)]
  unfold vec
  rw [cube_gten hL (Or.inr rfl)]
  unfold angle
  have e : ∀ g : Fin 3 → Fin 3 → ℚ, g = (fun i j => if i = j then 4 * 4 else 0) →
      arg g (makeNearest g (cube 4) (diff (at_ (1 / 4) (1 / 4) (1 / 4)) (at_ 0 0 0)))
      (makeNearest g (cube 4) (diff (at_ (1 / 4) (1 / 4) (1 / 4)) (at_ (1 / 2) (1 / 2) (1 / 2)))) = some (-(2 ^ 52 + 1) / 2 ^ 52) := by
    rintro g rfl
    decide +kernel
  rw [e _ rfl]
  dsimp only
  congr 2
  · unfold ang
    rw [if_neg (by norm_num)]
  · unfold dang
    rw [if_pos (by norm_num)]
    dsimp only
    rw [if_pos (by decide +kernel)]

/-- Violation: in another cube the angle is 180 degrees, with the deviation NaN. -/
theorem C88_straight_deviation {L : Lib} (hL : |L.cosd 90| ≤ 1 / 2 ^ 31) : bondAngle L (cube 3) 1 2 3 = .ok (some 180, .nan) := by
  rw [eq_angle (cube_atoms 3)]
  unfold vec
  rw [cube_gten hL (Or.inl rfl), show FAngle.dtensor L (cube 3).a0 (cube 3).win (cube 3).da0 (cube 3).dwin = 0 from zero_dgten L _ _]
  unfold angle
  have e : ∀ g : Fin 3 → Fin 3 → ℚ, g = (fun i j => if i = j then 3 * 3 else 0) →
      arg g (makeNearest g (cube 3) (diff (at_ (1 / 4) (1 / 4) (1 / 4)) (at_ 0 0 0)))
      (makeNearest g (cube 3) (diff (at_ (1 / 4) (1 / 4) (1 / 4)) (at_ (1 / 2) (1 / 2) (1 / 2)))) = some (-1) := by
    rintro g rfl
    decide +kernel
  have f : ∀ g : Fin 3 → Fin 3 → ℚ, g = (fun i j => if i = j then 3 * 3 else 0) →
      darg g 0 (makeNearest g (cube 3) (diff (at_ (1 / 4) (1 / 4) (1 / 4)) (at_ 0 0 0)))
      (makeNearest g (cube 3) (diff (at_ (1 / 4) (1 / 4) (1 / 4)) (at_ (1 / 2) (1 / 2) (1 / 2))))
      (ddiff (at_ (1 / 4) (1 / 4) (1 / 4)) (at_ 0 0 0)) (ddiff (at_ (1 / 4) (1 / 4) (1 / 4)) (at_ (1 / 2) (1 / 2) (1 / 2))) (-1) = 0 := by
    rintro g rfl
    decide +kernel
  rw [e _ rfl]
  dsimp only
  rw [f _ rfl]
  congr 2
  · unfold ang
    rw [if_pos (by norm_num)]
    congr 1
    unfold Parser.bacosd Parser.rad
    push_cast
    rw [Real.arccos_neg_one]
    have := Real.pi_pos
    field_simp
  · unfold dang
    rw [if_pos (by norm_num)]
    have e : rnd53 (1 - rnd53 (-1 * -1)) = 0 := by decide +kernel
    rw [e]
    simp

/-- A hexagonal cell. -/
def hexa : Phs := ⟨![3, 3, 5], ![90, 90, 120], 0, 0, fun _ => 1, [at_ (1 / 4) (1 / 4) 0, at_ 0 0 0, at_ (5 / 8) (1 / 4) 0]⟩

/-- The metric tensor of the hexagonal cell. -/
def ghex : Fin 3 → Fin 3 → ℚ := ![![9, -2533274790395903 / 562949953421312, 0], ![-2533274790395903 / 562949953421312, 9, 0], ![0, 0, 25]]

theorem hexa_gten {L : Lib} (h90 : |L.cosd 90| ≤ 1 / 2 ^ 31) (h120 : L.cosd 120 = -2251799813685247 / 4503599627370496) : gten L hexa = ghex := by
  have s15 := small (x := 15) h90 (by norm_num)
  have h9 : rnd53 9 = 9 := by decide +kernel
  have h15 : rnd53 15 = 15 := by decide +kernel
  have h25 : rnd53 25 = 25 := by decide +kernel
  have hc : rnd53 (9 * (-2251799813685247 / 4503599627370496)) = -2533274790395903 / 562949953421312 := by decide +kernel
  have hb : ¬|(-2533274790395903 / 562949953421312 : ℚ)| < FAngle.eps := by
    unfold FAngle.eps
    rw [abs_of_neg (by norm_num)]
    norm_num
  have t01 : Geom.third 0 1 = 2 := by decide
  have t02 : Geom.third 0 2 = 1 := by decide
  have t12 : Geom.third 1 2 = 0 := by decide
  have t10 : Geom.third 1 0 = 2 := by decide
  have t20 : Geom.third 2 0 = 1 := by decide
  have t21 : Geom.third 2 1 = 0 := by decide
  have m9 : (3 : ℚ) * 3 = 9 := by norm_num
  have m15 : (3 : ℚ) * 5 = 15 := by norm_num
  have m15' : (5 : ℚ) * 3 = 15 := by norm_num
  have m25 : (5 : ℚ) * 5 = 25 := by norm_num
  have e : ∀ i j : Fin 3, gten L hexa i j = ghex i j := by
    unfold gten FAngle.tensor hexa ghex
    intro i j
    fin_cases i <;> fin_cases j <;>
      simp [t01, t02, t12, t10, t20, t21, m9, m15, m15', m25, h9, h15, h25, h120, hc, hb, s15]
  funext i j
  exact e i j

/-- The image shifted by one cell is shorter. -/
example : makeNearest ghex hexa (diff (at_ 0 0 0) (at_ (5 / 8) (1 / 4) 0)) = ![3 / 8, -1 / 4, 0] := by decide +kernel

theorem hexa_arg : arg ghex (makeNearest ghex hexa (diff (at_ 0 0 0) (at_ (1 / 4) (1 / 4) 0))) (makeNearest ghex hexa (diff (at_ 0 0 0) (at_ (5 / 8) (1 / 4) 0))) =
    some (-8265572908579139 / 72057594037927936) := by decide +kernel

theorem hexa_arg' : arg ghex (makeNearest ghex hexa (diff (at_ 0 0 0) (at_ (5 / 8) (1 / 4) 0))) (makeNearest ghex hexa (diff (at_ 0 0 0) (at_ (1 / 4) (1 / 4) 0))) =
    some (-4132786454289563 / 36028797018963968) := by decide +kernel

theorem hexa_atoms : Atoms hexa 1 2 3 (at_ (1 / 4) (1 / 4) 0) (at_ 0 0 0) (at_ (5 / 8) (1 / 4) 0) :=
  ⟨fun _ => by simp [hexa], by decide, by decide, rfl, rfl, rfl⟩

/-- Violation: the last digit of the angle depends on the order of the atoms. -/
theorem C88_asymmetric {L : Lib} (h90 : |L.cosd 90| ≤ 1 / 2 ^ 31) (h120 : L.cosd 120 = -2251799813685247 / 4503599627370496) :
    ∃ r s d e, bondAngle L hexa 1 2 3 = .ok (some r, d) ∧ bondAngle L hexa 3 2 1 = .ok (some s, e) ∧ r ≠ s := by
  have B : Atoms hexa 3 2 1 (at_ (5 / 8) (1 / 4) 0) (at_ 0 0 0) (at_ (1 / 4) (1 / 4) 0) :=
    ⟨fun _ => by simp [hexa], by decide, by decide, rfl, rfl, rfl⟩
  rw [eq_angle hexa_atoms, eq_angle B]
  unfold vec angle
  rw [hexa_gten h90 h120, hexa_arg, hexa_arg']
  dsimp only
  unfold ang
  rw [if_pos (by norm_num [abs_of_neg]), if_pos (by norm_num [abs_of_neg])]
  refine ⟨_, _, _, _, rfl, rfl, ?_⟩
  intro h
  unfold Parser.bacosd at h
  have hr : Parser.rad ≠ 0 := by unfold Parser.rad; have := Real.pi_pos; positivity
  have h2 := (div_left_inj' hr).1 h
  have h3 := Real.arccos_injOn (by constructor <;> norm_num) (by constructor <;> norm_num) h2
  have h4 : (-8265572908579139 / 72057594037927936 : ℚ) = -4132786454289563 / 36028797018963968 := by exact_mod_cast h3
  norm_num at h4

/-- Beside the theorems: in the hexagonal cell the angle is a number. -/
example {L : Lib} (h90 : |L.cosd 90| ≤ 1 / 2 ^ 31) (h120 : L.cosd 120 = -2251799813685247 / 4503599627370496) : Metric (gten L hexa) 8 := by
  rw [hexa_gten h90 h120]
  refine ⟨by decide +kernel, by decide +kernel, by decide +kernel, by norm_num, by norm_num, ?_⟩
  intro x
  unfold dot ghex
  simp only [Fin.sum_univ_three]
  simp
  nlinarith [sq_nonneg (x 0 - x 1), sq_nonneg (x 0 + x 1), sq_nonneg (x 2), sq_nonneg (x 0), sq_nonneg (x 1)]

example {L : Lib} (hL : |L.cosd 90| ≤ 1 / 2 ^ 31) : Metric (gten L (cube 4)) 3 := by
  rw [cube_gten hL (Or.inr rfl)]
  exact orthogonal (fun i => by simp) (fun i j h => by simp [h])

end Pdffit.C88
