import Verif.Model.CInt
import Verif.Lemmas.Sphere
import Verif.Lemmas.Determine
import Verif.Lemmas.DerivMat

/-! # Helper lemmas about the range of `int` -/

namespace Pdffit.CInt
open Geom Bonds Det DMat Sphere

theorem inInt_of {n : ℤ} (h1 : -2 ^ 30 - 10 ≤ n) (h2 : n ≤ 2 ^ 30 + 10) : InInt n := by
  unfold InInt
  constructor <;> norm_num at * <;> omega

/-- Conditions under which the sequencer stays inside of `int`. -/
structure Small (k : Cst) : Prop where
  m : |k.rmax * k.lat.ar| ≤ 2 ^ 30
  n : (|k.rmax * k.lat.ar| + 1) * |k.dn0dm| + |k.rmax * k.b2r| ≤ 2 ^ 30
  o : (|k.rmax * k.lat.ar| + 1) * |k.do0dm| + (|k.rmax * k.b2r| + 1) * |k.do0dn| + |k.rmax * k.c1r| + |k.rmin * k.c1r| ≤ 2 ^ 30

theorem c30 : ((2 ^ 30 : ℤ) : ℝ) = 2 ^ 30 := by norm_num

theorem floor_bd {x : ℝ} {B : ℤ} (h : |x| ≤ B) : -B ≤ ⌊x⌋ ∧ ⌊x⌋ ≤ B := by
  rw [abs_le] at h
  refine ⟨Int.le_floor.2 (by push_cast; exact h.1), ?_⟩
  have := Int.floor_le x
  exact_mod_cast this.trans h.2

theorem ceil_bd {x : ℝ} {B : ℤ} (h : |x| ≤ B) : -B ≤ ⌈x⌉ ∧ ⌈x⌉ ≤ B := by
  rw [abs_le] at h
  refine ⟨?_, Int.ceil_le.2 h.2⟩
  have := Int.le_ceil x
  have h2 : ((-B : ℤ) : ℝ) ≤ (⌈x⌉ : ℝ) := by push_cast; exact h.1.trans this
  exact_mod_cast h2

theorem sqrt_mul_le {x r b : ℝ} (h : x ≤ r ^ 2) : |√x * b| ≤ |r * b| := by
  rw [abs_mul, abs_mul]
  refine mul_le_mul_of_nonneg_right ?_ (abs_nonneg b)
  rw [abs_of_nonneg (Real.sqrt_nonneg x)]
  exact Real.sqrt_le_iff.2 ⟨abs_nonneg r, by rw [sq_abs]; exact h⟩

section
variable {k : Cst}

theorem rmax2_le : k.rmax2 ≤ k.rmax ^ 2 := by
  unfold Cst.rmax2
  split <;> nlinarith [sq_nonneg k.rmax]

theorem rmin2_le : k.rmin2 ≤ k.rmin ^ 2 := by
  unfold Cst.rmin2
  split <;> nlinarith [sq_nonneg k.rmin]

theorem rp_le (m : ℤ) : rp k m ≤ k.rmax ^ 2 := by
  have := rmax2_le (k := k)
  unfold rp
  nlinarith [sq_nonneg ((m : ℝ) / k.lat.ar)]

theorem rl_le (m n : ℤ) : rl k m n ≤ k.rmax ^ 2 := by
  have := rp_le (k := k) m
  unfold rl
  nlinarith [sq_nonneg (((n : ℝ) - n0 k m) / k.b2r)]

theorem re_le (m n : ℤ) : re k m n ≤ k.rmin ^ 2 := by
  have := rmin2_le (k := k)
  unfold re rl rp
  nlinarith [sq_nonneg (((n : ℝ) - n0 k m) / k.b2r), sq_nonneg ((m : ℝ) / k.lat.ar)]

theorem nHalf_le (m : ℤ) : |nHalf k m| ≤ |k.rmax * k.b2r| := by
  unfold nHalf
  split
  · exact sqrt_mul_le (rp_le m)
  · rw [abs_zero]; exact abs_nonneg _

theorem oHalf_le (m n : ℤ) : |oHalf k m n| ≤ |k.rmax * k.c1r| := by
  unfold oHalf
  split
  · exact sqrt_mul_le (rl_le m n)
  · rw [abs_zero]; exact abs_nonneg _

theorem exc_le (m n : ℤ) : |exc k m n| ≤ |k.rmin * k.c1r| := by
  unfold exc
  split
  · exact sqrt_mul_le (re_le m n)
  · rw [abs_zero]; exact abs_nonneg _

theorem hiM_le (S : Small k) : -2 ^ 30 ≤ k.hiM ∧ k.hiM ≤ 2 ^ 30 := by
  unfold Cst.hiM
  exact ceil_bd (B := 2 ^ 30) (by rw [c30]; exact S.m)

theorem m_le {m : ℤ} (h1 : -k.hiM ≤ m) (h2 : m ≤ k.hiM) : |(m : ℝ)| ≤ |k.rmax * k.lat.ar| + 1 := by
  have a : (k.hiM : ℝ) ≤ |k.rmax * k.lat.ar| + 1 := by
    have := Int.ceil_lt_add_one (k.rmax * k.lat.ar)
    have b := le_abs_self (k.rmax * k.lat.ar)
    unfold Cst.hiM
    linarith
  have h1' : -(k.hiM : ℝ) ≤ m := by exact_mod_cast h1
  have h2' : (m : ℝ) ≤ k.hiM := by exact_mod_cast h2
  rw [abs_le]
  constructor <;> linarith

theorem n_le (S : Small k) {m : ℤ} (h1 : -k.hiM ≤ m) (h2 : m ≤ k.hiM) : |n0 k m| + |nHalf k m| ≤ 2 ^ 30 := by
  have := nHalf_le (k := k) m
  have h : |n0 k m| ≤ (|k.rmax * k.lat.ar| + 1) * |k.dn0dm| := by
    unfold n0
    rw [abs_mul]
    exact mul_le_mul_of_nonneg_right (m_le h1 h2) (abs_nonneg _)
  linarith [S.n]

theorem o_le (S : Small k) {m n : ℤ} (h1 : -k.hiM ≤ m) (h2 : m ≤ k.hiM) (h3 : n0 k m - |nHalf k m| - 1 ≤ n)
    (h4 : (n : ℝ) ≤ n0 k m + |nHalf k m| + 1) : |o0 k m n| + |oHalf k m n| + |exc k m n| ≤ 2 ^ 30 := by
  have a1 := oHalf_le (k := k) m n
  have a2 := exc_le (k := k) m n
  have a3 := nHalf_le (k := k) m
  have b1 : |o0p k m| ≤ (|k.rmax * k.lat.ar| + 1) * |k.do0dm| := by
    unfold o0p
    rw [abs_mul]
    exact mul_le_mul_of_nonneg_right (m_le h1 h2) (abs_nonneg _)
  have b2 : |((n : ℝ) - n0 k m) * k.do0dn| ≤ (|k.rmax * k.b2r| + 1) * |k.do0dn| := by
    rw [abs_mul]
    refine mul_le_mul_of_nonneg_right ?_ (abs_nonneg _)
    rw [abs_le]
    constructor <;> linarith
  have b3 : |o0 k m n| ≤ |o0p k m| + |((n : ℝ) - n0 k m) * k.do0dn| := abs_add_le _ _
  linarith [S.o]

/-- States between the calls. -/
structure J (k : Cst) (s : Sphere.St) : Prop where
  m1 : -k.hiM ≤ s.m
  m2 : s.m ≤ 2 ^ 30 + 1
  n1 : -2 ^ 30 ≤ s.n
  n2 : s.n ≤ 2 ^ 30
  o1 : -2 ^ 30 - 2 ≤ s.o
  o2 : s.o ≤ 2 ^ 30 + 2
  hn : -2 ^ 30 ≤ s.hiN ∧ s.hiN ≤ 2 ^ 30
  ho : -2 ^ 30 ≤ s.hiO ∧ s.hiO ≤ 2 ^ 30
  hu : -2 ^ 30 ≤ s.outO ∧ s.outO ≤ 2 ^ 30
  jump : |s.o0line| + |s.excl| ≤ 2 ^ 30
  inv : s.n + 1 < s.hiN → s.m < k.hiM ∧ (s.n0plane = n0 k s.m ∧ s.o0plane = o0p k s.m ∧ s.rplane2 = rp k s.m) ∧
    n0 k s.m - |nHalf k s.m| - 1 ≤ s.n ∧ (s.hiN : ℝ) ≤ n0 k s.m + |nHalf k s.m| + 1

theorem J.stOk (S : Small k) {s : Sphere.St} (h : J k s) : StOk s := by
  have := hiM_le S
  have a := h.m1; have b := h.m2; have c := h.n1; have d := h.n2; have e := h.o1; have f := h.o2
  have g := h.hn; have i := h.ho; have j := h.hu
  norm_num at *
  refine ⟨inInt_of ?_ ?_, inInt_of ?_ ?_, inInt_of ?_ ?_, inInt_of ?_ ?_, inInt_of ?_ ?_, inInt_of ?_ ?_⟩ <;> norm_num <;> omega

theorem setLine_vals {s : Sphere.St} (n : ℤ) (h : s.n0plane = n0 k s.m ∧ s.o0plane = o0p k s.m ∧ s.rplane2 = rp k s.m) :
    (setLine k s n).o0line = o0 k s.m n ∧ (setLine k s n).excl = exc k s.m n ∧
    (setLine k s n).o = ⌊o0 k s.m n - oHalf k s.m n⌋ ∧ (setLine k s n).outO = ⌈o0 k s.m n + oHalf k s.m n⌉ ∧
    ((setLine k s n).hiO = ⌈o0 k s.m n - exc k s.m n⌉ ∨ (setLine k s n).hiO = ⌈o0 k s.m n + oHalf k s.m n⌉) := by
  obtain ⟨h1, h2, h3⟩ := h
  refine ⟨?_, ?_, ?_, ?_, ?_⟩
  · simp only [setLine, h1, h2, h3]; rfl
  · simp only [setLine, h1, h2, h3]; rfl
  · simp only [setLine, h1, h2, h3]; rfl
  · simp only [setLine, h1, h2, h3]; rfl
  · by_cases h : Hole k s.m n
    · left
      simp only [setLine, h1, h2, h3]
      exact if_pos h
    · right
      simp only [setLine, h1, h2, h3]
      exact if_neg h

theorem J_setLine (S : Small k) {s : Sphere.St} (h : J k s) (hn : s.n + 1 < s.hiN) :
    J k (setLine k s (s.n + 1)) ∧ -2 ^ 30 ≤ (setLine k s (s.n + 1)).o ∧ (setLine k s (s.n + 1)).o ≤ 2 ^ 30 ∧
      InInt (holeO (setLine k s (s.n + 1))) := by
  obtain ⟨hm, hp, h1, h2⟩ := h.inv hn
  obtain ⟨e1, e2, e3, e4, e5⟩ := setLine_vals (k := k) (s.n + 1) hp
  have hm' : s.m ≤ k.hiM := hm.le
  have c1 : n0 k s.m - |nHalf k s.m| - 1 ≤ ((s.n + 1 : ℤ) : ℝ) := by push_cast; linarith
  have c2 : ((s.n + 1 : ℤ) : ℝ) ≤ n0 k s.m + |nHalf k s.m| + 1 := by
    have : ((s.n + 1 : ℤ) : ℝ) ≤ (s.hiN : ℝ) := by exact_mod_cast hn.le
    linarith
  have b := o_le S h.m1 hm' c1 c2
  have q1 : |o0 k s.m (s.n + 1) - oHalf k s.m (s.n + 1)| ≤ 2 ^ 30 := by
    have := abs_sub (o0 k s.m (s.n + 1)) (oHalf k s.m (s.n + 1))
    linarith [abs_nonneg (exc k s.m (s.n + 1))]
  have q2 : |o0 k s.m (s.n + 1) + oHalf k s.m (s.n + 1)| ≤ 2 ^ 30 := by
    have := abs_add_le (o0 k s.m (s.n + 1)) (oHalf k s.m (s.n + 1))
    linarith [abs_nonneg (exc k s.m (s.n + 1))]
  have q3 : |o0 k s.m (s.n + 1) - exc k s.m (s.n + 1)| ≤ 2 ^ 30 := by
    have := abs_sub (o0 k s.m (s.n + 1)) (exc k s.m (s.n + 1))
    linarith [abs_nonneg (oHalf k s.m (s.n + 1))]
  have f1 := floor_bd (B := 2 ^ 30) (by rw [c30]; exact q1)
  have f2 := ceil_bd (B := 2 ^ 30) (by rw [c30]; exact q2)
  have f3 := ceil_bd (B := 2 ^ 30) (by rw [c30]; exact q3)
  have hhn := h.hn
  have hnn := h.n1
  refine ⟨⟨h.m1, h.m2, ?_, ?_, ?_, ?_, h.hn, ?_, ?_, ?_, fun _ => ⟨hm, hp, c1, h2⟩⟩, ?_, ?_, ?_⟩
  · show -2 ^ 30 ≤ s.n + 1
    omega
  · show s.n + 1 ≤ 2 ^ 30
    omega
  · rw [e3]; omega
  · rw [e3]; omega
  · rcases e5 with e5 | e5 <;> rw [e5]
    · exact f3
    · exact f2
  · rw [e4]; exact f2
  · rw [e1, e2]
    linarith [abs_nonneg (oHalf k s.m (s.n + 1))]
  · rw [e3]; exact f1.1
  · rw [e3]; exact f1.2
  · unfold holeO
    rw [e1, e2]
    split
    · exact inInt_of (by omega) (by omega)
    · exact inInt_of (by norm_num) (by norm_num)

theorem J_nextM (S : Small k) {s : Sphere.St} (h : J k s) (hm : s.m + 1 < k.hiM) :
    J k (nextM k { s with n := s.n + 1 }) := by
  have hb := hiM_le S
  have b := n_le S (m := s.m + 1) (by have := h.m1; omega) hm.le
  have q1 : |n0 k (s.m + 1) - nHalf k (s.m + 1)| ≤ 2 ^ 30 := (abs_sub _ _).trans b
  have q2 : |n0 k (s.m + 1) + nHalf k (s.m + 1)| ≤ 2 ^ 30 := (abs_add_le _ _).trans b
  have f1 := floor_bd (B := 2 ^ 30) (by rw [c30]; exact q1)
  have f2 := ceil_bd (B := 2 ^ 30) (by rw [c30]; exact q2)
  have e : nextM k { s with n := s.n + 1 } = { s with
      m := s.m + 1
      n0plane := n0 k (s.m + 1)
      o0plane := o0p k (s.m + 1)
      rplane2 := rp k (s.m + 1)
      n := ⌊n0 k (s.m + 1) - nHalf k (s.m + 1)⌋
      hiN := ⌈n0 k (s.m + 1) + nHalf k (s.m + 1)⌉ } := by
    simp only [nextM]
    rw [if_pos hm]
    rfl
  rw [e]
  have := h.m1
  have := h.m2
  refine ⟨by dsimp only; omega, by dsimp only; omega, f1.1, f1.2, h.o1, h.o2, f2, h.ho, h.hu, h.jump, fun _ => ⟨hm, ⟨rfl, rfl, rfl⟩, ?_, ?_⟩⟩
  · dsimp only
    have := Int.lt_floor_add_one (n0 k (s.m + 1) - nHalf k (s.m + 1))
    have := le_abs_self (nHalf k (s.m + 1))
    linarith
  · dsimp only
    have := Int.ceil_lt_add_one (n0 k (s.m + 1) + nHalf k (s.m + 1))
    have := le_abs_self (nHalf k (s.m + 1))
    linarith

theorem nextM_end {s : Sphere.St} (hm : ¬s.m + 1 < k.hiM) :
    nextM k { s with n := s.n + 1 } = { s with n := s.n + 1, m := s.m + 1 } := by
  simp only [nextM]
  rw [if_neg hm]

theorem nextNC_eq (S : Small k) (s : Sphere.St) (h : J k s) :
    nextNC k s = .ok (nextN k s) ∧ ((nextN k s).m < k.hiM → J k (nextN k s) ∧ -2 ^ 30 ≤ (nextN k s).o ∧ (nextN k s).o ≤ 2 ^ 30) := by
  induction s using nextN.induct k with
  | case1 s hn =>
    obtain ⟨a, b, c, d⟩ := J_setLine S h hn
    have i : InInt (s.n + 1) := inInt_of (by have := h.n1; omega) (by have := h.n2; omega)
    rw [nextNC, if_pos i, if_pos hn, setLineC, if_pos ⟨a.stOk S, d⟩, nextN, if_pos hn]
    exact ⟨rfl, fun _ => ⟨a, b, c⟩⟩
  | case2 s hn hm ih =>
    have hm' : s.m + 1 < k.hiM := by have := nextM_m k { s with n := s.n + 1 }; dsimp only at this; omega
    have a := J_nextM S h hm'
    have i : InInt (s.n + 1) := inInt_of (by have := h.n1; omega) (by have := h.n2; omega)
    rw [nextNC, if_pos i, if_neg hn, if_pos (a.stOk S), if_pos hm, nextN, if_neg hn, if_pos hm]
    exact ih a
  | case3 s hn hm =>
    have hm' : ¬s.m + 1 < k.hiM := by have := nextM_m k { s with n := s.n + 1 }; dsimp only at this; omega
    have i : InInt (s.n + 1) := inInt_of (by have := h.n1; omega) (by have := h.n2; omega)
    have a : StOk (nextM k { s with n := s.n + 1 }) := by
      rw [nextM_end hm']
      obtain ⟨_, _, a3, a4, a5, a6⟩ := h.stOk S
      have := hiM_le S
      exact ⟨inInt_of (by have := h.m1; dsimp only; omega) (by have := h.m2; dsimp only; omega), i, a3, a4, a5, a6⟩
    rw [nextNC, if_pos i, if_neg hn, if_pos a, if_neg hm, nextN, if_neg hn, if_neg hm]
    exact ⟨rfl, fun h => absurd h hm⟩

/-- Between the calls of `next_o`. -/
structure JO (k : Cst) (s : Sphere.St) : Prop where
  j : J k s
  o1 : -2 ^ 30 - 1 ≤ s.o
  o2 : s.o ≤ 2 ^ 30 + 1

theorem nextOC_eq (S : Small k) (s : Sphere.St) (h : JO k s) :
    nextOC k s = .ok (nextO k s) ∧ ((nextO k s).m < k.hiM → JO k (nextO k s)) := by
  have i : InInt (s.o + 1) := inInt_of (by have := h.o1; omega) (by have := h.o2; omega)
  induction s using nextO.induct k with
  | case1 s ho =>
    rw [nextOC, if_pos i, if_pos ho, nextO, if_pos ho]
    have := h.o1
    have hu := h.j.ho
    exact ⟨rfl, fun _ => ⟨{ h.j with o1 := by dsimp only; omega, o2 := by dsimp only; omega }, by dsimp only; omega, by dsimp only; omega⟩⟩
  | case2 s ho hu hm ih =>
    have f := ceil_bd (B := 2 ^ 30) (by rw [c30]; exact (abs_add_le _ _).trans h.j.jump)
    have hi : InInt ⌈s.o0line + s.excl⌉ ∧ InInt (⌈s.o0line + s.excl⌉ - 1) :=
      ⟨inInt_of (by omega) (by omega), inInt_of (by omega) (by omega)⟩
    rw [nextOC, if_pos i, if_neg ho, if_pos hu, if_pos hi, if_pos hm, nextO, if_neg ho, if_pos hu, if_pos hm]
    refine ih ⟨{ h.j with ho := h.j.hu, o1 := by dsimp only; omega, o2 := by dsimp only; omega }, by dsimp only; omega, by dsimp only; omega⟩
      (inInt_of (by dsimp only; omega) (by dsimp only; omega))
  | case3 s ho hu hm =>
    have f := ceil_bd (B := 2 ^ 30) (by rw [c30]; exact (abs_add_le _ _).trans h.j.jump)
    have hi : InInt ⌈s.o0line + s.excl⌉ ∧ InInt (⌈s.o0line + s.excl⌉ - 1) :=
      ⟨inInt_of (by omega) (by omega), inInt_of (by omega) (by omega)⟩
    rw [nextOC, if_pos i, if_neg ho, if_pos hu, if_pos hi, if_neg hm, nextO, if_neg ho, if_pos hu, if_neg hm]
    exact ⟨rfl, fun h => absurd h hm⟩
  | case4 s ho hu hm ih =>
    have hj : J k { s with o := s.o + 1 } :=
      { h.j with o1 := by have := h.o1; dsimp only; omega, o2 := by have := h.o2; dsimp only; omega }
    obtain ⟨e1, e2⟩ := nextNC_eq S _ hj
    obtain ⟨j, p1, p2⟩ := e2 hm
    rw [nextOC, if_pos i, if_neg ho, if_neg hu, e1]
    dsimp only
    rw [if_pos hm, nextO, if_neg ho, if_neg hu, if_pos hm]
    exact ih ⟨j, by omega, by omega⟩ (inInt_of (by omega) (by omega))
  | case5 s ho hu hm =>
    have hj : J k { s with o := s.o + 1 } :=
      { h.j with o1 := by have := h.o1; dsimp only; omega, o2 := by have := h.o2; dsimp only; omega }
    obtain ⟨e1, -⟩ := nextNC_eq S _ hj
    rw [nextOC, if_pos i, if_neg ho, if_neg hu, e1]
    dsimp only
    rw [if_neg hm, nextO, if_neg ho, if_neg hu, if_neg hm]
    exact ⟨rfl, fun h => absurd h hm⟩

theorem visitsC_eq (S : Small k) (s : Sphere.St) (h : s.m < k.hiM → JO k s) : visitsC k s = .ok (visits k s) := by
  induction s using visits.induct k with
  | case1 s hm ih =>
    obtain ⟨e, h'⟩ := nextOC_eq S s (h hm)
    rw [visitsC, if_pos hm, e]
    dsimp only
    rw [ih h', Res.bind_ok, visits.eq_def k s, if_pos hm]
  | case2 s hm => rw [visitsC, if_neg hm, visits, if_neg hm]

/-- The sequencer with `int` is the one with unbounded integers. -/
theorem pointsC_eq (S : Small k) : pointsC k = .ok (points k) := by
  have hb := hiM_le S
  have hs : JO k (start k) := by
    refine ⟨⟨le_rfl, ?_, ?_, ?_, ?_, ?_, ?_, ?_, ?_, ?_, fun h => ?_⟩, ?_, ?_⟩ <;> simp [start] at * <;> omega
  obtain ⟨e, h⟩ := nextOC_eq S _ hs
  rw [pointsC, if_pos ⟨inInt_of (by omega) (by omega), inInt_of (by omega) (by omega)⟩, e, Res.bind_ok, visitsC_eq S _ h]
  rfl

end

end Pdffit.CInt
