import Verif.Props.C22
import Verif.Props.C103

/-!
# C104: bond angles fit to the bond lengths

Observable content: the angle `bond_angle(i, j, k)` and the lengths `bond_length_atoms(j, i)` and `bond_length_atoms(j, k)` are those of one triangle:
the third side by the law of cosines is a distance of the atoms `i` and `k` up to translations of the supercell (`C104_cosines_partial`). If it is
between `lb` and `ub`, `bond_length_types(A, B, lb, ub)` lists it with these atoms (`C104_listed_partial`). The order of the atoms is that of the
vectors in `bond_angle` (stru.cc 669-675); in oblique cells `bond_length_atoms(i, j)` is not always the same (`C21`).
-/

namespace Pdffit.C104
open Geom Parser Bonds

theorem skal_sub (p : Phs) (x y : Fin 3 → ℝ) : p.skal (y - x) (y - x) = p.skal x x + p.skal y y - 2 * p.skal x y := by
  have e : y - x = y + (-1 : ℝ) • x := by rw [neg_one_smul, sub_eq_add_neg]
  unfold Phs.skal
  rw [e, skalpro_add _ p.gten_symm, skalpro_comm _ p.gten_symm y x]
  ring

/-- The triangle of two bonds: the angle is a number, and the third side is a vector from an image of `k` to `i`. -/
theorem triangle {p : Phs} (F : C19.Fine p) {i j k : ℤ} {ang dang : ℝ} {a c : PairDist} (h : bondAngle p i j k = .ok (some (ang, dang)))
    (ha : bondLengthAtoms p j i = .ok a) (hc : bondLengthAtoms p j k = .ok c) :
    ∃ ai ak, p.atom[(i - 1).toNat]? = some ai ∧ p.atom[(k - 1).toNat]? = some ak ∧ ∃ T : ℤ × ℤ × ℤ,
      p.skal (diff p ai ak T) (diff p ai ak T) = a.dij ^ 2 + c.dij ^ 2 - 2 * a.dij * c.dij * Real.cos (Real.pi / 180 * ang) := by
  obtain ⟨aj, ai, ej, ei, ea⟩ := C20.result ha
  obtain ⟨aj', ak, ej', ek, ec⟩ := C20.result hc
  rw [ej] at ej'
  have e0 := Option.some.inj ej'
  rw [← e0] at ec
  obtain ⟨s, hs⟩ := makeNearest_equiv p F.icc fun l => aj.pos l - ai.pos l
  obtain ⟨t, ht⟩ := makeNearest_equiv p F.icc fun l => aj.pos l - ak.pos l
  have hb : bondAngle p i j k = .ok (angle p (makeNearest p fun l => aj.pos l - ai.pos l) (makeNearest p fun l => aj.pos l - ak.pos l)
      (fun l => aj.dpos l + ai.dpos l) (fun l => aj.dpos l + ak.dpos l)) := by
    unfold bondAngle at h ⊢
    split at h
    · cases h
    · rename_i h1
      split at h
      · cases h
      · rename_i h2
        rw [if_neg h1, if_neg h2]
        have f : ∀ {n : ℕ} {x : Atm}, p.atom[n]? = some x → Res.at? p.atom n = .ok x := fun {n x} e => by unfold Res.at?; rw [e]
        rw [f ei, f ej, f ek]
        rfl
  rw [hb] at h
  have h := Res.ok.inj h
  generalize hx : (makeNearest p fun l => aj.pos l - ai.pos l) = x at *
  generalize hy : (makeNearest p fun l => aj.pos l - ak.pos l) = y at *
  refine ⟨ai, ak, ei, ek, (s 0 - t 0, s 1 - t 1, s 2 - t 2), ?_⟩
  have ev : diff p ai ak (s 0 - t 0, s 1 - t 1, s 2 - t 2) = y - x := by
    funext l
    rw [Pi.sub_apply, hs l, ht l]
    unfold diff
    fin_cases l <;> simp <;> ring
  have hn := C19.nonneg F
  have da : a.dij = √(p.skal x x) := by rw [ea]; rfl
  have dc : c.dij = √(p.skal y y) := by rw [ec]; rfl
  unfold angle at h
  split at h
  · cases h
  · rename_i hne
    have h1 : bacosd (p.skal x y / (√(p.skal x x) * √(p.skal y y))) = ang := congrArg Prod.fst (Option.some.inj h)
    have hpos : 0 < √(p.skal x x) * √(p.skal y y) := lt_of_le_of_ne (mul_nonneg (Real.sqrt_nonneg _) (Real.sqrt_nonneg _)) (Ne.symm hne)
    have hcs : |p.skal x y / (√(p.skal x x) * √(p.skal y y))| ≤ 1 := by
      rw [abs_div, abs_of_pos hpos, div_le_one hpos]
      exact cauchy_abs _ p.gten_symm hn x y
    have h2 := C45.cosd_acosd (abs_le.1 hcs).1 (abs_le.1 hcs).2
    rw [h1] at h2
    have h3 : Real.cos (Real.pi / 180 * ang) = p.skal x y / (√(p.skal x x) * √(p.skal y y)) := h2
    rw [ev, skal_sub, h3, da, dc, Real.sq_sqrt (show 0 ≤ p.skal x x from hn x), Real.sq_sqrt (show 0 ≤ p.skal y y from hn y),
      show 2 * √(p.skal x x) * √(p.skal y y) * (p.skal x y / (√(p.skal x x) * √(p.skal y y))) =
        2 * (p.skal x y / (√(p.skal x x) * √(p.skal y y)) * (√(p.skal x x) * √(p.skal y y))) by ring, div_mul_cancel₀ _ hne]

/-- (partial: cells without suppressed elements of the metric, `C19.Fine`) Law of cosines: the third side of the triangle of two bonds and their angle
is a distance of the outer atoms. -/
theorem C104_cosines_partial (p : Phs) (F : C19.Fine p) (i j k : ℤ) (ang dang : ℝ) (a c : PairDist)
    (h : bondAngle p i j k = .ok (some (ang, dang))) (ha : bondLengthAtoms p j i = .ok a) (hc : bondLengthAtoms p j k = .ok c) :
    ∃ ai ak, p.atom[(i - 1).toNat]? = some ai ∧ p.atom[(k - 1).toNat]? = some ak ∧ ∃ e, C20.IsImageDist p ai ak e ∧
      e ^ 2 = a.dij ^ 2 + c.dij ^ 2 - 2 * a.dij * c.dij * Real.cos (Real.pi / 180 * ang) := by
  obtain ⟨ai, ak, ei, ek, T, hT⟩ := triangle F h ha hc
  refine ⟨ai, ak, ei, ek, √(p.skal (diff p ai ak T) (diff p ai ak T)), ⟨![-T.1, -T.2.1, -T.2.2], ?_⟩, ?_⟩
  · have e : (fun l => ai.pos l - ak.pos l + ((![-T.1, -T.2.1, -T.2.2] : Fin 3 → ℤ) l : ℝ) * p.icc l) = diff p ai ak T := by
      funext l
      unfold diff
      fin_cases l <;> simp <;> ring
    rw [e]
  · rw [Real.sq_sqrt (show 0 ≤ p.skal _ _ from C19.nonneg F _), hT]

/-- (partial: also the atoms not further apart than the diagonal of the supercell) The third side is in the list of bonds of the outer atoms. -/
theorem C104_listed_partial (lookup : String → Option ℕ) (p : Phs) (F : C19.Fine p) (hcl : C103.Close p) (i j k : ℤ) (ang dang : ℝ) (a c : PairDist)
    (h : bondAngle p i j k = .ok (some (ang, dang))) (ha : bondLengthAtoms p j i = .ok a) (hc : bondLengthAtoms p j k = .ok c) (A B : String)
    (lb ub : ℝ) (rv : List PairDist) (hr : bondLengthTypes lookup p A B lb ub = .ok rv) (hA : C19.IsOf lookup p A (i - 1).toNat)
    (hB : C19.IsOf lookup p B (k - 1).toNat)
    (h1 : lb ≤ √(a.dij ^ 2 + c.dij ^ 2 - 2 * a.dij * c.dij * Real.cos (Real.pi / 180 * ang)))
    (h2 : √(a.dij ^ 2 + c.dij ^ 2 - 2 * a.dij * c.dij * Real.cos (Real.pi / 180 * ang)) ≤ ub) :
    ∃ b ∈ rv, b.i = i ∧ b.j = k ∧ b.dij = √(a.dij ^ 2 + c.dij ^ 2 - 2 * a.dij * c.dij * Real.cos (Real.pi / 180 * ang)) := by
  obtain ⟨ai, ak, ei, ek, T, hT⟩ := triangle F h ha hc
  have hv : (1 ≤ i ∧ i ≤ p.atom.length) ∧ (1 ≤ j ∧ j ≤ p.atom.length) ∧ (1 ≤ k ∧ k ≤ p.atom.length) ∧ i ≠ j ∧ i ≠ k ∧ j ≠ k := by
    by_contra hn
    rw [((C22.valid p i j k).1).2 hn] at h
    cases h
  rw [← hT] at h1 h2 ⊢
  exact ⟨_, C103.mem_list F hcl hr hA hB ei ek T h1 h2, by show (((i - 1).toNat + 1 : ℕ) : ℤ) = i; omega,
    by show (((k - 1).toNat + 1 : ℕ) : ℤ) = k; omega, rfl⟩

/-! ## Example -/

theorem right_fine : C19.Fine C22.right where
  acc := by
    have h90 : ∀ k, C22.right.cell.win k = 90 := by intro k; fin_cases k <;> rfl
    have hv : voll C22.right.cell = 1 := by unfold voll; simp only [h90, C45.cosd90]; norm_num
    refine ⟨_, if_neg ?_⟩
    rw [hv, not_le]
    unfold eps
    norm_num
  edge := by intro i; fin_cases i <;> simp [C22.right]
  angle := by intro i; fin_cases i <;> simp [C22.right] <;> norm_num
  small := by
    have h90 : ∀ k, C22.right.cell.win k = 90 := by intro k; fin_cases k <;> rfl
    intro i j _; left; rw [h90, C45.cosd90, mul_zero]
  icc := fun _ => Nat.one_pos

/-- A right angle between bonds of length 1/4: the outer atoms have the distance √2/4. -/
example : ∃ ang dang a c, bondAngle C22.right 1 2 3 = .ok (some (ang, dang)) ∧ bondLengthAtoms C22.right 2 1 = .ok a ∧
    bondLengthAtoms C22.right 2 3 = .ok c ∧ a.dij = 1 / 4 ∧ c.dij = 1 / 4 ∧
    ∃ ai ak, C22.right.atom[0]? = some ai ∧ C22.right.atom[2]? = some ak ∧ ∃ e, C20.IsImageDist C22.right ai ak e ∧ e ^ 2 = 2 * (1 / 4) ^ 2 := by
  have h90 : ∀ k, C22.right.cell.win k = 90 := by intro k; fin_cases k <;> rfl
  obtain ⟨d, hd⟩ := C22.right_angle
  have l1 : ∃ a, bondLengthAtoms C22.right 2 1 = .ok a ∧ a.dij = 1 / 4 := by
    refine ⟨_, rfl, ?_⟩
    show √(C22.right.skal (makeNearest _ _) (makeNearest _ _)) = _
    rw [C22.small _ (fun k => by fin_cases k <;> norm_num [abs_lt]), C20.skal_ortho _ h90, show (C22.right.cell.a0 0 * _) ^ 2 + (C22.right.cell.a0 1 * _) ^ 2 +
      (C22.right.cell.a0 2 * _) ^ 2 = (1 / 4 : ℝ) ^ 2 by simp [C22.right], Real.sqrt_sq (by norm_num)]
  have l2 : ∃ a, bondLengthAtoms C22.right 2 3 = .ok a ∧ a.dij = 1 / 4 := by
    refine ⟨_, rfl, ?_⟩
    show √(C22.right.skal (makeNearest _ _) (makeNearest _ _)) = _
    rw [C22.small _ (fun k => by fin_cases k <;> norm_num [abs_lt]), C20.skal_ortho _ h90, show (C22.right.cell.a0 0 * _) ^ 2 + (C22.right.cell.a0 1 * _) ^ 2 +
      (C22.right.cell.a0 2 * _) ^ 2 = (1 / 4 : ℝ) ^ 2 by simp [C22.right], Real.sqrt_sq (by norm_num)]
  obtain ⟨a, ha, da⟩ := l1
  obtain ⟨c, hc, dc⟩ := l2
  obtain ⟨ai, ak, ei, ek, e, he, h2⟩ := C104_cosines_partial C22.right right_fine 1 2 3 90 d a c hd ha hc
  refine ⟨90, d, a, c, hd, ha, hc, da, dc, ai, ak, ei, ek, e, he, ?_⟩
  rw [h2, da, dc, show Real.pi / 180 * 90 = Real.pi / 2 by ring, Real.cos_pi_div_two]
  norm_num

end Pdffit.C104
