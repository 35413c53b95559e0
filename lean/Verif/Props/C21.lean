import Verif.Props.C20

/-!
# C21: bond_length_atoms is symmetric

False for oblique cells (`asymmetric`): the distances reported for `(i, j)` and `(j, i)` differ.
Proved for orthogonal cells, including the standard deviation.
-/

namespace Pdffit.C21
open Geom Parser Bonds

/-- Partial result (missing: oblique cells, where the claim is false). -/
theorem symmetric_partial (p : Phs) (h90 : ∀ k, p.cell.win k = 90) (i j : ℤ) :
    (bondLengthAtoms p i j >>= fun d => Res.ok (d.dij, d.ddij)) =
      (bondLengthAtoms p j i >>= fun d => Res.ok (d.dij, d.ddij)) := by
  unfold bondLengthAtoms
  by_cases h : (1 ≤ i ∧ i ≤ p.atom.length) ∧ 1 ≤ j ∧ j ≤ p.atom.length
  · obtain ⟨ai, hai, -⟩ := at_valid p.atom i (by omega) (by omega)
    obtain ⟨aj, haj, -⟩ := at_valid p.atom j (by omega) (by omega)
    rw [if_neg (by omega), if_neg (by omega), hai, haj]
    simp only [Res.bind_ok, Res.ok.injEq]
    have e : makeNearest p (fun k => aj.pos k - ai.pos k) = -makeNearest p (fun k => ai.pos k - aj.pos k) := by
      unfold makeNearest
      rw [if_pos (Or.inr h90), if_pos (Or.inr h90), ← wrap_neg]
      congr 1
      funext k
      simp
    have es : (fun k => aj.dpos k + ai.dpos k) = fun k => ai.dpos k + aj.dpos k := by funext k; ring
    rw [e, es]
    unfold mkPair
    simp only [dskal_neg]
    have : ∀ x : Fin 3 → ℝ, p.skal (-x) (-x) = p.skal x x := fun x => skalpro_neg _ x
    simp only [this]
  · rw [if_pos (by omega), if_pos (by omega)]

/-- The distance from atom 1 to atom 2 is √0.37, from atom 2 to atom 1 √0.27. -/
theorem asymmetric : ∃ d e, bondLengthAtoms (C20.oblique (3 / 10) (4 / 10)) 1 2 = .ok d ∧
    bondLengthAtoms (C20.oblique (3 / 10) (4 / 10)) 2 1 = .ok e ∧ d.dij ^ 2 = 37 / 100 ∧ e.dij ^ 2 = 27 / 100 := by
  obtain ⟨d, hd, hd', -⟩ := C20.not_shortest_oblique
  refine ⟨d, _, hd, rfl, by rw [hd', Real.sq_sqrt (by norm_num)], ?_⟩
  show √((C20.oblique _ _).skal (makeNearest _ _) (makeNearest _ _)) ^ 2 = _
  have hmn : makeNearest (C20.oblique (3 / 10) (4 / 10)) (fun k => (0 : Fin 3 → ℝ) k - (![3 / 10, 4 / 10, 0] : Fin 3 → ℝ) k) =
      ![-3 / 10, 6 / 10, 0] := by
    have e : (fun k => (0 : Fin 3 → ℝ) k - (![3 / 10, 4 / 10, 0] : Fin 3 → ℝ) k) = ![-3 / 10, -4 / 10, 0] := by
      funext k
      fin_cases k <;> simp <;> norm_num
    have ew : wrap (C20.oblique (3 / 10) (4 / 10)).icc ![-3 / 10, -4 / 10, 0] = ![-3 / 10, -4 / 10, 0] :=
      C20.wrap_small _ _ (by rw [abs_of_neg] <;> norm_num) (by rw [abs_of_neg] <;> norm_num)
    have eo : octant (C20.oblique (3 / 10) (4 / 10)).icc ![-3 / 10, -4 / 10, 0] = ![-3 / 10, -4 / 10, 0] := by
      funext k
      fin_cases k <;> simp [octant] <;> intro h <;> norm_num at h
    rw [e]
    unfold makeNearest
    rw [ew, if_neg, eo, C20.near_oblique _ _ _ _ (by norm_num) (by norm_num)]
    · norm_num [List.filter, C20.skal_plane]
    · rintro (h | h)
      · have := h 0; norm_num at this
      · exact C20.win60 _ _ h
  rw [hmn, C20.skal_plane, Real.sq_sqrt (by norm_num)]
  norm_num

/-- Symmetric distances in a cubic cell. -/
example : ∃ d e, bondLengthAtoms C20.ortho 1 2 = .ok d ∧ bondLengthAtoms C20.ortho 2 1 = .ok e ∧ d.dij = e.dij ∧ e.dij = 4 / 5 := by
  obtain ⟨d, hd, h1, -⟩ := C20.not_shortest_ortho
  have h := symmetric_partial C20.ortho C20.ortho90 1 2
  rw [hd] at h
  obtain ⟨e, he⟩ := (C20.valid C20.ortho 2 1).2 (by simp [C20.ortho])
  rw [he] at h
  simp only [Res.bind_ok, Res.ok.injEq, Prod.mk.injEq] at h
  exact ⟨d, e, hd, he, h.1, by rw [← h.1, h1]⟩

end Pdffit.C21
