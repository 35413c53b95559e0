import Verif.Lemmas.RefineSeq
import Verif.Props.RefineDemo

/-!
# C14  Covariances are attached to the right parameters
-/

namespace Pdffit.C14
variable {K W : Type} [Field K] [LinearOrder K] [IsStrictOrderedRing K]

/-- Curvature of weighted least squares for parameters `i`, `j`. -/
def curvature (dss : List (List (Pt K))) (i j : Nat) : K :=
  (dss.flatten.map fun pt => pt.w * pt.d i * pt.d j).sum

/-- Parameter number `i` is free. -/
def free (par : ParStore K) (i : Nat) : Prop := par.ip.getD i false = true

instance (par : ParStore K) (i : Nat) : Decidable (free par i) := by unfold free; infer_instance

/-- **C14** When `refine()` finishes, there are fitted points of an evaluation at the final
parameters such that, with `C i j` their curvature matrix over the free parameters:

* `covar` restricted to the free parameters is the inverse of `C`
  (`∑_j C i j * covar j k = δ i k`),
* `covar i k = 0` when `i` or `k` is fixed. -/
theorem C14_covariance_is_inverse_curvature (th : Theory K W) (toler : K) (s : Statics K)
    (e : Eng K W) (hfresh : ¬ (s.fitRunning = true ∧ e.iter ≠ 0)) (fuel : Nat)
    (hd : (refineLoop th toler fuel (s, e)).2.1 = .done) :
    let r := (refineLoop th toler fuel (s, e)).1.2
    let n := r.par.p.length
    ∃ dss, EvalPts th r.par dss ∧
      ∀ i k, i < n → k < n →
        (free r.par i ∧ free r.par k →
          ∑ j ∈ (Finset.range n).filter (fun j => free r.par j),
            curvature dss i j * r.covar j k = if i = k then 1 else 0) ∧
        (¬ (free r.par i ∧ free r.par k) → r.covar i k = 0) := by
  obtain ⟨s1, e1, h1, h2, h3⟩ := refineLoop_done th toler fuel s e (Or.inl hfresh) hd
  have hb := refineBody_run th toler s1.work e1 (Or.inr ⟨h1.lam, h1.it, h1.work⟩)
  rw [← refineStep_running th toler s1 e1 h1] at hb
  obtain ⟨g1, -, -, -, -, inv, g2, -, g3⟩ := hb.2 h2
  rw [h3]
  generalize refineStep th toler s1 e1 = r at *
  obtain ⟨s2, e2, o⟩ := r
  dsimp only at *
  obtain ⟨wk, -, hn, -⟩ := h1.work
  obtain ⟨dss, q1, q2, -⟩ := hn.eqs
  refine ⟨dss, by rw [g1]; exact q1, ?_⟩
  intro i k hi hk
  have hfree : ∀ j, free e2.par j ↔ e1.ia j = true := by
    intro j; unfold free Eng.ia; rw [g1]
  have hi' : i < e1.ma := by unfold Eng.ma; rw [← g1]; exact hi
  have hk' : k < e1.ma := by unfold Eng.ma; rw [← g1]; exact hk
  rw [hfree, hfree]
  refine ⟨fun hf => ?_, (g3 i k hi' hk').2⟩
  have hset : (Finset.range e2.par.p.length).filter (fun j => free e2.par j) =
      (Finset.range e1.ma).filter (fun j => e1.ia j = true) := by
    ext j
    simp only [Finset.mem_filter, Finset.mem_range, hfree]
    unfold Eng.ma; rw [g1]
  rw [hset]
  have hri := nfree_lt e1.ia hi' hf.1
  have hrk := nfree_lt e1.ia hk' hf.2
  rw [sum_free e1.ia e1.ma
    (fun t => e1.alpha (nfree e1.ia i) t * inv t ⟨nfree e1.ia k, hrk⟩)]
  · have := congrFun (congrFun g2 ⟨nfree e1.ia i, hri⟩) ⟨nfree e1.ia k, hrk⟩
    rw [Matrix.mul_apply, Matrix.one_apply] at this
    have heq : (⟨nfree e1.ia i, hri⟩ : Fin (nfree e1.ia e1.ma)) = ⟨nfree e1.ia k, hrk⟩ ↔ i = k := by
      rw [Fin.mk.injEq]
      exact ⟨nfree_inj e1.ia hf.1 hf.2, fun h => by rw [h]⟩
    simp only [heq, Matrix.of_apply] at this
    exact this
  · intro j hj fj hr
    obtain ⟨_, _, hc⟩ := (g3 j k hj hk').1 ⟨fj, hf.2⟩
    rw [hc]
    unfold curvature
    rw [← q2 i j hi' hj hf.1 fj]

/-- Non-trivial case: one free and one fixed parameter, a finished refinement with non-zero
variance of the free parameter. -/
example :
    let r := refineLoop demoTheory (1/100000000) 101 ({}, demoEng 0)
    r.2.1 = .done ∧ r.1.2.par.ip = [true, false] ∧
      r.1.2.covar 0 0 = 1 ∧ r.1.2.covar 0 1 = 0 ∧ r.1.2.covar 1 1 = 0 := by
  decide +kernel

/-- `covsrt` on its own, for a pattern fixed, free, fixed, free: the compact matrix
`[[a, b], [b, c]]` is spread to rows and columns 1 and 3. -/
example (a b c : ℚ) :
    ∃ m, covsrt (fun i j => if i = 0 ∧ j = 0 then a else if i = 1 ∧ j = 1 then c else b) 4
        (fun l => l == 1 || l == 3) 2 = .ok m ∧
      m 1 1 = a ∧ m 1 3 = b ∧ m 3 1 = b ∧ m 3 3 = c ∧ m 0 3 = 0 ∧ m 2 2 = 0 := by
  refine ⟨_, rfl, ?_⟩
  refine ⟨?_, ?_, ?_, ?_, ?_, ?_⟩ <;> rfl

end Pdffit.C14
