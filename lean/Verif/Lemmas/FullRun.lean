import Verif.Lemmas.FullFit
import Verif.Lemmas.RefineQuiet

/-!
# Evaluations of the fit as a whole that succeed
-/

namespace Pdffit.Full
open Geom Det Deriv Layout Conf DMat C47 _root_.Pdffit.Parser

namespace Input
variable {I : Input}

theorem calcSet_some {v : ℕ → ℝ} {rv : List (Option ℕ)} {vref : List Bool} {dvdp : Mat ℝ} {is : ℕ} {s : SetIn} {old : Mat ℝ} {o : Out}
    (h : I.calcSet v rv vref dvdp is s old = .ok (some o)) :
    (∃ f, determine (I.dat v is s) (I.sel v s) = .ok (some f)) ∧ ¬I.Zero rv v is s := by
  unfold calcSet at h
  cases ht : determine (I.dat v is s) (I.sel v s) with
  | err x => rw [ht] at h; cases h
  | ub => rw [ht] at h; cases h
  | ok t =>
    rw [ht, Res.bind_ok] at h
    cases hA : fitAMat (I.lay rv) vref old (I.dat v is s) is (I.sel v s) with
    | err x => rw [hA] at h; cases h
    | ub => rw [hA] at h; cases h
    | ok A =>
      rw [hA, Res.bind_ok] at h
      cases hB : A.mul dvdp with
      | err x => rw [hB] at h; cases h
      | ub => rw [hB] at h; cases h
      | ok B =>
        rw [hB, Res.bind_ok] at h
        cases t with
        | none => cases h
        | some f =>
          dsimp only at h
          by_cases hz : I.Zero rv v is s
          · rw [if_pos hz] at h; cases h
          · exact ⟨⟨f, rfl⟩, hz⟩

theorem calcSets_none {v : ℕ → ℝ} {rv : List (Option ℕ)} {vref : List Bool} {dvdp : Mat ℝ} (l : List SetIn) :
    ∀ (is : ℕ) (c : List Out), (I.calcSets v rv vref dvdp is l c).2 = none → ∀ (k : ℕ) s, l[k]? = some s →
      (∃ f, determine (I.dat v (is + k) s) (I.sel v s) = .ok (some f)) ∧ ¬I.Zero rv v (is + k) s := by
  induction l with
  | nil => intro is c _ k s hk; simp at hk
  | cons s0 l ih =>
    intro is c h k s hk
    unfold calcSets at h
    cases hc : I.calcSet v rv vref dvdp is s0 (c.head?.getD (⟨0, 0, []⟩, [])).1 with
    | err x => rw [hc] at h; cases h
    | ub => rw [hc] at h; cases h
    | ok o =>
      rw [hc] at h
      cases o with
      | none => cases h
      | some o =>
        dsimp only at h
        cases k with
        | zero =>
          simp only [List.getElem?_cons_zero, Option.some.injEq] at hk
          subst hk
          exact calcSet_some hc
        | succ k =>
          rw [List.getElem?_cons_succ] at hk
          have := ih (is + 1) c.tail h k s hk
          rwa [show is + 1 + k = is + (k + 1) by omega] at this

theorem det_none {v : ℕ → ℝ} {rv : List (Option ℕ)} {vref : List Bool} {dvdp : Mat ℝ} {c : List Out}
    (h : (I.det v rv vref dvdp c).2 = none) : Num I v ∧ ∀ (is : ℕ) s, I.sets[is]? = some s → ¬I.Zero rv v is s := by
  unfold det at h
  split at h
  · cases h
  · rename_i hl
    push Not at hl
    have := calcSets_none I.sets 0 c h
    simp only [Nat.zero_add] at this
    exact ⟨⟨hl, fun is s hs => (this is s hs).1⟩, fun is s hs => (this is s hs).2⟩

/-- The calculation with these parameters has a result: all constraints have values, the cells and curves exist, and no refined
occupancy or data scale vanishes. -/
structure Works (I : Input) (p0 : ParStore ℝ) (cs : List (Constr (List Char))) (v0 : ℕ → ℝ) (tv : ℕ → RVar) (par : ParStore ℝ) : Prop where
  con : ∀ c ∈ cs, ∃ r, cres (fparse builtinTab) par c = .ok r
  num : Num I (I.vars cs v0 par)
  div : ∀ (is : ℕ) s, I.sets[is]? = some s → ∀ (c : ℕ) x, cs[c]? = some x → C53.UsesFree textIds p0 x →
      ¬Div0 (I.dat (I.vars cs v0 par) is s) is (tv c) (I.sel (I.vars cs v0 par) s)

/-- An evaluation that does not raise. -/
theorem eval_none (H : I.Ok) (dmax : ℝ) {p0 par : ParStore ℝ} {cs : List (Constr (List Char))} {v0 : ℕ → ℝ}
    (hone : (cs.map Constr.addr).Nodup) (tv : ℕ → RVar)
    (htv : ∀ (c : ℕ) x, cs[c]? = some x → C47.Exists I.natoms I.nset (tv c) ∧ x.addr = I.addr (tv c))
    {w w' : CWorld (List Char) ℝ (List Out)} (hw : I.Ready dmax p0 cs v0 w) (hs : C53.Same p0 par)
    (he : (constrTheory (I.static dmax)).eval par w = (w', none)) : I.Works p0 cs v0 tv par := by
  have hp := fparse_parserOK builtinTab
  have hu := fparse_parserUses builtinTab
  obtain ⟨cs', v', m', so, h1, h2, h3, h4, -⟩ := fill_inv (S := I.static dmax) (par := par) hp hw.mid.inv.wf
    ⟨hs.ip, hs.id, hs.len⟩ hw.inv
  have h1' : fillVariables (fparse builtinTab) par w.cons w.vars w.dvdp = (cs', v', m', so) := h1
  cases so with
  | some x =>
    exfalso
    simp only [constrTheory, fitTheory] at he
    rw [h1] at he
    cases he
  | none =>
    have hv : wrapVars (I.static dmax).icc v' = I.vars cs v0 par := (h3 rfl).2
    have hok : (fillVariables (fparse builtinTab) par w.cons w.vars w.dvdp).2.2.2 = none := by rw [h1']
    obtain ⟨q1, q2, q3, q4, q5⟩ := C53.fill_settle hp hu (hs.inv hw.mid.inv) hok
    rw [h1'] at q1 q2 q3 q4 q5
    dsimp only at q1 q2 q3 q4 q5
    have hset : cs' = w.cons := by
      rw [q2]
      exact C53.map_cmark_settled w.cons (fun c hc => by rw [hw.mid.flags c hc, hs.usesFree]) (by rw [← q2]; exact q3)
    have hrv : w.refvar = refvar I.addr cs' I.natoms I.nset := by
      rw [hw.mid.refvar, hset]
      show ((setup I.natoms I.nset).slots.map I.addr).map _ = _
      rw [List.map_map]
      rfl
    have hcore : cs'.map Constr.core = cs.map Constr.core := h2.cons
    have hone' : (cs'.map Constr.addr).Nodup := by
      have e : cs'.map Constr.addr = cs.map Constr.addr := by
        have := congrArg (List.map (fun x : ℕ × Option (List Char) × ℤ × FCon => x.1)) hcore
        rw [List.map_map, List.map_map] at this
        exact this
      rw [e]
      exact hone
    have hdn : (I.det (I.vars cs v0 par) (refvar I.addr cs' I.natoms I.nset) (cs'.map Constr.vref) m' w.curve).2 = none := by
      simp only [constrTheory, fitTheory] at he
      rw [h1] at he
      dsimp only at he
      rw [hv, hrv] at he
      have := congrArg Prod.snd he
      dsimp only at this
      cases hd : (I.det (I.vars cs v0 par) (refvar I.addr cs' I.natoms I.nset) (cs'.map Constr.vref) m' w.curve).2 with
      | none => rfl
      | some x =>
        exfalso
        rw [show ((I.static dmax).det (I.vars cs v0 par) (refvar I.addr cs' I.natoms I.nset) (cs'.map Constr.vref) m' w.curve).2 = some x from hd] at this
        cases this
    obtain ⟨n1, n2⟩ := det_none hdn
    refine ⟨(h3 rfl).1, n1, fun is s hs' c x hx hf hdiv => ?_⟩
    obtain ⟨y, hy, e⟩ := core_get hcore.symm hx
    obtain ⟨t1, t2⟩ := htv c x hx
    have hvr : y.vref = true := (q3 y (List.mem_of_getElem? hy)).2 ((hs.usesFree textIds y).2 ((C53.usesFree_core e.symm).1 hf))
    obtain ⟨k, hk⟩ := List.getElem?_of_mem ((complete I.natoms I.nset (tv c)).2 t1)
    refine n2 is s hs' ⟨k, c, tv c, hk, ?_, hdiv⟩
    exact (attached_partial I.addr cs' I.natoms I.nset H.sep hone' c _ hy hvr _ t1
      (by rw [← t2]; exact congrArg (·.1) e) k).2 hk

end Input
end Pdffit.Full
