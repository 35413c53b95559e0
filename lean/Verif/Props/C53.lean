import Verif.Model.Errors
import Verif.Lemmas.Covar
import Verif.Lemmas.RefineWorld
import Verif.Props.C08
import Verif.Props.C14
import Verif.Props.C48
import Verif.Props.C54
import Mathlib.Analysis.Real.Sqrt
import Mathlib.Data.Real.Archimedean

/-!
# C53: standard deviations are those of linear error propagation
-/

namespace Pdffit.C53
open C48 (Holds)

/-! ### Matrices -/

theorem covarMat_holds {K : Type} (n : Nat) (c : Nat → Nat → K) :
    Holds (covarMat n c) (fun i j : Fin n => c i j) := by
  have hlen : ∀ l : List Nat, (l.flatMap fun i => (List.range n).map fun j => c i j).length = l.length * n := by
    intro l
    induction l with
    | nil => simp
    | cons a l ih => simp [ih, Nat.succ_mul]; ring
  refine C48.holds_of _ _ (by simpa using hlen (List.range n)) fun i j => ?_
  have main : ∀ (l : List Nat) (i : Nat) (hi : i < l.length),
      (l.flatMap fun i => (List.range n).map fun j => c i j)[i * n + j]? = some (c l[i] j) := by
    intro l
    induction l with
    | nil => intro i hi; simp at hi
    | cons a l ih =>
      intro i hi
      rw [List.flatMap_cons]
      cases i with
      | zero =>
        rw [List.getElem?_append_left (by simp)]
        simp
      | succ i =>
        rw [List.getElem?_append_right (by simp [Nat.succ_mul]; omega)]
        simp only [List.length_map, List.length_range, List.getElem_cons_succ]
        rw [show (i + 1) * n + j - n = i * n + j by rw [Nat.succ_mul]; omega]
        exact ih i (by simpa using hi)
  have := main (List.range n) i (by simp)
  simpa using this

/-- **C53** (matrices) For a covariance matrix `C` without negative quadratic forms and derivatives `D` of the
variables, `fit_errors` succeeds; the deviations are non-negative, their squares are the variances `C i i` of the
parameters and `∑ D v i * C i j * D v j` of the variables. -/
theorem C53_propagation {m n : Nat} (covar dvdp : Mat ℝ) (C : Matrix (Fin n) (Fin n) ℝ)
    (D : Matrix (Fin m) (Fin n) ℝ) (hc : Holds covar C) (hd : Holds dvdp D)
    (hpsd : ∀ x : Fin n → ℝ, 0 ≤ ∑ i, ∑ j, x i * C i j * x j) :
    ∃ dp dvar, fitErrors Real.sqrt covar dvdp = .ok (dp, dvar) ∧ dp.length = n ∧ dvar.length = m ∧
      (∀ i : Fin n, ∃ d, dp[(i : Nat)]? = some d ∧ 0 ≤ d ∧ d ^ 2 = C i i) ∧
      ∀ v : Fin m, ∃ d, dvar[(v : Nat)]? = some d ∧ 0 ≤ d ∧ d ^ 2 = ∑ i, ∑ j, D v i * C i j * D v j := by
  obtain ⟨t, ht, hth⟩ := C48.C48_transposed dvdp D hd
  have hs := C48.C48_sd Real.sqrt covar C hc
  obtain ⟨a, ha, hah⟩ := C48.C48_product dvdp covar D C hd hc
  obtain ⟨b, hb, hbh⟩ := C48.C48_product a t _ _ hah hth
  have hv := C48.C48_sd Real.sqrt b _ hbh
  refine ⟨List.ofFn fun i => √(C i i), List.ofFn fun i => √((D * C * D.transpose) i i), ?_,
    List.length_ofFn, List.length_ofFn, ?_, ?_⟩
  · unfold fitErrors
    rw [ht, Res.bind_ok, hs, Res.bind_ok, ha, Res.bind_ok, hb, Res.bind_ok, hv]
    rfl
  · intro i
    refine ⟨√(C i i), by simp, Real.sqrt_nonneg _, Real.sq_sqrt ?_⟩
    have := hpsd fun j => if j = i then 1 else 0
    simpa using this
  · intro v
    have he : (D * C * D.transpose) v v = ∑ i, ∑ j, D v i * C i j * D v j := by
      rw [Matrix.mul_apply]
      simp only [Matrix.mul_apply, Matrix.transpose_apply, Finset.sum_mul]
      rw [Finset.sum_comm]
    refine ⟨√((D * C * D.transpose) v v), by simp, Real.sqrt_nonneg _, ?_⟩
    rw [he]
    exact Real.sq_sqrt (hpsd _)

/-- `fill_errors` copies the deviation of the constraint into the slots that have one and touches nothing else. -/
theorem C53_fill_errors {K : Type} (refvar : List (Option Nat)) (dvar sds : List K)
    (hl : refvar.length = sds.length) (hr : ∀ v, some v ∈ refvar → v < dvar.length) :
    ∃ out, fillErrors refvar dvar sds = .ok out ∧ out.length = sds.length ∧
      ∀ (k : Nat) (r : Option Nat), refvar[k]? = some r → out[k]? = match r with
        | some v => dvar[v]?
        | none => sds[k]? := by
  obtain ⟨out, h1, h2, h3, h4⟩ := Res.forN_inv
    (fun i (s : List K) => s.length = sds.length ∧ (∀ (k : Nat) (r : Option Nat), k < i → refvar[k]? = some r → s[k]? = match r with
        | some v => dvar[v]?
        | none => sds[k]?) ∧ ∀ k, i ≤ k → s[k]? = sds[k]?) sds.length
    (fun i sds => do
      match ← Res.at? refvar i with
      | none => .ok sds
      | some icon => do
        let x ← Res.at? dvar icon
        Res.wr sds i x) sds ⟨rfl, by intro k r h; omega, fun _ _ => rfl⟩ (by
    intro i s hi ⟨q1, q2, q3⟩
    have hi' : i < refvar.length := by omega
    rw [Res.at?_of_lt hi', Res.bind_ok]
    cases hri : refvar[i] with
    | none =>
      refine ⟨s, rfl, q1, ?_, fun k hk => q3 k (by omega)⟩
      intro k r hk hr'
      by_cases he : k = i
      · subst he
        rw [List.getElem?_eq_getElem hi', hri] at hr'
        cases hr'
        exact q3 k le_rfl
      · exact q2 k r (by omega) hr'
    | some v =>
      have hv : v < dvar.length := hr v (hri ▸ List.getElem_mem hi')
      dsimp only
      rw [Res.at?_of_lt hv, Res.bind_ok, wr_ok (by omega)]
      refine ⟨_, rfl, by simpa using q1, ?_, ?_⟩
      · intro k r hk hr'
        by_cases he : k = i
        · subst he
          rw [List.getElem?_eq_getElem hi', hri] at hr'
          cases hr'
          simp only
          rw [List.getElem?_set_self (by omega), List.getElem?_eq_getElem hv]
        · rw [List.getElem?_set_ne (Ne.symm he)]
          exact q2 k r (by omega) hr'
      · intro k hk
        rw [List.getElem?_set_ne (by omega)]
        exact q3 k (by omega))
  refine ⟨out, h1, h2, fun k r hk => ?_⟩
  exact h3 k r (by rw [← hl]; exact (List.getElem?_eq_some_iff.1 hk).1) hk

/-! ### The covariance matrix of a finished refinement -/

section
variable {K W : Type} [Field K] [LinearOrder K] [IsStrictOrderedRing K]

/-- With non-negative weights, the covariances of the free parameters are the inverse of a symmetric positive
semidefinite matrix. -/
theorem covar_invPSD (th : Theory K W) (hw : ∀ w, ∀ ds ∈ th.pts w, ∀ pt ∈ ds, 0 ≤ pt.w) (toler : K) (s : Statics K)
    (e : Eng K W) (hfresh : ¬ (s.fitRunning = true ∧ e.iter ≠ 0)) (fuel : Nat)
    (hd : (refineLoop th toler fuel (s, e)).2.1 = .done) :
    let r := (refineLoop th toler fuel (s, e)).1.2
    let n := r.par.p.length
    (∃ A, InvPSD ((Finset.range n).filter (fun j => C14.free r.par j)) A r.covar) ∧
    ∀ i k, i < n → k < n → ¬ (C14.free r.par i ∧ C14.free r.par k) → r.covar i k = 0 := by
  obtain ⟨dss, ⟨w0, w1, -, hdss⟩, h⟩ := C14.C14_covariance_is_inverse_curvature th toler s e hfresh fuel hd
  dsimp only
  refine ⟨⟨C14.curvature dss, ?_, ?_, ?_⟩, fun i k hi hk => (h i k hi hk).2⟩
  · intro i _ j _
    unfold C14.curvature
    congr 1
    exact List.map_congr_left fun pt _ => by ring
  · intro y
    unfold C14.curvature
    rw [quad_points]
    refine List.sum_nonneg fun x hx => ?_
    obtain ⟨pt, hpt, rfl⟩ := List.mem_map.1 hx
    obtain ⟨ds, h1, h2⟩ := List.mem_flatten.1 hpt
    exact mul_nonneg (hw w1 ds (hdss ▸ h1) pt h2) (sq_nonneg _)
  · intro i hi k hk
    simp only [Finset.mem_filter, Finset.mem_range] at hi hk
    exact (h i k hi.1 hk.1).1 ⟨hi.2, hk.2⟩

/-- **C53** (covariances) When `refine()` finishes and no weight is negative, the covariance matrix is symmetric, its
quadratic form is never negative, variances of free parameters are positive, those of fixed parameters zero, and no
covariance exceeds the product of the standard deviations. -/
theorem C53_covariance (th : Theory K W) (hw : ∀ w, ∀ ds ∈ th.pts w, ∀ pt ∈ ds, 0 ≤ pt.w) (toler : K)
    (s : Statics K) (e : Eng K W) (hfresh : ¬ (s.fitRunning = true ∧ e.iter ≠ 0)) (fuel : Nat)
    (hd : (refineLoop th toler fuel (s, e)).2.1 = .done) :
    let r := (refineLoop th toler fuel (s, e)).1.2
    let n := r.par.p.length
    (∀ i k, i < n → k < n → r.covar i k = r.covar k i) ∧
    (∀ x : Nat → K, 0 ≤ ∑ i ∈ Finset.range n, ∑ k ∈ Finset.range n, x i * r.covar i k * x k) ∧
    (∀ i, i < n → if C14.free r.par i then 0 < r.covar i i else r.covar i i = 0) ∧
    (∀ i k, i < n → k < n → r.covar i k ^ 2 ≤ r.covar i i * r.covar k k) := by
  obtain ⟨⟨A, hA⟩, hz⟩ := covar_invPSD th hw toler s e hfresh fuel hd
  dsimp only at hA hz ⊢
  generalize (refineLoop th toler fuel (s, e)).1.2 = r at hA hz ⊢
  have hm : ∀ i, i < r.par.p.length → C14.free r.par i →
      i ∈ (Finset.range r.par.p.length).filter (fun j => C14.free r.par j) := by
    intro i h1 h2; simp [h1, h2]
  refine ⟨?_, ?_, ?_, ?_⟩
  · intro i k hi hk
    by_cases hf : C14.free r.par i ∧ C14.free r.par k
    · exact hA.csymm (hm i hi hf.1) (hm k hk hf.2)
    · rw [hz i k hi hk hf, hz k i hk hi fun h => hf ⟨h.2, h.1⟩]
  · intro x
    have h1 := hA.cpsd x
    rw [Finset.sum_filter_of_ne] at h1
    · convert h1 using 1
      refine Finset.sum_congr rfl fun i hi => (Finset.sum_filter_of_ne ?_).symm
      intro k hk hne
      by_contra hf
      exact hne (by rw [hz i k (by simpa using hi) (by simpa using hk) fun h => hf h.2]; ring)
    · intro i hi hne
      by_contra hf
      refine hne (Finset.sum_eq_zero fun k hk => ?_)
      simp only [Finset.mem_filter, Finset.mem_range] at hk
      rw [hz i k (by simpa using hi) hk.1 fun h => hf h.1]; ring
  · intro i hi
    split
    · rename_i hf; exact hA.diag_pos (hm i hi hf)
    · rename_i hf; exact hz i i hi hi fun h => hf h.1
  · intro i k hi hk
    by_cases hf : C14.free r.par i ∧ C14.free r.par k
    · exact hA.sq_le (hm i hi hf.1) (hm k hk hf.2)
    · rw [hz i k hi hk hf]
      by_cases h1 : C14.free r.par i
      · rw [hz k k hk hk fun h => hf ⟨h1, h.1⟩]; simp
      · rw [hz i i hi hi fun h => h1 h.1]; simp

end

/-! ### The refinement machine with constraints -/

section
variable {F K C : Type}

/-- The constraint uses a free parameter. -/
def UsesFree (uses : F → List Nat) (par : ParStore K) (c : Constr F) : Prop :=
  ∃ n ∈ C08.usesOf uses c, ∃ j, par.parfind n = some j ∧ C14.free par j

/-- Same identifiers and flags, other values. -/
structure Same (p0 par : ParStore K) : Prop where
  id : par.id = p0.id
  ip : par.ip = p0.ip
  len : par.p.length = p0.p.length

theorem Same.usesFree {p0 par : ParStore K} (h : Same p0 par) (uses : F → List Nat) (c : Constr F) :
    UsesFree uses par c ↔ UsesFree uses p0 c := by
  unfold UsesFree C14.free ParStore.parfind
  rw [h.id, h.ip]

theorem Same.wf {p0 par : ParStore K} (h : Same p0 par) (hw : p0.Wf) : par.Wf := by
  obtain ⟨h1, h2, h3⟩ := hw
  refine ⟨?_, ?_, ?_⟩ <;> simp [h.id, h.ip, h.len, h1, h2, h3]

theorem usesFree_core {uses : F → List Nat} {par : ParStore K} {c c' : Constr F} (h : c.core = c'.core) :
    UsesFree uses par c ↔ UsesFree uses par c' := by
  unfold UsesFree
  rw [C08.usesOf_core h]

variable [Field K]

theorem Same.inv {p0 par : ParStore K} (h : Same p0 par) {uses : F → List Nat} {cons : List (Constr F)}
    {m : Mat K} (hi : C08.Inv uses ⟨p0, cons, m⟩) : C08.Inv uses ⟨par, cons, m⟩ := by
  refine ⟨h.wf hi.wf, hi.m, hi.rows, ?_, ?_⟩
  · have := hi.cols
    dsimp only at this ⊢
    rw [h.len]; exact this
  · have := hi.ent
    dsimp only at this ⊢
    rw [h.id]; exact this

omit [Field K] in
theorem Same.symm {p0 par : ParStore K} (h : Same p0 par) : Same par p0 := ⟨h.id.symm, h.ip.symm, h.len.symm⟩

theorem cmark_vref {parse : FParser F K} {uses : F → List Nat} (hu : C08.ParserUses parse uses)
    {par : ParStore K} (hw : par.Wf) {c : Constr F} (h : ∃ r, cres parse par c = .ok r) :
    (cmark parse par c).vref = true ↔ UsesFree uses par c := by
  obtain ⟨r, hr⟩ := h
  unfold cmark
  rw [hr]
  dsimp only
  unfold UsesFree C08.usesOf C14.free
  unfold cres at hr
  cases hf : c.form with
  | some f =>
    simp only [hf] at hr ⊢
    cases hpf : parse f par with
    | error x => simp [hpf] at hr
    | ok q =>
      obtain ⟨x, ders⟩ := q
      simp only [hpf, Except.ok.injEq] at hr
      subst hr
      have h1 := (hu f par x ders hw hpf).2
      simp only [List.any_eq_true]
      constructor
      · rintro ⟨e, he, hfr⟩
        obtain ⟨n, hn, hj⟩ := (h1 e.1).1 (List.mem_map_of_mem he)
        exact ⟨n, hn, e.1, hj, hfr⟩
      · rintro ⟨n, hn, j, hj, hfr⟩
        obtain ⟨e, he, rfl⟩ := List.mem_map.1 ((h1 j).2 ⟨n, hn, hj⟩)
        exact ⟨e, he, hfr⟩
  | none =>
    simp only [hf] at hr ⊢
    cases hpf : par.parfind (toUnsigned c.idef) with
    | none => simp [hpf] at hr
    | some j =>
      simp only [hpf] at hr
      have hr2 : r.2.1 = par.ip.getD j false := by
        split at hr <;> · cases hr; rfl
      obtain ⟨a, b, d⟩ := r
      dsimp only at hr2 ⊢
      rw [hr2]
      simp [hpf]

variable [LinearOrder K] [IsStrictOrderedRing K] [FloorRing K]
set_option linter.unusedSectionVars false

/-- What a successful `fill_variables` leaves behind. -/
theorem fill_settle {parse : FParser F K} {uses : F → List Nat} (hp : ParserOK parse)
    (hu : C08.ParserUses parse uses) {par : ParStore K} {cons : List (Constr F)} {m : Mat K} {v : Nat → K}
    (hi : C08.Inv uses ⟨par, cons, m⟩) (hok : (fillVariables parse par cons v m).2.2.2 = none) :
    let r := fillVariables parse par cons v m
    C08.Inv uses ⟨par, r.1, r.2.2.1⟩ ∧ r.1 = cons.map (cmark parse par) ∧
    (∀ c ∈ r.1, c.vref = true ↔ UsesFree uses par c) ∧
    r.2.2.1.rows = r.1.length ∧ r.2.2.1.cols = par.p.length := by
  have hinv := C08.exec_inv hp hu hi (.eval v) (by simp) (by simp)
  have hall : ∀ c ∈ cons, ∃ r, cres parse par c = .ok r := by
    by_contra hne
    obtain ⟨l, c0, r, x0, m', f1, f2, f3, e1, -⟩ := fillVariables_err hp hi.wf cons v m hi.m hne
    dsimp only at e1
    rw [e1] at hok
    simp at hok
  obtain ⟨m', e1, e2, e3, -, -⟩ := fillVariables_ok hp hi.wf cons v m hi.m hall
  dsimp only at e1 e2 e3
  simp only [CState.exec, e1] at hinv
  dsimp only
  rw [e1]
  refine ⟨hinv, rfl, ?_, by simpa using e2, e3⟩
  intro c hc
  obtain ⟨c0, h0, rfl⟩ := List.mem_map.1 hc
  rw [cmark_vref hu hi.wf (hall c0 h0)]
  exact (usesFree_core (cmark_core parse par c0)).symm

theorem map_cmark_settled {parse : FParser F K} {uses : F → List Nat} {par : ParStore K} (cons : List (Constr F))
    (h1 : ∀ c ∈ cons, c.vref = true ↔ UsesFree uses par c)
    (h2 : ∀ c ∈ cons.map (cmark parse par), c.vref = true ↔ UsesFree uses par c) :
    cons.map (cmark parse par) = cons := by
  conv_rhs => rw [← List.map_id cons]
  refine List.map_congr_left fun c hc => ?_
  have h3 := h2 _ (List.mem_map_of_mem hc)
  rw [usesFree_core (cmark_core parse par c), ← h1 c hc] at h3
  have h4 : (cmark parse par c).vref = c.vref := by
    cases hb : c.vref <;> simp [hb] at h3 ⊢ <;> exact h3
  unfold cmark at h4 ⊢
  split
  · rename_i hr
    rw [hr] at h4
    dsimp only at h4
    rw [h4]
    rfl
  · rename_i hr
    split at h4
    · rename_i hr'
      exact absurd hr' (hr _ _ _)
    · dsimp only at h4
      rw [h4]
      rfl

theorem fitTheory_none {S : CStatic F K C} {par : ParStore K} {w w' : CWorld F K C}
    (h : (constrTheory S).eval par w = (w', none)) :
    let r := fillVariables S.parse par w.cons w.vars w.dvdp
    r.2.2.2 = none ∧ w'.cons = r.1 ∧ w'.dvdp = r.2.2.1 ∧ w'.refvar = w.refvar := by
  simp only [constrTheory, fitTheory, Prod.mk.injEq, Option.map_eq_none_iff] at h
  obtain ⟨h1, h2⟩ := h
  split at h2
  · simp at h2
  · rename_i hn
    dsimp only
    rw [hn] at h1
    dsimp only at h1
    refine ⟨hn, ?_, ?_, ?_⟩ <;> rw [← h1]

theorem fitSetup_none {S : CStatic F K C} {par : ParStore K} {w w' : CWorld F K C}
    (h : (constrTheory S).setup par w = (w', none)) :
    let r := fillVariables S.parse par w.cons w.vars w.dvdp
    r.2.2.2 = none ∧ w'.cons = r.1 ∧ w'.dvdp = r.2.2.1 ∧ w'.refvar = S.slots.map (vfind r.1) := by
  simp only [constrTheory, fitSetup, Prod.mk.injEq, Option.map_eq_none_iff] at h
  obtain ⟨h1, h2⟩ := h
  split at h2
  · simp at h2
  · rename_i hn
    dsimp only
    rw [hn] at h1
    dsimp only at h1 h2
    split at h2
    · simp at h2
    · rename_i hl
      rw [if_neg hl] at h1
      dsimp only at h1
      refine ⟨hn, ?_, ?_, ?_⟩ <;> rw [← h1]

/-- World in the middle of a refinement. -/
structure Mid (S : CStatic F K C) (uses : F → List Nat) (p0 : ParStore K) (cs : List (Constr F))
    (w : CWorld F K C) : Prop where
  inv : C08.Inv uses ⟨p0, w.cons, w.dvdp⟩
  flags : ∀ c ∈ w.cons, c.vref = true ↔ UsesFree uses p0 c
  refvar : w.refvar = S.slots.map (vfind w.cons)
  rows : w.dvdp.rows = w.cons.length
  cols : w.dvdp.cols = p0.p.length
  core : w.cons.map Constr.core = cs.map Constr.core

theorem mid_of_fill {S : CStatic F K C} {uses : F → List Nat} (hp : ParserOK S.parse)
    (hu : C08.ParserUses S.parse uses) {p0 par : ParStore K} (hs : Same p0 par) {w w' : CWorld F K C}
    {cs : List (Constr F)} (hcs : w.cons.map Constr.core = cs.map Constr.core) (hi : C08.Inv uses ⟨p0, w.cons, w.dvdp⟩)
    (h1 : (fillVariables S.parse par w.cons w.vars w.dvdp).2.2.2 = none)
    (h2 : w'.cons = (fillVariables S.parse par w.cons w.vars w.dvdp).1)
    (h3 : w'.dvdp = (fillVariables S.parse par w.cons w.vars w.dvdp).2.2.1)
    (h4 : w'.refvar = S.slots.map (vfind w'.cons)) : Mid S uses p0 cs w' := by
  obtain ⟨q1, q2, q3, q4, q5⟩ := fill_settle hp hu (hs.inv hi) h1
  rw [← h2] at q1 q2 q3 q4
  rw [← h3] at q1 q4 q5
  exact ⟨hs.symm.inv q1, fun c hc => by rw [q3 c hc, hs.usesFree], h4, q4, by rw [q5, hs.len], by
    rw [q2, List.map_map, ← hcs]
    exact List.map_congr_left fun c _ => cmark_core _ _ c⟩

theorem mid_final {S : CStatic F K C} {uses : F → List Nat} (hp : ParserOK S.parse)
    (hu : C08.ParserUses S.parse uses) (toler : K) (s : Statics K) (e : Eng K (CWorld F K C))
    (hi : C08.Inv uses ⟨e.par, e.world.cons, e.world.dvdp⟩)
    (hfresh : ¬ (s.fitRunning = true ∧ e.iter ≠ 0)) (fuel : Nat)
    (hd : (refineLoop (constrTheory S) toler fuel (s, e)).2.1 = .done) :
    let r := (refineLoop (constrTheory S) toler fuel (s, e)).1.2
    Same e.par r.par ∧ Mid S uses e.par e.world.cons r.world ∧
      ∃ w, Mid S uses e.par e.world.cons w ∧ (constrTheory S).eval r.par w = (r.world, none) := by
  refine refineLoop_good (Q := Same e.par) (P := Mid S uses e.par e.world.cons)
    (P0 := fun w => C08.Inv uses ⟨e.par, w.cons, w.dvdp⟩ ∧ w.cons.map Constr.core = e.world.cons.map Constr.core)
    ?_ ?_ (fun w h => ⟨h.inv, h.core⟩) ?_ toler fuel s e
    ⟨rfl, rfl, rfl⟩ ⟨fun h => absurd h hfresh, hi, rfl⟩ hd
  · intro e' a h
    exact ⟨h.id, h.ip, by simp [Eng.setP, Eng.ma, h.len]⟩
  · intro par w w' hs hm h
    obtain ⟨h1, h2, h3, h4⟩ := fitTheory_none h
    refine mid_of_fill hp hu hs hm.core hm.inv h1 h2 h3 ?_
    rw [h4, hm.refvar]
    obtain ⟨-, q2, q3, -⟩ := fill_settle hp hu (hs.inv hm.inv) h1
    rw [q2] at q3
    have := map_cmark_settled w.cons (fun c hc => by rw [hm.flags c hc, hs.usesFree]) q3
    rw [h2, q2, this]
  · intro par w w' hs hm h
    obtain ⟨h1, h2, h3, h4⟩ := fitSetup_none h
    exact mid_of_fill hp hu hs hm.2 hm.1 h1 h2 h3 (by rw [h4, h2])

end

section
variable {F C : Type}

theorem vfind_lt {cs : List (Constr F)} {a v : Nat} (h : vfind cs a = some v) : v < cs.length := by
  unfold vfind at h
  split at h
  · simp at h
  · rename_i i hi
    split at h
    · cases h
      exact (List.findIdx?_eq_some_iff_getElem.1 hi).1
    · simp at h

/-- **C53** (no replaced constraint) Take any history of calls without replaced constraints, followed by a `refine()`
that finishes; no weight is negative.  Then the error calculation after the refinement succeeds, and

* the constraints are still those that were set;
* the deviation of a free parameter is positive, that of a fixed one is zero, and its square is the variance;
* the deviation of the variable of each constraint is non-negative and its square is
  `∑ ∂v/∂pᵢ · Cᵢⱼ · ∂v/∂pⱼ` over the free parameters, with the derivatives of the constraint at the final
  parameters;
* the deviation of a variable in the object is that of its first constraint if this uses a free parameter;
* the deviations of all other variables **stay what they were** (see `C53_stale_deviation`);
* the correlation of two free parameters is between -1 and 1. -/
theorem C53_deviations_partial (S : CStatic F ℝ C) (uses : F → List Nat) (hp : ParserOK S.parse)
    (hu : C08.ParserUses S.parse uses) (hw : ∀ c, ∀ ds ∈ S.pts c, ∀ pt ∈ ds, 0 ≤ pt.w) (toler : ℝ)
    (ops : List (COp F ℝ)) (hn : C08.NoRepl S.parse {} ops) (s : Statics ℝ) (e : Eng ℝ (CWorld F ℝ C))
    (hst : CState.run S.parse {} ops = ⟨e.par, e.world.cons, e.world.dvdp⟩)
    (hfresh : ¬ (s.fitRunning = true ∧ e.iter ≠ 0)) (fuel : Nat)
    (hd : (refineLoop (constrTheory S) toler fuel (s, e)).2.1 = .done) :
    let r := (refineLoop (constrTheory S) toler fuel (s, e)).1.2
    let n := r.par.p.length
    let free := (Finset.range n).filter (fun j => C14.free r.par j)
    ∃ dp dvar, fitErrors Real.sqrt (covarMat n r.covar) r.world.dvdp = .ok (dp, dvar) ∧
      dp.length = n ∧ dvar.length = r.world.cons.length ∧
      r.world.cons.map Constr.core = e.world.cons.map Constr.core ∧
      (∀ i, i < n → ∃ d, dp[i]? = some d ∧ d ^ 2 = r.covar i i ∧ if C14.free r.par i then 0 < d else d = 0) ∧
      (∀ (v : Nat) c, r.world.cons[v]? = some c → c.assigns → ∃ d, dvar[v]? = some d ∧ 0 ≤ d ∧
        d ^ 2 = ∑ i ∈ free, ∑ j ∈ free,
          C08.deriv S.parse r.par c i * r.covar i j * C08.deriv S.parse r.par c j) ∧
      (∀ sds : List ℝ, sds.length = S.slots.length →
        ∃ out, fillErrors r.world.refvar dvar sds = .ok out ∧ out.length = sds.length ∧
          ∀ (k a : Nat), S.slots[k]? = some a →
            (∀ (v : Nat) c, r.world.cons.findIdx? (fun c => c.addr == a) = some v → r.world.cons[v]? = some c →
              UsesFree uses r.par c → out[k]? = dvar[v]?) ∧
            ((∀ (v : Nat) c, r.world.cons.findIdx? (fun c => c.addr == a) = some v → r.world.cons[v]? = some c →
              ¬ UsesFree uses r.par c) → out[k]? = sds[k]?)) ∧
      (∀ i k, i < n → k < n → C14.free r.par i → C14.free r.par k →
        |corr r.covar (fun j => dp.getD j 0) i k| ≤ 1) := by
  have hinv0 := C08.inv_run hp hu ops hn
  rw [hst] at hinv0
  obtain ⟨hsame, hmid, w, hmw, hev⟩ := mid_final hp hu toler s e hinv0 hfresh fuel hd
  obtain ⟨c1, c2, c3, c4⟩ := C53_covariance (constrTheory S) (fun w => hw w.curve) toler s e hfresh fuel hd
  obtain ⟨-, hz⟩ := covar_invPSD (constrTheory S) (fun w => hw w.curve) toler s e hfresh fuel hd
  dsimp only at hsame hmid hev c1 c2 c3 c4 hz ⊢
  generalize (refineLoop (constrTheory S) toler fuel (s, e)).1.2 = r at hsame hmid hev c1 c2 c3 c4 hz ⊢
  have hcols : r.world.dvdp.cols = r.par.p.length := by rw [hmid.cols, hsame.len]
  -- the derivative matrix
  have hD : Holds r.world.dvdp (fun (v : Fin r.world.cons.length) (j : Fin r.par.p.length) =>
      (r.world.dvdp.ent v j).getD 0) := by
    refine ⟨hmid.rows, hcols, hmid.inv.m, fun v j => ?_⟩
    obtain ⟨x, g1, g2⟩ := Mat.get_ok hmid.inv.m (i := v) (j := j) (by rw [hmid.rows]; exact v.2)
      (by rw [hcols]; exact j.2)
    rw [g1]
    unfold Mat.ent
    rw [g2]
    rfl
  have hder : ∀ (v : Nat) c (j : Nat), r.world.cons[v]? = some c → c.assigns → j < r.par.p.length →
      C14.free r.par j → (r.world.dvdp.ent v j).getD 0 = C08.deriv S.parse r.par c j := by
    intro v c j hc ha hj hf
    obtain ⟨h1, h2, h3, -⟩ := fitTheory_none hev
    have h5 := C08.deriv_of_inv hp hu w.vars ⟨r.par, w.cons, w.dvdp⟩ _ (hsame.inv hmw.inv) rfl h1 v j c
      (by simp only [CState.exec]; rw [← h2]; exact hc) ha hj
      (by
        simp only [CState.exec]
        unfold C14.free at hf
        rw [List.getD] at hf
        cases hq : r.par.ip[j]? with
        | none => simp [hq] at hf
        | some b => rw [hq] at hf; simpa using hf)
    have h6 := h5.1
    simp only [CState.exec] at h6
    rw [← h3] at h6
    have h7 := hD.get ⟨v, (List.getElem?_eq_some_iff.1 hc).1⟩ ⟨j, hj⟩
    rw [h6] at h7
    simpa using h7.symm
  obtain ⟨dp, dvar, f1, f2, f3, f4, f5⟩ := C53_propagation (covarMat r.par.p.length r.covar) r.world.dvdp _ _
    (covarMat_holds _ _) hD (by
      intro x
      have := c2 fun j => if h : j < r.par.p.length then x ⟨j, h⟩ else 0
      rw [Finset.sum_range] at this
      simpa [Finset.sum_range] using this)
  have hdp : ∀ i, i < r.par.p.length → ∃ d, dp[i]? = some d ∧ d ^ 2 = r.covar i i ∧
      if C14.free r.par i then 0 < d else d = 0 := by
    intro i hi
    obtain ⟨d, g1, g2, g3⟩ := f4 ⟨i, hi⟩
    dsimp only at g1 g3
    refine ⟨d, g1, g3, ?_⟩
    have := c3 i hi
    split
    · rename_i hf
      rw [if_pos hf, ← g3] at this
      exact lt_of_le_of_ne g2 fun h => by rw [← h] at this; simp at this
    · rename_i hf
      rw [if_neg hf, ← g3] at this
      exact pow_eq_zero_iff (two_ne_zero) |>.1 this
  refine ⟨dp, dvar, f1, f2, f3, hmid.core, hdp, ?_, ?_, ?_⟩
  · intro v c hc ha
    have hv := (List.getElem?_eq_some_iff.1 hc).1
    obtain ⟨d, g1, g2, g3⟩ := f5 ⟨v, hv⟩
    refine ⟨d, g1, g2, ?_⟩
    rw [g3]
    have hrow : ∀ i, i < r.par.p.length →
        ∑ j : Fin r.par.p.length, (r.world.dvdp.ent v i).getD 0 * r.covar i j * (r.world.dvdp.ent v j).getD 0 =
        ∑ j ∈ (Finset.range r.par.p.length).filter (fun j => C14.free r.par j),
          (r.world.dvdp.ent v i).getD 0 * r.covar i j * C08.deriv S.parse r.par c j := by
      intro i hi
      rw [← Finset.sum_range fun j => (r.world.dvdp.ent v i).getD 0 * r.covar i j * (r.world.dvdp.ent v j).getD 0,
        ← Finset.sum_filter_of_ne (p := fun j => C14.free r.par j)]
      · refine Finset.sum_congr rfl fun j hj => ?_
        simp only [Finset.mem_filter, Finset.mem_range] at hj
        rw [hder v c j hc ha hj.1 hj.2]
      · intro j hj hne
        by_contra hf
        exact hne (by rw [hz i j hi (by simpa using hj) fun h => hf h.2]; ring)
    rw [Finset.sum_congr rfl fun (i : Fin r.par.p.length) _ => hrow i i.2,
      ← Finset.sum_range fun i => ∑ j ∈ (Finset.range r.par.p.length).filter (fun j => C14.free r.par j),
          (r.world.dvdp.ent v i).getD 0 * r.covar i j * C08.deriv S.parse r.par c j,
      ← Finset.sum_filter_of_ne (p := fun j => C14.free r.par j)]
    · refine Finset.sum_congr rfl fun i hi => ?_
      simp only [Finset.mem_filter, Finset.mem_range] at hi
      rw [hder v c i hc ha hi.1 hi.2]
    · intro i hi hne
      by_contra hf
      refine hne (Finset.sum_eq_zero fun j hj => ?_)
      simp only [Finset.mem_filter, Finset.mem_range] at hj
      rw [hz i j (by simpa using hi) hj.1 fun h => hf h.1]; ring
  · intro sds hsds
    obtain ⟨out, o1, o2, o3⟩ := C53_fill_errors r.world.refvar dvar sds
      (by rw [hmid.refvar, hsds]; simp) (by
        intro v hv
        rw [hmid.refvar, List.mem_map] at hv
        obtain ⟨a, -, ha⟩ := hv
        rw [f3]
        exact vfind_lt ha)
    refine ⟨out, o1, o2, fun k a hk => ?_⟩
    have o4 := o3 k (vfind r.world.cons a) (by rw [hmid.refvar, List.getElem?_map, hk]; rfl)
    constructor
    · intro v c hv hc hf
      have hvr := (hmid.flags c (List.mem_of_getElem? hc)).2 ((hsame.usesFree uses c).1 hf)
      have : vfind r.world.cons a = some v := by
        unfold vfind; rw [hv]; simp [hc, hvr]
      rw [this] at o4
      exact o4
    · intro hno
      have : vfind r.world.cons a = none := by
        unfold vfind
        split
        · rfl
        · rename_i v hv
          have hlt := (List.findIdx?_eq_some_iff_getElem.1 hv).1
          have h1 := hno v _ hv (List.getElem?_eq_getElem hlt)
          rw [hsame.usesFree, ← hmid.flags _ (List.getElem_mem hlt)] at h1
          simp [List.getElem?_eq_getElem hlt, h1]
      rw [this] at o4
      exact o4
  · intro i k hi hk fi fk
    obtain ⟨d, g1, g2, g3⟩ := hdp i hi
    obtain ⟨d', g1', g2', g3'⟩ := hdp k hk
    rw [if_pos fi] at g3
    rw [if_pos fk] at g3'
    unfold corr
    simp only [List.getD, g1, g1', Option.getD_some]
    have h1 := c4 i k hi hk
    rw [← g2, ← g2', ← mul_pow] at h1
    have h2 := abs_le_of_sq_le_sq h1 (mul_pos g3 g3').le
    rw [div_div, abs_div, abs_of_pos (mul_pos g3 g3'), div_le_one (mul_pos g3 g3')]
    exact h2

end

/-! ### Violations -/

/-- **C53 violated** (1): a deviation is never cleared.  The variable at address 7 is refined with deviation 1/2; then
its parameter is fixed and another one, for address 8, refined.  The constraint for 7 has no free parameter any more, so
its slot has no entry in `refvar`, and the deviation 1/2 stays although the variable was not refined. -/
theorem C53_stale_deviation :
    let s := CState.run C08.parse0 {} [.setpar 1 (1/2), .setpar 2 3, .int 7 1 .ident, .int 8 2 .ident,
      .eval (fun _ => 0), .flag 1 false, .eval (fun _ => 0)]
    s.par.ip = [false, true] ∧ [7, 8].map (vfind s.cons) = [none, some 1] ∧
    fillErrors ([7, 8].map (vfind s.cons)) [0, 3] [1/2, 1/5] = .ok [1/2, 3] := by
  decide +kernel

/-- **C53 violated** (2): after replacing `x = @1` by `x = @2` the stored derivatives are those of `@1 + @2` (C08); with
the covariance matrix `[[9, 0], [0, 16]]` the variance of `x` becomes 25 instead of 16. -/
theorem C53_replaced_constraint :
    let s := CState.run C08.parse0 {} [.setpar 1 (1/2), .setpar 2 3, .str 7 (some (1, 1)), .eval (fun _ => 0),
      .str 7 (some (2, 1)), .eval (fun _ => 0)]
    s.cons.map Constr.form = [some (2, 1)] ∧
    fitErrors id (covarMat 2 fun i j => if i = j then if i = 0 then 9 else 16 else 0) s.dvdp =
      .ok ([9, 16], [25]) := by
  decide +kernel

/-! ### Non-trivial case

One data point with weight 4; the variable at address 7 is the calculated value and constrained to parameter 1. -/

theorem demo_uses : C08.ParserUses (C54.demoS ℝ).parse (fun _ => []) := by
  intro f par x ders _ h
  cases h

/-- The hypotheses of `C53_deviations_partial` hold for a refinement over the real numbers, from every starting value. -/
example (x toler : ℝ) : let S := C54.demoS ℝ
    let ops : List (COp Unit ℝ) := [.setpar 1 x, .setpar 2 2, .flag 2 false, .int 7 1 .ident]
    let e := C54.demoE x false
    ParserOK S.parse ∧ C08.ParserUses S.parse (fun _ => []) ∧
    (∀ c, ∀ ds ∈ S.pts c, ∀ pt ∈ ds, 0 ≤ pt.w) ∧ C08.NoRepl S.parse {} ops ∧
    CState.run S.parse {} ops = ⟨e.par, e.world.cons, e.world.dvdp⟩ ∧
    (refineLoop (constrTheory S) toler 101 ({}, e)).2.1 = .done := by
  refine ⟨C54.demo_parserOK ℝ, demo_uses, ?_, ?_, rfl, C54.demo_finishes x toler 101 le_rfl⟩
  · intro c ds hds pt hpt
    simp only [C54.demoS, List.mem_singleton] at hds
    subst hds
    simp only [List.mem_singleton] at hpt
    subst hpt
    norm_num
  · refine ⟨by simp, by simp, by simp, by simp, by simp, by simp, by simp, fun a i t h => ?_, trivial⟩
    cases h
    rfl

/-- There the standard deviations are 1/2 for the free parameter, 0 for the fixed one, and 1/2 for the variable,
whatever value its slot had before. -/
example (x toler old : ℝ) :
    let r := (refineLoop (constrTheory (C54.demoS ℝ)) toler 101 ({}, C54.demoE x false)).1.2
    ∃ dp dvar, fitErrors Real.sqrt (covarMat 2 r.covar) r.world.dvdp = .ok (dp, dvar) ∧
      dp[0]? = some (1 / 2) ∧ dp[1]? = some 0 ∧ fillErrors r.world.refvar dvar [old] = .ok [1 / 2] := by
  have hd := C54.demo_finishes x toler 101 le_rfl
  have hw : ∀ c, ∀ ds ∈ (C54.demoS ℝ).pts c, ∀ pt ∈ ds, 0 ≤ pt.w := by
    intro c ds hds pt hpt
    simp only [C54.demoS, List.mem_singleton] at hds
    subst hds
    simp only [List.mem_singleton] at hpt
    subst hpt
    norm_num
  have hn : C08.NoRepl (C54.demoS ℝ).parse {} [.setpar 1 x, .setpar 2 2, .flag 2 false, .int 7 1 .ident] := by
    refine ⟨by simp, by simp, by simp, by simp, by simp, by simp, by simp, fun a i t h => ?_, trivial⟩
    cases h
    rfl
  obtain ⟨dp, dvar, h1, h2, h3, hcore, h4, h5, h6, -⟩ := C53_deviations_partial (C54.demoS ℝ) (fun _ => [])
    (C54.demo_parserOK ℝ) demo_uses hw toler _ hn {} (C54.demoE x false) rfl (by simp) 101 hd
  obtain ⟨hsame, hmid, -⟩ := mid_final (C54.demo_parserOK ℝ) demo_uses toler {} (C54.demoE x false)
    (by
      have := C08.inv_run (C54.demo_parserOK ℝ) demo_uses _ hn
      exact this) (by simp) 101 hd
  obtain ⟨dss, ⟨w0, w1, -, hdss⟩, hc⟩ := C14.C14_covariance_is_inverse_curvature (constrTheory (C54.demoS ℝ)) toler {}
    (C54.demoE x false) (by simp) 101 hd
  dsimp only at *
  generalize (refineLoop (constrTheory (C54.demoS ℝ)) toler 101 ({}, C54.demoE x false)).1.2 = r at *
  have hlen : r.par.p.length = 2 := hsame.len
  have hip : r.par.ip = [true, false] := hsame.ip
  have hid : r.par.id = [1, 2] := hsame.id
  have f0 : C14.free r.par 0 := by unfold C14.free; rw [hip]; rfl
  have f1 : ¬ C14.free r.par 1 := by unfold C14.free; rw [hip]; simp
  rw [hlen] at h1 h4 h5 hc
  have hfilt : (Finset.range 2).filter (fun j => C14.free r.par j) = {0} := by
    ext j
    simp only [Finset.mem_filter, Finset.mem_range, Finset.mem_singleton]
    constructor
    · rintro ⟨g1, g2⟩
      interval_cases j
      · rfl
      · exact absurd g2 f1
    · rintro rfl; exact ⟨by omega, f0⟩
  have hcov : r.covar 0 0 = 1 / 4 := by
    have := (hc 0 0 (by omega) (by omega)).1 ⟨f0, f0⟩
    rw [hfilt, Finset.sum_singleton, if_pos rfl, ← hdss] at this
    simp only [C14.curvature, constrTheory, C54.demoS, List.flatten_cons, List.flatten_nil, List.append_nil,
      List.map_cons, List.map_nil, List.sum_cons, List.sum_nil, if_true] at this
    linarith
  have hsq : ∀ d : ℝ, 0 ≤ d → d ^ 2 = 1 / 4 → d = 1 / 2 := by
    intro d g1 g2
    nlinarith
  refine ⟨dp, dvar, h1, ?_, ?_, ?_⟩
  · obtain ⟨d, g1, g2, g3⟩ := h4 0 (by omega)
    rw [if_pos f0] at g3
    rw [g1, hsq d g3.le (by rw [g2, hcov])]
  · obtain ⟨d, g1, g2, g3⟩ := h4 1 (by omega)
    rw [if_neg f1] at g3
    rw [g1, g3]
  · -- the only constraint
    have hcs : ∃ c, r.world.cons = [c] ∧ c.core = (7, none, 1, .ident) := by
      have hl := congrArg List.length hcore
      simp only [List.length_map] at hl
      match hr : r.world.cons, hl with
      | [c], _ =>
        rw [hr] at hcore
        refine ⟨c, rfl, ?_⟩
        have := List.head_eq_of_cons_eq hcore
        exact this
    obtain ⟨c, hcons, hcc⟩ := hcs
    have hform : c.form = none := congrArg (·.2.1) hcc
    have hidef : c.idef = 1 := congrArg (·.2.2.1) hcc
    have hty : c.ctype = .ident := congrArg (·.2.2.2) hcc
    have haddr : c.addr = 7 := congrArg (·.1) hcc
    have hpf : r.par.parfind (toUnsigned 1) = some 0 := by
      unfold ParStore.parfind; rw [hid]; decide
    obtain ⟨d, g1, g2, g3⟩ := h5 0 c (by rw [hcons]; rfl) (by unfold Constr.assigns; rw [hty]; simp)
    have hder : C08.deriv (C54.demoS ℝ).parse r.par c 0 = 1 := by
      unfold C08.deriv
      simp only [hform, hidef, hpf, hty, if_true]
    rw [hfilt, Finset.sum_singleton, Finset.sum_singleton, hder, hcov] at g3
    have hd2 := hsq d g2 (by rw [g3]; norm_num)
    obtain ⟨out, o1, o2, o3⟩ := h6 [old] rfl
    have o4 := (o3 0 7 rfl).1 0 c (by rw [hcons]; simp [haddr]) (by rw [hcons]; rfl)
      ⟨1, by unfold C08.usesOf; rw [hform, hidef]; decide, 0, hpf, f0⟩
    rw [o1]
    match out, o2 with
    | [y], _ =>
      rw [g1, hd2] at o4
      simp only [List.getElem?_cons_zero, Option.some.injEq] at o4
      rw [o4]

end Pdffit.C53
