import Verif.Lemmas.DerivScale
import Verif.Lemmas.DerivCover

/-!
# C44: the analytic derivatives are the derivatives of the calculated PDF
-/

namespace Pdffit.C44
open Geom Parser Bonds Det Layout Deriv

/-- The column of `fit_a` for the variable `v` holds, for every grid point of the calculation range, the derivative of the calculated
curve with respect to `v` at the current value of `v`. -/
def Correct (D : Data) (is : ℕ) (v : RVar) (psel : List (Option (PPhase × Sel))) : Prop :=
  ∃ (c : ℤ → ℝ) (F : ℝ → ℤ → ℝ), fitA D is v psel = .ok (some c) ∧
    (∀ᶠ t in nhds (value D is psel v), determine (updData v t is D) (updSel v t psel) = .ok (some (F t))) ∧
    ∀ i, D.ncmin ≤ i → i ≤ D.ncmax → HasDerivAt (fun t => F t i) (c i) (value D is psel v)

/-- For values of `v` near the current one the program makes the same discrete choices in every selected phase: the same pairs
contribute to the same grid points, with the distance on the same side of `rcut`; and the curve stays a number. -/
def Regular (D : Data) (is : ℕ) (v : RVar) (psel : List (Option (PPhase × Sel))) : Prop :=
  ∀ᶠ t in nhds (value D is psel v), ∀ ip x, psel[ip]? = some (some x) →
    (decisions (updData v t is D) (updPhase v t ip x.1) x.2).Perm (decisions D x.1 x.2) ∧
      ¬Bad (updData v t is D) (updPhase v t ip x.1) x.2

theorem one_split (psel : List (Option (PPhase × Sel))) (ip : ℕ) (x : PPhase × Sel) (hx : psel[ip]? = some (some x))
    (h1 : ∀ q, q ≠ ip → ∀ y, psel[q]? ≠ some (some y)) :
    ∃ b, psel = List.replicate ip none ++ some x :: List.replicate b none := by
  refine ⟨psel.length - (ip + 1), ?_⟩
  have hl : ip < psel.length := by
    by_contra hc
    rw [List.getElem?_eq_none (by omega)] at hx
    cases hx
  apply List.ext_getElem?
  intro n
  rcases lt_trichotomy n ip with hn | hn | hn
  · rw [List.getElem?_append_left (by simpa using hn), List.getElem?_replicate, if_pos hn]
    cases e : psel[n]? with
    | none => rw [List.getElem?_eq_none_iff] at e; omega
    | some y =>
      cases y with
      | none => rfl
      | some y => exact absurd e (h1 n hn.ne y)
  · subst hn
    rw [List.getElem?_append_right (by simp), hx]
    simp
  · rw [List.getElem?_append_right (by simpa using hn.le), List.length_replicate]
    obtain ⟨m, rfl⟩ := Nat.exists_eq_add_of_lt hn
    rw [show ip + m + 1 - ip = m + 1 by omega, List.getElem?_cons_succ, List.getElem?_replicate]
    cases e : psel[ip + m + 1]? with
    | none =>
      rw [List.getElem?_eq_none_iff] at e
      rw [if_neg (by omega)]
    | some y =>
      have : ip + m + 1 < psel.length := by
        by_contra hc
        rw [List.getElem?_eq_none (by omega)] at e
        cases e
      rw [if_pos (by omega)]
      cases y with
      | none => rfl
      | some y => exact absurd e (h1 _ (by omega) y)

theorem raw_replicate (D : Data) (is : ℕ) (v : RVar) (n : ℕ) (l : List (Option (PPhase × Sel))) (k : ℕ) :
    rawIncs D is v (List.replicate n none ++ l) k = rawIncs D is v l (k + n) := by
  induction n generalizing k with
  | zero => rfl
  | succ n ih =>
    rw [List.replicate_succ, List.cons_append]
    show rawIncs D is v (List.replicate n none ++ l) (k + 1) = _
    rw [ih, Nat.add_right_comm, Nat.add_assoc]

theorem stmts_used (D : Data) (i : ℤ) (l : List (Option Calced)) (k : ℕ) :
    ∀ st ∈ phasesStmts D i l k, ∃ q x, owner st.1 = some (k + q) ∧ l[q]? = some (some x) := by
  induction l generalizing k with
  | nil => intro st h; simp [phasesStmts] at h
  | cons a l ih =>
    intro st h
    cases a with
    | none =>
      obtain ⟨q, x, h1, h2⟩ := ih (k + 1) st h
      exact ⟨q + 1, x, by rw [h1, Nat.add_assoc, Nat.add_comm 1], h2⟩
    | some x =>
      rw [phasesStmts, List.mem_append] at h
      rcases h with h | h
      · exact ⟨0, x, phaseStmts_owner _ _ _ _ _ _ st h, rfl⟩
      · obtain ⟨q, x, h1, h2⟩ := ih (k + 1) st h
        exact ⟨q + 1, x, by rw [h1, Nat.add_assoc, Nat.add_comm 1], h2⟩

section
variable {D : Data} (h : D.Ok) {psel : List (Option (PPhase × Sel))} {f : ℤ → ℝ} (hf : determine D psel = .ok (some f)) (is : ℕ)
include h hf

/-! ## Variables of the data set -/

omit h hf in
theorem tot_eq (i : ℤ) : totAt D i (cal D psel) = ((psel.filterMap id).map fun x => D.dscale * x.1.pscale * curve D x.1 x.2 i).sum := by
  have key : ∀ a, (cal D psel).foldl (fun t x => match x with
      | none => t
      | some y => t + D.dscale * y.1.pscale * y.2.2 i) a =
      a + ((psel.filterMap id).map fun x => D.dscale * x.1.pscale * curve D x.1 x.2 i).sum := by
    induction psel with
    | nil => intro a; simp [cal]
    | cons b l ih =>
      intro a
      cases b with
      | none => exact ih a
      | some x =>
        have := ih (a + D.dscale * x.1.pscale * curve D x.1 x.2 i)
        simp only [List.filterMap_cons, id, List.map_cons, List.sum_cons]
        rw [← add_assoc]
        exact this
  have := key 0
  rw [zero_add] at this
  exact this

omit h hf in
theorem column_dscale (i : ℤ) : column D is (.dscale is) psel i = totAt D i (cal D psel) / D.dscale := by
  unfold column stmts
  rw [runOn_append, runOn_skip _ (phasesStmts D i (cal D psel) 0)]
  · simp [runOn]
  · intro st hs e
    obtain ⟨q, hq, -⟩ := phasesStmts_owner D i _ 0 st hs
    rw [e] at hq
    cases hq

omit h hf in
theorem column_qdamp (i : ℤ) : column D is (.qdamp is) psel i =
    if 0 < D.qdamp then -(D.r i * D.r i) * D.qdamp * totAt D i (cal D psel) else 0 := by
  unfold column stmts
  rw [runOn_append, runOn_skip _ (phasesStmts D i (cal D psel) 0)]
  · simp [runOn]
  · intro st hs e
    obtain ⟨q, hq, -⟩ := phasesStmts_owner D i _ 0 st hs
    rw [e] at hq
    cases hq

omit h hf in
theorem column_qbroad (i : ℤ) : column D is (.qbroad is) psel i =
    sumAt (rawIncs D is (.qbroad is) psel 0) i * lastFac D i (cal D psel) := by
  unfold column stmts
  rw [runOn_append, runOn_skip _ (phasesStmts D i (cal D psel) 0)]
  · simp [runOn]
  · intro st hs e
    obtain ⟨q, hq, -⟩ := phasesStmts_owner D i _ 0 st hs
    rw [e] at hq
    cases hq

/-- The scale factor of the data, unless it is zero. -/
theorem dscale (h0 : D.dscale ≠ 0) : Correct D is (.dscale is) psel := by
  have hb := (determine_some h hf).1
  have hu : ∀ t, updData (.dscale is) t is D = { D with dscale := t } := fun t => by simp [updData]
  have hval : value D is psel (.dscale is) = D.dscale := by simp [value, owner]
  refine assemble_data h is _ psel rfl (fun t => ?_) hb ?_ (.of_forall fun t x hx => ?_) fun i hi hi' => ?_
  · rw [hu]
    exact ⟨⟨h.step, h.lo, h.hi⟩, rfl, rfl, fun _ _ => rfl⟩
  · rintro (⟨-, e⟩ | ⟨ip, ia, ph, s, e, -⟩)
    · exact h0 e
    · cases e
  · rw [hu]
    exact hb x hx
  · rw [hval, column_dscale is i, tot_eq]
    simp only [hu]
    have e : ((psel.filterMap id).map fun x => D.dscale * x.1.pscale * curve D x.1 x.2 i).sum / D.dscale =
        ((psel.filterMap id).map fun x => x.1.pscale * curve D x.1 x.2 i).sum := by
      rw [div_eq_iff h0, ← List.sum_map_mul_right]
      congr 1
      apply List.map_congr_left
      intro x _
      ring
    rw [e]
    apply hasDerivAt_list
    intro x _
    have : HasDerivAt (fun t : ℝ => t * (x.1.pscale * curve D x.1 x.2 i)) (x.1.pscale * curve D x.1 x.2 i) D.dscale := by
      simpa using (hasDerivAt_id' D.dscale).mul_const (x.1.pscale * curve D x.1 x.2 i)
    refine HasDerivAt.congr_of_eventuallyEq this (.of_forall fun t => ?_)
    show t * x.1.pscale * curve D x.1 x.2 i = _
    ring

omit h hf in
/-- The damping factor. -/
theorem bk_deriv (q r : ℝ) : HasDerivAt (fun t => if 0 < t then Real.exp (-(r * t) ^ 2 / 2) else 1)
    (if 0 < q then -(r * r) * q * Real.exp (-(r * q) ^ 2 / 2) else 0) q := by
  have g : ∀ q : ℝ, HasDerivAt (fun t : ℝ => Real.exp (-(r * t) ^ 2 / 2)) (-(r * r) * q * Real.exp (-(r * q) ^ 2 / 2)) q := by
    intro q
    have := (((((hasDerivAt_id' q).const_mul r).fun_pow 2).fun_neg).div_const 2).exp
    refine this.congr_deriv ?_
    norm_num
    ring
  rcases lt_trichotomy q 0 with hq | hq | hq
  · rw [if_neg (not_lt.2 hq.le)]
    refine (hasDerivAt_const q (1 : ℝ)).congr_of_eventuallyEq ?_
    filter_upwards [gt_mem_nhds hq] with t ht
    rw [if_neg (not_lt.2 ht.le)]
  · subst hq
    rw [if_neg (lt_irrefl _)]
    have g0 := g 0
    have z : -(r * r) * 0 * Real.exp (-(r * 0) ^ 2 / 2) = 0 := by ring
    rw [z, hasDerivAt_iff_isLittleO] at g0
    rw [hasDerivAt_iff_isLittleO]
    refine Asymptotics.IsBigO.trans_isLittleO ?_ g0
    apply Asymptotics.IsBigO.of_bound 1
    refine .of_forall fun t => ?_
    simp only [smul_zero, sub_zero, one_mul, lt_irrefl, if_false]
    split
    · have : Real.exp (-(r * 0) ^ 2 / 2) = 1 := by simp
      rw [this]
    · simp only [sub_self, norm_zero]
      exact norm_nonneg _
  · rw [if_pos hq]
    refine (g q).congr_of_eventuallyEq ?_
    filter_upwards [lt_mem_nhds hq] with t ht
    rw [if_pos ht]

/-- The damping factor, for every value. -/
theorem qdamp : Correct D is (.qdamp is) psel := by
  have hb := (determine_some h hf).1
  have hu : ∀ t, updData (.qdamp is) t is D = { D with qdamp := t } := fun t => by simp [updData]
  have hval : value D is psel (.qdamp is) = D.qdamp := by simp [value, owner]
  refine assemble_data h is _ psel rfl (fun t => ?_) hb ?_ (.of_forall fun t x hx => ?_) fun i hi hi' => ?_
  · rw [hu]
    exact ⟨⟨h.step, h.lo, h.hi⟩, rfl, rfl, fun _ _ => rfl⟩
  · rintro (⟨e, -⟩ | ⟨ip, ia, ph, s, e, -⟩)
    · cases e
    · cases e
  · rw [hu]
    exact hb x hx
  · rw [hval, column_qdamp is i, tot_eq]
    simp only [hu]
    have e : (if 0 < D.qdamp then -(D.r i * D.r i) * D.qdamp *
        ((psel.filterMap id).map fun x => D.dscale * x.1.pscale * curve D x.1 x.2 i).sum else 0) =
        ((psel.filterMap id).map fun x => if 0 < D.qdamp then -(D.r i * D.r i) * D.qdamp *
          (D.dscale * x.1.pscale * curve D x.1 x.2 i) else 0).sum := by
      split
      · rw [List.sum_map_mul_left]
      · simp
    rw [e]
    apply hasDerivAt_list
    intro x _
    set K := D.dscale * x.1.pscale * ((pairSum D x.1 x.2 i / x.1.np / D.r i -
      4 * Real.pi * D.r i * x.1.rho0 * (ract x.1 x.2 / rtot x.1)) * shapeEnv x.1 (D.r i)) with hK
    have := (bk_deriv D.qdamp (D.r i)).mul_const K
    have e1 : (fun t => D.dscale * x.1.pscale * curve { D with qdamp := t } x.1 x.2 i) = fun t =>
        (if 0 < t then Real.exp (-(D.r i * t) ^ 2 / 2) else 1) * K := by
      funext t
      have : curve { D with qdamp := t } x.1 x.2 i = (pairSum D x.1 x.2 i / x.1.np / D.r i -
          4 * Real.pi * D.r i * x.1.rho0 * (ract x.1 x.2 / rtot x.1)) * envelope { D with qdamp := t } x.1 (D.r i) := rfl
      rw [this, envelope_eq, hK]
      have : bk { D with qdamp := t } (D.r i) = if 0 < t then Real.exp (-(D.r i * t) ^ 2 / 2) else 1 := rfl
      rw [this]
      ring
    rw [e1]
    refine this.congr_deriv ?_
    unfold curve
    rw [envelope_eq, hK]
    unfold bk
    split
    · ring
    · rw [zero_mul]

/-! ## Variables of a phase -/

variable (ip : ℕ) (ph : PPhase) (s : Sel) (hx : psel[ip]? = some (some (ph, s)))
include hx

omit h hf is in
theorem mem_sel : some (ph, s) ∈ psel := List.mem_of_getElem? hx

omit h hf in
theorem not_div0 {v : RVar} (hv : owner v = some ip) (ho : ∀ ia, v ≠ .occ ip ia) : ¬Div0 D is v psel := by
  rintro (⟨e, -⟩ | ⟨q, ia, ph', s', e, -⟩)
  · rw [e] at hv; cases hv
  · rw [e] at hv
    have : q = ip := Option.some.inj hv
    subst this
    exact ho ia e

/-- The scale factor of a phase. -/
theorem pscale : Correct D is (.pscale ip) psel := by
  have hb := (determine_some h hf).1
  have hg := hb _ (mem_sel ip ph s hx)
  have hu : ∀ t, updPhase (.pscale ip) t ip ph = { ph with pscale := t } := fun t => by simp [updPhase]
  refine assemble_phase h is _ psel ip (ph, s) hx rfl hb (not_div0 is ip ph s hx rfl fun _ => by simp) ?_ fun i hi hi' => ?_
  · refine .of_forall fun t => ?_
    dsimp only
    rw [hu]
    exact hg
  · dsimp only
    rw [run_pscale]
    simp only [hu]
    have : HasDerivAt (fun t : ℝ => t * (D.dscale * curve D ph s i)) (D.dscale * curve D ph s i) ph.pscale := by
      simpa using (hasDerivAt_id' ph.pscale).mul_const (D.dscale * curve D ph s i)
    refine (HasDerivAt.congr_of_eventuallyEq this (.of_forall fun t => ?_)).congr_deriv (mul_comm _ _)
    show D.dscale * t * curve D ph s i = _
    ring

/-- The diameter of the particles, unless it is zero. -/
theorem spdiameter (h0 : ph.spdiameter ≠ 0) (hr : 0 ≤ D.rmin) : Correct D is (.spdiameter ip) psel := by
  have hb := (determine_some h hf).1
  have hg := hb _ (mem_sel ip ph s hx)
  have hu : ∀ t, updPhase (.spdiameter ip) t ip ph = { ph with spdiameter := t } := fun t => by simp [updPhase]
  refine assemble_phase h is _ psel ip (ph, s) hx rfl hb (not_div0 is ip ph s hx rfl fun _ => by simp) ?_ fun i hi hi' => ?_
  · refine .of_forall fun t => ?_
    dsimp only
    rw [hu]
    exact hg
  · dsimp only
    rw [run_spd]
    simp only [hu]
    show HasDerivAt _ _ ph.spdiameter
    have hri : 0 ≤ D.r i := by
      have a := h.step
      have b : (0 : ℝ) ≤ i := by exact_mod_cast (ncmin_nonneg h).trans hi
      unfold Data.r
      positivity
    set C := pairSum D ph s i / ph.np / D.r i - 4 * Real.pi * D.r i * ph.rho0 * (ract ph s / rtot ph) with hC
    have e1 : ∀ t, curve D { ph with spdiameter := t } s i = C * envelope D { ph with spdiameter := t } (D.r i) := fun _ => rfl
    simp only [e1]
    show HasDerivAt (fun t => D.dscale * ph.pscale * (C * envelope D { ph with spdiameter := t } (D.r i))) _ _
    show HasDerivAt _ (if ph.spdiameter ≤ 0 then 0 else C * envelope D ph (D.r i) * D.dscale * ph.pscale *
      Shape.dsphereEnvelope (D.r i) ph.spdiameter / if 0 < shapeEnv ph (D.r i) then shapeEnv ph (D.r i) else 1) _
    rcases lt_or_gt_of_ne h0 with hn | hp
    · rw [if_pos hn.le]
      have e : (fun t => D.dscale * ph.pscale * (C * envelope D { ph with spdiameter := t } (D.r i))) =ᶠ[nhds ph.spdiameter]
          fun _ => D.dscale * ph.pscale * (C * envelope D ph (D.r i)) := by
        filter_upwards [gt_mem_nhds hn] with t ht
        unfold envelope
        dsimp only
        rw [if_neg (not_lt.2 ht.le), if_neg (not_lt.2 hn.le)]
      exact (hasDerivAt_const _ _).congr_of_eventuallyEq e
    · rw [if_neg (not_le.2 hp)]
      set st : ℝ := if 0 < ph.stepcut then (if D.r i ≤ ph.stepcut then 1 else 0) else 1 with hst
      have e : (fun t => D.dscale * ph.pscale * (C * envelope D { ph with spdiameter := t } (D.r i))) =ᶠ[nhds ph.spdiameter]
          fun t => D.dscale * ph.pscale * (C * (bk D (D.r i) * Shape.sphereEnvelope (D.r i) t * st)) := by
        filter_upwards [lt_mem_nhds hp] with t ht
        unfold envelope
        dsimp only
        rw [if_pos ht]
        rfl
      have d := (((((C43.derivative (D.r i) ph.spdiameter hp).const_mul (bk D (D.r i))).mul_const st).const_mul C).const_mul
        (D.dscale * ph.pscale))
      refine (d.congr_of_eventuallyEq e).congr_deriv ?_
      rw [envelope_eq]
      by_cases hc : 0 < ph.stepcut ∧ ph.stepcut < D.r i
      · have s0 : shapeEnv ph (D.r i) = 0 := by unfold shapeEnv; rw [if_pos hc]
        have t0 : st = 0 := by rw [hst, if_pos hc.1, if_neg (not_le.2 hc.2)]
        rw [s0, t0]
        simp
      · have s1 : shapeEnv ph (D.r i) = Shape.sphereEnvelope (D.r i) ph.spdiameter := by
          unfold shapeEnv
          rw [if_neg hc, if_neg (not_le.2 hp)]
        have t1 : st = 1 := by
          rw [hst]
          by_cases h1 : 0 < ph.stepcut
          · rw [if_pos h1, if_pos (not_lt.1 fun h2 => hc ⟨h1, h2⟩)]
          · rw [if_neg h1]
        rw [s1, t1]
        by_cases hl : D.r i < ph.spdiameter
        · have p := C43.positive (D.r i) ph.spdiameter hri hp hl
          rw [if_pos p]
          have := p.ne'
          field_simp
        · have z := C43.vanishes (D.r i) ph.spdiameter hp (not_lt.1 hl)
          have z' : Shape.dsphereEnvelope (D.r i) ph.spdiameter = 0 := by
            unfold Shape.dsphereEnvelope
            rw [if_neg (not_lt.2 ((one_le_div hp).2 (not_lt.1 hl)))]
          rw [z']
          simp

/-- Occupancies, unless zero. -/
theorem occ (ia : ℕ) (hi : ia < ph.atom.length) (h0 : (ph.atm ia).occ ≠ 0) : Correct D is (.occ ip ia) psel := by
  have hb := (determine_some h hf).1
  have hg := hb _ (mem_sel ip ph s hx)
  have hu : ∀ t, updPhase (.occ ip ia) t ip ph = occAt ph ia t := fun t => by simp [updPhase, occAt]
  refine assemble_phase h is _ psel ip (ph, s) hx rfl hb ?_ ?_ fun i hi' hi'' => ?_
  · rintro (⟨e, -⟩ | ⟨q, ia', ph', s', e, e', e''⟩)
    · cases e
    · injection e with e1 e2
      subst e1 e2
      rw [hx] at e'
      injection e' with e'
      injection e' with e'
      injection e' with e1 e2
      subst e1
      exact h0 e''
  · dsimp only
    simp only [hu]
    exact occ_good ph ia hi D s hg
  · dsimp only
    rw [run_occ _ _ _ _ _ _ _ hi]
    simp only [hu]
    exact occ_curve ph ia hi D s is ip i h0 hg

section regular
variable {v : RVar} (hv : owner v = some ip) (hr : Regular D is v psel)
include hv hr

omit h hf in
theorem regular_phase : ∀ᶠ t in nhds (getPhase v ph),
    (decisions D (updPhase v t ip ph) s).Perm (decisions D ph s) ∧ ¬Bad D (updPhase v t ip ph) s := by
  unfold Regular at hr
  rw [value_phase D is psel v ip hv (ph, s) hx] at hr
  filter_upwards [hr] with t ht
  have := ht ip (ph, s) hx
  rwa [updData_phase v ip hv] at this

/-- Variables that only change positions and widths of peaks. -/
theorem of_peaks (ho : ∀ ia, v ≠ .occ ip ia) (h0 : updPhase v (getPhase v ph) ip ph = ph)
    (hs : ∀ t, Same D (updPhase v t ip ph) ph s)
    (hrun : ∀ i x, runOn v (phaseStmts D ph s ip (D.r i) (curve D ph s i)) x = x * fac D ph (D.r i))
    (hp : ∀ δ, Fact D ph δ → HasDerivAt (fun t => hgt D (updPhase v t ip ph) δ) (dval D ph is ip v δ) (getPhase v ph)) :
    Correct D is v psel := by
  have hb := (determine_some h hf).1
  have R := regular_phase is ip ph s hx hv hr
  refine assemble_phase h is v psel ip (ph, s) hx hv hb (not_div0 is ip ph s hx hv ho) (R.mono fun t ht => ht.2)
    fun i hi hi' => ?_
  dsimp only
  rw [hrun]
  have := mul_deriv D (fun t => updPhase v t ip ph) s (getPhase v ph) i (dval D ph is ip v)
    (by rw [h0]; exact R.mono fun t ht => ht.1) (by rw [h0]; exact fun δ hδ => hp δ (dec_fact hδ).1)
    (fun t => by rw [h0]; exact hs t)
  rwa [h0] at this

end regular

theorem delta2 (hr : Regular D is (.delta2 ip) psel) : Correct D is (.delta2 ip) psel := by
  have hu : ∀ t, updPhase (.delta2 ip) t ip ph = { ph with delta2 := t } := fun t => by simp [updPhase]
  refine of_peaks h hf is ip ph s hx rfl hr (fun _ => by simp) (hu _) (fun t => ?_) (fun i x => run_delta2 ..) fun δ F => ?_
  · rw [hu]; exact ⟨rfl, rfl, rfl, rfl, fun _ => rfl, rfl⟩
  · simp only [hu]; exact delta2_peak D ph is ip δ F

theorem delta1 (hr : Regular D is (.delta1 ip) psel) : Correct D is (.delta1 ip) psel := by
  have hu : ∀ t, updPhase (.delta1 ip) t ip ph = { ph with delta1 := t } := fun t => by simp [updPhase]
  refine of_peaks h hf is ip ph s hx rfl hr (fun _ => by simp) (hu _) (fun t => ?_) (fun i x => run_delta1 ..) fun δ F => ?_
  · rw [hu]; exact ⟨rfl, rfl, rfl, rfl, fun _ => rfl, rfl⟩
  · simp only [hu]; exact delta1_peak D ph is ip δ F

theorem sratio (hr : Regular D is (.sratio ip) psel) : Correct D is (.sratio ip) psel := by
  have hu : ∀ t, updPhase (.sratio ip) t ip ph = { ph with sratio := t } := fun t => by simp [updPhase]
  refine of_peaks h hf is ip ph s hx rfl hr (fun _ => by simp) (hu _) (fun t => ?_) (fun i x => run_sratio ..) fun δ F => ?_
  · rw [hu]; exact ⟨rfl, rfl, rfl, rfl, fun _ => rfl, rfl⟩
  · simp only [hu]; exact sratio_peak D ph is ip δ F

/-- Positions, in orthogonal cells. -/
theorem pos_partial (O : Orth ph.cell) (ia : ℕ) (hi : ia < ph.atom.length) (k : Fin 3) (hr : Regular D is (.pos ip ia k) psel) :
    Correct D is (.pos ip ia k) psel := by
  have hu : ∀ t, updPhase (.pos ip ia k) t ip ph = onAtom ph ia fun a => { a with pos := Function.update a.pos k t } :=
    fun t => by simp [updPhase]
  refine of_peaks h hf is ip ph s hx rfl hr (fun _ => by simp) ?_ (fun t => ?_) (fun i x => run_pos _ _ _ _ _ _ _ _ hi _)
    fun δ F => ?_
  · rw [hu]
    refine onAtom_self ph ia _ hi ?_
    simp only [getPhase, Function.update_eq_self]
  · rw [hu]; exact onAtom_same D ph ia s _ (fun _ => ⟨rfl, rfl⟩) hi
  · simp only [hu]; exact pos_peak D ph is ip ia k δ hi O F

/-- Displacement parameters, in orthogonal cells. -/
theorem u_partial (O : Orth ph.cell) (ia : ℕ) (hi : ia < ph.atom.length) (k : Fin 6) (hr : Regular D is (.u ip ia k) psel) :
    Correct D is (.u ip ia k) psel := by
  have hu : ∀ t, updPhase (.u ip ia k) t ip ph = onAtom ph ia fun a => { a with u := Function.update a.u k t } :=
    fun t => by simp [updPhase]
  refine of_peaks h hf is ip ph s hx rfl hr (fun _ => by simp) ?_ (fun t => ?_) (fun i x => run_u _ _ _ _ _ _ _ _ hi _)
    fun δ F => ?_
  · rw [hu]
    refine onAtom_self ph ia _ hi ?_
    simp only [getPhase, Function.update_eq_self]
  · rw [hu]; exact onAtom_same D ph ia s _ (fun _ => ⟨rfl, rfl⟩) hi
  · simp only [hu]; exact u_peak D ph is ip ia k δ hi O F

/-- Edges of orthogonal cells. -/
theorem a0_partial (O : Orth ph.cell) (k : Fin 3) (hr : Regular D is (.a0 ip k) psel) : Correct D is (.a0 ip k) psel := by
  have hu : ∀ t, updPhase (.a0 ip k) t ip ph = { ph with cell := { ph.cell with a0 := Function.update ph.cell.a0 k t } } :=
    fun t => by simp [updPhase]
  have hb := (determine_some h hf).1
  have R := regular_phase is ip ph s hx rfl hr
  refine assemble_phase h is _ psel ip (ph, s) hx rfl hb (not_div0 is ip ph s hx rfl fun _ => by simp) (R.mono fun t ht => ht.2)
    fun i hi hi' => ?_
  dsimp only
  rw [run_a0]
  simp only [hu] at R ⊢
  exact edge_deriv D ph s k i _ O (R.mono fun t ht => ht.1) fun δ hδ => a0_peak D ph is ip k δ O (dec_fact hδ).1

/-- The broadening of peaks, when the data set has exactly one selected phase. -/
theorem qbroad_partial (h1 : ∀ q, q ≠ ip → ∀ y, psel[q]? ≠ some (some y)) (hr : Regular D is (.qbroad is) psel) :
    Correct D is (.qbroad is) psel := by
  have hb := (determine_some h hf).1
  have hu : ∀ t, updData (.qbroad is) t is D = { D with qbroad := t } := fun t => by simp [updData]
  have hval : value D is psel (.qbroad is) = D.qbroad := by simp [value, owner]
  obtain ⟨b, hpsel⟩ := one_split psel ip (ph, s) hx h1
  refine assemble_data h is _ psel rfl (fun t => ?_) hb ?_ ?_ fun i hi hi' => ?_
  · rw [hu]
    exact ⟨⟨h.step, h.lo, h.hi⟩, rfl, rfl, fun _ _ => rfl⟩
  · rintro (⟨e, -⟩ | ⟨ip, ia, ph, s, e, -⟩)
    · cases e
    · cases e
  · filter_upwards [hr] with t ht x hx'
    obtain ⟨q, hq⟩ := List.getElem?_of_mem hx'
    have := (ht q x hq).2
    rwa [updPhase_none _ rfl] at this
  · have e : (psel.filterMap id) = [(ph, s)] := by
      rw [hpsel]
      simp
    have R : ∀ᶠ t in nhds D.qbroad, (decisions { D with qbroad := t } ph s).Perm (decisions D ph s) := by
      rw [← hval]
      filter_upwards [hr] with t ht
      have := (ht ip _ hx).1
      rwa [updPhase_none _ rfl, hu] at this
    rw [hval, column_qbroad, e]
    have ef : lastFac D i (cal D psel) = fac D ph (D.r i) := by
      rw [hpsel]
      unfold lastFac cal
      rw [List.map_append, List.foldl_append, List.map_cons, List.foldl_cons, List.map_replicate, List.map_replicate]
      simp only [Option.map_none, Option.map_some]
      generalize fac D ph (D.r i) = y
      clear hpsel
      induction b with
      | zero => rfl
      | succ b ih => exact ih
    have er : sumAt (rawIncs D is (.qbroad is) psel 0) i = decSum D ph s (dval D ph is ip (.qbroad is)) i := by
      rw [← dincs_dec, hpsel, raw_replicate]
      show sumAt (_ ++ rawIncs D is (.qbroad is) (List.replicate b none) _) i = _
      have := raw_replicate D is (.qbroad is) b [] (0 + ip + 1)
      rw [List.append_nil] at this
      rw [this, Nat.zero_add]
      simp [rawIncs]
    rw [ef, er]
    simp only [List.map_cons, List.map_nil, List.sum_cons, List.sum_nil, add_zero, hu]
    have hp := pairSum_deriv (fun t => { D with qbroad := t }) (fun _ => ph) s D.qbroad i _ R
      fun δ hδ => qbroad_peak D ph is ip δ (dec_fact hδ).1
    have e2 : (fun t => D.dscale * ph.pscale * curve { D with qbroad := t } ph s i) = fun t => D.dscale * ph.pscale *
        ((pairSum { D with qbroad := t } ph s i / ph.np / D.r i - 4 * Real.pi * D.r i * ph.rho0 * (ract ph s / rtot ph)) *
          envelope D ph (D.r i)) := rfl
    rw [e2]
    refine (((((hp.div_const ph.np).div_const (D.r i)).sub_const _).mul_const _).const_mul _).congr_deriv ?_
    unfold fac facs facp
    rw [envelope_eq]
    ring

omit hx

/-- A variable that belongs to another data set or to a phase that is not used. -/
def Foreign (is : ℕ) (psel : List (Option (PPhase × Sel))) (v : RVar) : Prop :=
  match owner v with
  | some q => ∀ x, psel[q]? ≠ some (some x)
  | none => v ≠ .dscale is ∧ v ≠ .qdamp is ∧ v ≠ .qbroad is

omit h hf in
theorem foreign_val {v : RVar} (hv : owner v = none → v ≠ .qbroad is) (p : Pk) (q ia ja : ℕ) (hq : owner v ≠ some q) :
    valOf v (p.adds is q ia ja) = 0 := by
  unfold valOf
  apply List.sum_eq_zero
  intro y hy
  rw [List.mem_map] at hy
  obtain ⟨z, hz, rfl⟩ := hy
  rw [if_neg]
  intro e
  subst e
  unfold Pk.adds at hz
  simp only [List.mem_cons, List.not_mem_nil, or_false] at hz
  rcases hz with h | h | h | h | h | h | h | h | h | h | h | h | h | h | h | h | h | h | h | h | h | h | h | h | h | h | h | h | h | h <;>
    rw [h] at hv hq <;> first | exact hq rfl | exact hv rfl rfl

omit h hf in
theorem foreign_raw {v : RVar} (hv : Foreign is psel v) (i : ℤ) : sumAt (rawIncs D is v psel 0) i = 0 := by
  have hv1 : owner v = none → v ≠ .qbroad is := by
    intro e
    unfold Foreign at hv
    rw [e] at hv
    exact hv.2.2
  have hv2 : ∀ q x, psel[q]? = some (some x) → owner v ≠ some (0 + q) := by
    intro q x hq e
    rw [Nat.zero_add] at e
    unfold Foreign at hv
    rw [e] at hv
    exact hv x hq
  clear hv
  generalize (0 : ℕ) = k at *
  induction psel generalizing k with
  | nil => rfl
  | cons a l ih =>
    have ih' := ih (k + 1) fun q x hq => by
      have := hv2 (q + 1) x hq
      rwa [← Nat.add_assoc, Nat.add_right_comm] at this
    cases a with
    | none => exact ih'
    | some x =>
      show sumAt (_ ++ _) i = 0
      rw [sumAt_append, ih', dincs_dec, add_zero]
      have := hv2 0 x rfl
      unfold decSum
      apply List.sum_eq_zero
      intro y hy
      rw [List.mem_map] at hy
      obtain ⟨δ, -, rfl⟩ := hy
      unfold dval
      rw [foreign_val is hv1 _ k _ _ this]
      simp

/-- Variables of other data sets and of phases that are not used: the column is zero, and the curve does not depend on them. -/
theorem foreign {v : RVar} (hv : Foreign is psel v) :
    (∃ c, fitA D is v psel = .ok (some c) ∧ ∀ i, D.ncmin ≤ i → i ≤ D.ncmax → c i = 0) ∧
    ∀ t, determine (updData v t is D) (updSel v t psel) = .ok (some f) := by
  have hb := (determine_some h hf).1
  constructor
  · obtain ⟨c, hc, hci⟩ := fitA_of h is v psel hb (by
      unfold Foreign at hv
      rintro (⟨e, -⟩ | ⟨q, ia, ph, s, e, e', -⟩)
      · rw [e] at hv
        exact hv.1 rfl
      · rw [e] at hv
        exact hv _ e')
    refine ⟨c, hc, fun i hi hi' => ?_⟩
    have hz : ∀ j, column D is v psel j = 0 := by
      intro j
      unfold column
      rw [foreign_raw is hv]
      refine runOn_skip _ _ _ fun st hst e => ?_
      unfold stmts at hst
      rw [List.mem_append] at hst
      unfold Foreign at hv
      rcases hst with hst | hst
      · obtain ⟨q, y, hq, hy⟩ := stmts_used D j _ 0 st hst
        rw [e, Nat.zero_add] at hq
        rw [hq] at hv
        unfold cal at hy
        rw [List.getElem?_map] at hy
        cases e' : psel[q]? with
        | none => rw [e'] at hy; cases hy
        | some z =>
          cases z with
          | none => rw [e'] at hy; cases hy
          | some z => exact hv z e'
      · simp only [List.mem_cons, List.not_mem_nil, or_false] at hst
        rcases hst with rfl | rfl | rfl
        · rw [← e] at hv; exact hv.1 rfl
        · rw [← e] at hv; exact hv.2.1 rfl
        · rw [← e] at hv; exact hv.2.2 rfl
    rw [hci i hi hi']
    have : column D is v psel = fun j => 0 * (0 : ℝ) := by
      funext j
      rw [hz j, zero_mul]
    rw [this, filt_smul h, zero_mul]
  · intro t
    have e1 : updData v t is D = D := by
      unfold Foreign at hv
      cases v <;> first | rfl | skip
      all_goals
        simp only [owner] at hv
        unfold updData
        dsimp only
        rw [if_neg]
        rintro rfl
        simp at hv
    have e2 : updSel v t psel = psel := by
      apply List.ext_getElem?
      intro n
      unfold updSel
      rw [List.getElem?_mapIdx]
      cases e : psel[n]? with
      | none => rfl
      | some y =>
        cases y with
        | none => rfl
        | some z =>
          have : updPhase v t n z.1 = z.1 := by
            cases o : owner v with
            | none => exact updPhase_none v o t n _
            | some q =>
              refine updPhase_other v q o t n ?_ _
              rintro rfl
              unfold Foreign at hv
              rw [o] at hv
              exact hv z e
          simp [this]
    rw [e1, e2, hf]

/-! ## When the choices do not change -/

include hx

omit h hf in
/-- Variables that do not change the visited elements and the normalisation. -/
theorem regular_of {v : RVar} (hb : ∀ x, some x ∈ psel → ¬Bad D x.1 x.2) (hv : owner v = some ip)
    (h0 : updPhase v (getPhase v ph) ip ph = ph)
    (hvis : ∀ t, visited D (updPhase v t ip ph) s = visited D ph s)
    (hsame : ∀ t, (updPhase v t ip ph).np = ph.np ∧ (updPhase v t ip ph).ncv = ph.ncv ∧ (updPhase v t ip ph).bavg = ph.bavg ∧
      rtot (updPhase v t ip ph) = rtot ph)
    (P : Path (fun _ => D) (fun t => updPhase v t ip ph) (getPhase v ph))
    (hS : ∀ x ∈ visited D ph s, Steady D ph x)
    (cd : ∀ x ∈ visited D ph s, ContinuousAt (fun t => dist2 (updPhase v t ip ph) x) (getPhase v ph))
    (cm : ∀ x ∈ visited D ph s, 0 < dist2 ph x → ContinuousAt (fun t => msdOf (updPhase v t ip ph) x) (getPhase v ph))
    (cc : ∀ x ∈ visited D ph s, 0 < dist2 ph x →
      ContinuousAt (fun t => corfact D (updPhase v t ip ph) (dist2 (updPhase v t ip ph) x)) (getPhase v ph)) :
    Regular D is v psel := by
  unfold Regular
  rw [value_phase D is psel v ip hv (ph, s) hx]
  have key := steady_list P (visited D ph s) (by rw [h0]; exact hS) cd (by rw [h0]; exact cm) (by rw [h0]; exact cc)
  filter_upwards [key] with t ht q y hq
  rw [updData_phase v ip hv]
  by_cases e : ip = q
  · subst e
    rw [hx] at hq
    have : (ph, s) = y := Option.some.inj (Option.some.inj hq)
    subst this
    dsimp only
    refine ⟨?_, ?_⟩
    · rw [decisions_eq, decisions_eq, hvis, ht.1, h0]
    · have hg := hb _ (mem_sel ip ph s hx)
      rintro (⟨x, hx, hn⟩ | hn | hn | hn | hn | hn)
      · rw [hvis] at hx
        exact ht.2 x hx hn
      · rw [(hsame t).1] at hn; exact hg (.inr (.inl hn))
      · rw [(hsame t).2.1] at hn; exact hg (.inr (.inr (.inl hn)))
      · rw [(hsame t).2.2.1] at hn; exact hg (.inr (.inr (.inr (.inl hn))))
      · rw [(hsame t).2.2.2] at hn; exact hg (.inr (.inr (.inr (.inr (.inl hn)))))
      · exact hg (.inr (.inr (.inr (.inr (.inr hn)))))
  · rw [updPhase_other v ip hv t q e]
    exact ⟨List.Perm.refl _, hb _ (List.mem_of_getElem? hq)⟩

/-- `delta2` when no visited pair is at a threshold. -/
theorem delta2_partial (hS : ∀ x ∈ visited D ph s, Steady D ph x) : Correct D is (.delta2 ip) psel := by
  have hu : ∀ t, updPhase (.delta2 ip) t ip ph = { ph with delta2 := t } := fun t => by simp [updPhase]
  refine delta2 h hf is ip ph s hx (regular_of is ip ph s hx (determine_some h hf).1 rfl (hu _) ?_ ?_ ?_ hS ?_ ?_ ?_)
  · intro t; rw [hu]; rfl
  · intro t; rw [hu]; exact ⟨rfl, rfl, rfl, rfl⟩
  · simp only [hu]
    exact ⟨fun t => ⟨rfl, rfl, rfl, rfl, rfl, rfl⟩, fun t => rfl, continuousAt_const⟩
  · intro x _; simp only [hu]; exact continuousAt_const
  · intro x _ _; simp only [hu]; exact continuousAt_const
  · intro x _ _
    simp only [hu]
    show ContinuousAt (fun t => 1 - t / dist2 ph x - ph.delta1 / √(dist2 ph x) + D.qbroad ^ 2 * dist2 ph x) _
    exact ((continuousAt_const.sub (continuousAt_id.div_const _)).sub continuousAt_const).add continuousAt_const

/-- `delta1` when no visited pair is at a threshold. -/
theorem delta1_partial (hS : ∀ x ∈ visited D ph s, Steady D ph x) : Correct D is (.delta1 ip) psel := by
  have hu : ∀ t, updPhase (.delta1 ip) t ip ph = { ph with delta1 := t } := fun t => by simp [updPhase]
  refine delta1 h hf is ip ph s hx (regular_of is ip ph s hx (determine_some h hf).1 rfl (hu _) ?_ ?_ ?_ hS ?_ ?_ ?_)
  · intro t; rw [hu]; rfl
  · intro t; rw [hu]; exact ⟨rfl, rfl, rfl, rfl⟩
  · simp only [hu]
    exact ⟨fun t => ⟨rfl, rfl, rfl, rfl, rfl, rfl⟩, fun t => rfl, continuousAt_const⟩
  · intro x _; simp only [hu]; exact continuousAt_const
  · intro x _ _; simp only [hu]; exact continuousAt_const
  · intro x _ _
    simp only [hu]
    show ContinuousAt (fun t => 1 - ph.delta2 / dist2 ph x - t / √(dist2 ph x) + D.qbroad ^ 2 * dist2 ph x) _
    exact (continuousAt_const.sub (continuousAt_id.div_const _)).add continuousAt_const

/-- `sratio` when no visited pair is at a threshold. -/
theorem sratio_partial (hS : ∀ x ∈ visited D ph s, Steady D ph x) : Correct D is (.sratio ip) psel := by
  have hu : ∀ t, updPhase (.sratio ip) t ip ph = { ph with sratio := t } := fun t => by simp [updPhase]
  refine sratio h hf is ip ph s hx (regular_of is ip ph s hx (determine_some h hf).1 rfl (hu _) ?_ ?_ ?_ hS ?_ ?_ ?_)
  · intro t; rw [hu]; rfl
  · intro t; rw [hu]; exact ⟨rfl, rfl, rfl, rfl⟩
  · simp only [hu]
    exact ⟨fun t => ⟨rfl, rfl, rfl, rfl, rfl, rfl⟩, fun t => rfl, continuousAt_id⟩
  · intro x _; simp only [hu]; exact continuousAt_const
  · intro x _ _; simp only [hu]; exact continuousAt_const
  · intro x _ _; simp only [hu]; exact continuousAt_const

omit h hf in
theorem regular_atom (hb : ∀ x, some x ∈ psel → ¬Bad D x.1 x.2) {v : RVar} (hv : owner v = some ip) (ia : ℕ)
    (hi : ia < ph.atom.length) (g : ℝ → PAtom → PAtom) (hu : ∀ t, updPhase v t ip ph = onAtom ph ia (g t))
    (h0 : updPhase v (getPhase v ph) ip ph = ph) (hg : ∀ t a, (g t a).occ = a.occ ∧ (g t a).sf = a.sf) (O : Orth ph.cell)
    (c1 : ∀ j k, ContinuousAt (fun t => ((onAtom ph ia (g t)).atm j).pos k) (getPhase v ph))
    (c2 : ∀ j k, ContinuousAt (fun t => ((onAtom ph ia (g t)).atm j).u k) (getPhase v ph))
    (hS : ∀ x ∈ visited D ph s, Steady D ph x) : Regular D is v psel := by
  have h0' : onAtom ph ia (g (getPhase v ph)) = ph := by rw [← hu, h0]
  have cont : ∀ x, ContinuousAt (fun t => dist2 (onAtom ph ia (g t)) x) (getPhase v ph) ∧
      (0 < dist2 (onAtom ph ia (g (getPhase v ph))) x → ContinuousAt (fun t => msdOf (onAtom ph ia (g t)) x) (getPhase v ph)) := by
    intro x
    refine orth_cont (fun t => onAtom ph ia (g t)) x _ (.of_forall fun t => O) (fun m => ?_) fun m => (c2 _ m).add (c2 _ m)
    exact (((c1 _ m).sub (c1 _ m)).sub continuousAt_const).mul continuousAt_const
  refine regular_of is ip ph s hx hb hv h0 ?_ ?_ ?_ hS ?_ ?_ ?_
  · intro t; rw [hu]; exact visited_on ..
  · intro t
    rw [hu]
    have S := onAtom_same D ph ia s (g t) (hg t) hi
    exact ⟨S.np, rfl, bavg_on ph ia _ (hg t), S.tot⟩
  · simp only [hu]
    exact ⟨fun t => ⟨rfl, rfl, rfl, rfl, rfl, rfl⟩, fun t => rfl, continuousAt_const⟩
  · intro x _; simp only [hu]; exact (cont x).1
  · intro x _ hd; simp only [hu]; rw [← h0'] at hd; exact (cont x).2 (by rw [h0'] at hd ⊢; exact hd)
  · intro x _ hd
    simp only [hu]
    exact corfact_cont D (fun t => onAtom ph ia (g t)) x _ (fun t => ⟨rfl, rfl⟩) (cont x).1 (by rw [h0']; exact hd)

/-- Positions in orthogonal cells, when no visited pair is at a threshold. -/
theorem pos_steady_partial (O : Orth ph.cell) (ia : ℕ) (hi : ia < ph.atom.length) (k : Fin 3)
    (hS : ∀ x ∈ visited D ph s, Steady D ph x) : Correct D is (.pos ip ia k) psel := by
  have hu : ∀ t, updPhase (.pos ip ia k) t ip ph = onAtom ph ia fun a => { a with pos := Function.update a.pos k t } :=
    fun t => by simp [updPhase]
  refine pos_partial h hf is ip ph s hx O ia hi k (regular_atom is ip ph s hx (determine_some h hf).1 rfl ia hi
    (fun t a => { a with pos := Function.update a.pos k t }) hu ?_ (fun _ _ => ⟨rfl, rfl⟩) O ?_ ?_ hS)
  · rw [hu]
    refine onAtom_self ph ia _ hi ?_
    simp only [getPhase, Function.update_eq_self]
  · intro j m
    simp only [atm_on _ _ _ _ hi]
    by_cases e : j = ia
    · simp only [if_pos e]
      by_cases e' : m = k
      · subst e'
        simp only [Function.update_self]
        exact continuousAt_id
      · simp only [Function.update_of_ne e']
        exact continuousAt_const
    · simp only [if_neg e]
      exact continuousAt_const
  · intro j m
    simp only [atm_on _ _ _ _ hi]
    by_cases e : j = ia
    · simp only [if_pos e]
      exact continuousAt_const
    · simp only [if_neg e]
      exact continuousAt_const

/-- Displacement parameters in orthogonal cells, when no visited pair is at a threshold. -/
theorem u_steady_partial (O : Orth ph.cell) (ia : ℕ) (hi : ia < ph.atom.length) (k : Fin 6)
    (hS : ∀ x ∈ visited D ph s, Steady D ph x) : Correct D is (.u ip ia k) psel := by
  have hu : ∀ t, updPhase (.u ip ia k) t ip ph = onAtom ph ia fun a => { a with u := Function.update a.u k t } :=
    fun t => by simp [updPhase]
  refine u_partial h hf is ip ph s hx O ia hi k (regular_atom is ip ph s hx (determine_some h hf).1 rfl ia hi
    (fun t a => { a with u := Function.update a.u k t }) hu ?_ (fun _ _ => ⟨rfl, rfl⟩) O ?_ ?_ hS)
  · rw [hu]
    refine onAtom_self ph ia _ hi ?_
    simp only [getPhase, Function.update_eq_self]
  · intro j m
    simp only [atm_on _ _ _ _ hi]
    by_cases e : j = ia
    · simp only [if_pos e]
      exact continuousAt_const
    · simp only [if_neg e]
      exact continuousAt_const
  · intro j m
    simp only [atm_on _ _ _ _ hi]
    by_cases e : j = ia
    · simp only [if_pos e]
      by_cases e' : m = k
      · subst e'
        simp only [Function.update_self]
        exact continuousAt_id
      · simp only [Function.update_of_ne e']
        exact continuousAt_const
    · simp only [if_neg e]
      exact continuousAt_const

/-- Edges of orthogonal cells, when no pair of atoms is at a threshold; the coordinates differ by at most one, and there is no
step cut. -/
theorem a0_steady_partial (O : Orth ph.cell) (F : C19.Fine ph.toPhs)
    (hp : ∀ i j, i < ph.atom.length → j < ph.atom.length → ∀ k, |(ph.atm i).pos k - (ph.atm j).pos k| ≤ 1)
    (hs : ph.stepcut ≤ 0) (k : Fin 3) (hS : ∀ x ∈ selPairs s ph.atom.length, ∀ T, Steady D ph (x, T)) :
    Correct D is (.a0 ip k) psel := by
  have hb := (determine_some h hf).1
  have hu : ∀ t, updPhase (.a0 ip k) t ip ph = edgeAt ph k t := fun t => by simp [updPhase, edgeAt]
  refine a0_partial h hf is ip ph s hx O k ?_
  unfold Regular
  rw [value_phase D is psel _ ip rfl (ph, s) hx]
  filter_upwards [edge_steady D ph s k O F hp hs hS, (lt_mem_nhds (F.edge k) : ∀ᶠ t in nhds (ph.cell.a0 k), 0 < t)] with t ht h0 q y hq
  rw [updData_phase _ ip rfl]
  by_cases e : ip = q
  · subst e
    rw [hx] at hq
    have : (ph, s) = y := Option.some.inj (Option.some.inj hq)
    subst this
    dsimp only
    rw [hu]
    refine ⟨ht.1, ?_⟩
    have hg := hb _ (mem_sel ip ph s hx)
    rintro (⟨x, hx, hn⟩ | hn | hn | hn | hn | hn)
    · exact ht.2 x hx hn
    · exact hg (.inr (.inl hn))
    · apply hg
      right; right; left
      have F' := edge_fine O F k h0
      have i0 : ∀ j, (ph.icc j : ℝ) ≠ 0 := fun j => by exact_mod_cast (F.icc j).ne'
      unfold PPhase.ncv at hn ⊢
      rw [vol_orth (edge_orth O k h0.ne')] at hn
      have e0 := (F'.edge 0).ne'
      have e1 := (F'.edge 1).ne'
      have e2 := (F'.edge 2).ne'
      exfalso
      revert hn
      push_cast
      exact mul_ne_zero (mul_ne_zero (mul_ne_zero (i0 0) (i0 1)) (i0 2)) (mul_ne_zero (mul_ne_zero e0 e1) e2)
    · exact hg (.inr (.inr (.inr (.inl hn))))
    · exact hg (.inr (.inr (.inr (.inr (.inl hn)))))
    · exact hg (.inr (.inr (.inr (.inr (.inr hn)))))
  · rw [updPhase_other _ ip rfl t q e]
    exact ⟨List.Perm.refl _, hb _ (List.mem_of_getElem? hq)⟩

/-- The broadening of peaks for one phase, when no visited pair is at a threshold. -/
theorem qbroad_steady_partial (h1 : ∀ q, q ≠ ip → ∀ y, psel[q]? ≠ some (some y)) (hS : ∀ x ∈ visited D ph s, Steady D ph x) :
    Correct D is (.qbroad is) psel := by
  have hb := (determine_some h hf).1
  have hu : ∀ t, updData (.qbroad is) t is D = { D with qbroad := t } := fun t => by simp [updData]
  have hval : value D is psel (.qbroad is) = D.qbroad := by simp [value, owner]
  refine qbroad_partial h hf is ip ph s hx h1 ?_
  unfold Regular
  rw [hval]
  have key := steady_list (Dt := fun t => { D with qbroad := t }) (pt := fun _ => ph) (t₀ := D.qbroad)
    ⟨fun t => ⟨rfl, rfl, rfl, rfl, rfl, rfl⟩, fun t => rfl, continuousAt_const⟩ (visited D ph s) hS
    (fun _ _ => continuousAt_const) (fun _ _ _ => continuousAt_const) fun x _ _ => by
      show ContinuousAt (fun t => 1 - ph.delta2 / dist2 ph x - ph.delta1 / √(dist2 ph x) + t ^ 2 * dist2 ph x) _
      exact continuousAt_const.add ((continuousAt_id.pow 2).mul continuousAt_const)
  filter_upwards [key] with t ht q y hq
  rw [hu, updPhase_none _ rfl]
  have e : ip = q := by
    by_contra e
    exact h1 q (Ne.symm e) y hq
  subst e
  rw [hx] at hq
  have : (ph, s) = y := Option.some.inj (Option.some.inj hq)
  subst this
  have hg := hb _ (mem_sel ip ph s hx)
  refine ⟨?_, ?_⟩
  · rw [decisions_eq, decisions_eq]
    show ((visited D ph s).flatMap _).Perm _
    rw [ht.1]
  · rintro (⟨x, hx, hn⟩ | hn)
    · exact ht.2 x hx hn
    · exact hg (.inr hn)

end

end Pdffit.C44
