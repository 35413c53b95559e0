import Verif.Lemmas.DerivGeo
import Mathlib.Data.List.Nodup

/-! # From the derivatives of peaks to the column of `fit_a` -/

namespace Pdffit.Deriv
open Geom Parser Bonds Det Layout

/-! ## Sequences of assignments -/

theorem runOn_append (v : RVar) (l m : List (RVar × (ℝ → ℝ))) (x : ℝ) : runOn v (l ++ m) x = runOn v m (runOn v l x) := by
  unfold runOn
  rw [List.foldl_append]

theorem runOn_skip (v : RVar) (l : List (RVar × (ℝ → ℝ))) (x : ℝ) (h : ∀ st ∈ l, st.1 ≠ v) : runOn v l x = x := by
  induction l generalizing x with
  | nil => rfl
  | cons a l ih =>
    unfold runOn
    rw [List.foldl_cons, if_neg (h a (by simp))]
    exact ih x fun st hs => h st (by simp [hs])

theorem runOn_flatMap {α : Type} (v : RVar) (l : List α) (f : α → List (RVar × (ℝ → ℝ))) (a : α) (ha : a ∈ l) (hn : l.Nodup)
    (h : ∀ b, b ≠ a → ∀ st ∈ f b, st.1 ≠ v) (x : ℝ) : runOn v (l.flatMap f) x = runOn v (f a) x := by
  induction l generalizing x with
  | nil => simp at ha
  | cons b l ih =>
    rw [List.nodup_cons] at hn
    rw [List.flatMap_cons, runOn_append]
    by_cases e : b = a
    · subst e
      apply runOn_skip
      intro st hs
      rw [List.mem_flatMap] at hs
      obtain ⟨c, hc, hs⟩ := hs
      exact h c (fun e => hn.1 (e ▸ hc)) st hs
    · rw [runOn_skip v (f b) x (h b e)]
      exact ih (by simpa [Ne.symm e] using ha) hn.2 x

/-- The atom to which a variable belongs. -/
def atomOf : RVar → Option ℕ
  | .pos _ a _ => some a
  | .u _ a _ => some a
  | .occ _ a => some a
  | _ => none

section
variable (D : Data) (ph : PPhase) (s : Sel) (ip : ℕ) (r c : ℝ)

theorem atomStmts_names (ia : ℕ) : ∀ st ∈ atomStmts D ph s ip r c ia, owner st.1 = some ip ∧ atomOf st.1 = some ia := by
  intro st h
  simp only [atomStmts, List.mem_cons, List.not_mem_nil, or_false] at h
  rcases h with h | h | h | h | h | h | h | h | h | h <;> rw [h] <;> exact ⟨rfl, rfl⟩

theorem phaseStmts_owner : ∀ st ∈ phaseStmts D ph s ip r c, owner st.1 = some ip := by
  intro st h
  simp only [phaseStmts, List.mem_append, List.mem_flatMap, List.mem_cons, List.not_mem_nil, or_false] at h
  rcases h with ⟨ia, -, h⟩ | h
  · exact (atomStmts_names D ph s ip r c ia st h).1
  · rcases h with h | h | h | h | h | h | h | h | h | h | h <;> rw [h] <;> rfl

/-- Variables of the phase that do not belong to an atom. -/
theorem run_global (v : RVar) (h : atomOf v = none) (x : ℝ) : runOn v (phaseStmts D ph s ip r c) x = runOn v
    [(.a0 ip 0, fun x => facp D ph r * (facs ph r * x + 4 * Real.pi * r * dnorm ph s * ph.rho0 / ph.cell.a0 0)),
      (.a0 ip 1, fun x => facp D ph r * (facs ph r * x + 4 * Real.pi * r * dnorm ph s * ph.rho0 / ph.cell.a0 1)),
      (.a0 ip 2, fun x => facp D ph r * (facs ph r * x + 4 * Real.pi * r * dnorm ph s * ph.rho0 / ph.cell.a0 2)),
      (.win ip 0, fun x => facp D ph r * (facs ph r * x + 4 * Real.pi * r * dnorm ph s * ph.rho0 * ddrho ph.cell 0)),
      (.win ip 1, fun x => facp D ph r * (facs ph r * x + 4 * Real.pi * r * dnorm ph s * ph.rho0 * ddrho ph.cell 1)),
      (.win ip 2, fun x => facp D ph r * (facs ph r * x + 4 * Real.pi * r * dnorm ph s * ph.rho0 * ddrho ph.cell 2)),
      (.delta2 ip, fun x => x * fac D ph r), (.delta1 ip, fun x => x * fac D ph r),
      (.pscale ip, fun _ => c * D.dscale),
      (.spdiameter ip, fun _ => if ph.spdiameter ≤ 0 then 0 else
        c * D.dscale * ph.pscale * Shape.dsphereEnvelope r ph.spdiameter / (if 0 < shapeEnv ph r then shapeEnv ph r else 1)),
      (.sratio ip, fun x => x * fac D ph r)] x := by
  unfold phaseStmts
  dsimp only
  rw [runOn_append, runOn_skip v ((List.range ph.atom.length).flatMap _)]
  intro st hs e
  rw [List.mem_flatMap] at hs
  obtain ⟨ia, -, hs⟩ := hs
  have := (atomStmts_names D ph s ip r c ia st hs).2
  rw [e, h] at this
  cases this

/-- Variables of an atom. -/
theorem run_atom (v : RVar) (ia : ℕ) (h : atomOf v = some ia) (hi : ia < ph.atom.length) (x : ℝ) :
    runOn v (phaseStmts D ph s ip r c) x = runOn v (atomStmts D ph s ip r c ia) x := by
  unfold phaseStmts
  dsimp only
  rw [runOn_append, runOn_flatMap v _ _ ia (List.mem_range.2 hi) List.nodup_range]
  · apply runOn_skip
    intro st hs e
    simp only [List.mem_cons, List.not_mem_nil, or_false] at hs
    rw [← e] at h
    rcases hs with hs | hs | hs | hs | hs | hs | hs | hs | hs | hs | hs <;> rw [hs] at h <;> cases h
  · intro b hb st hs e
    have := (atomStmts_names D ph s ip r c b st hs).2
    rw [e, h] at this
    exact hb (Option.some.inj this).symm

theorem run_a0 (k : Fin 3) (x : ℝ) : runOn (.a0 ip k) (phaseStmts D ph s ip r c) x =
    facp D ph r * (facs ph r * x + 4 * Real.pi * r * dnorm ph s * ph.rho0 / ph.cell.a0 k) := by
  rw [run_global _ _ _ _ _ _ _ rfl]
  fin_cases k <;> simp [runOn]

theorem run_win (k : Fin 3) (x : ℝ) : runOn (.win ip k) (phaseStmts D ph s ip r c) x =
    facp D ph r * (facs ph r * x + 4 * Real.pi * r * dnorm ph s * ph.rho0 * ddrho ph.cell k) := by
  rw [run_global _ _ _ _ _ _ _ rfl]
  fin_cases k <;> simp [runOn]

theorem run_delta2 (x : ℝ) : runOn (.delta2 ip) (phaseStmts D ph s ip r c) x = x * fac D ph r := by
  rw [run_global _ _ _ _ _ _ _ rfl]; simp [runOn]

theorem run_delta1 (x : ℝ) : runOn (.delta1 ip) (phaseStmts D ph s ip r c) x = x * fac D ph r := by
  rw [run_global _ _ _ _ _ _ _ rfl]; simp [runOn]

theorem run_sratio (x : ℝ) : runOn (.sratio ip) (phaseStmts D ph s ip r c) x = x * fac D ph r := by
  rw [run_global _ _ _ _ _ _ _ rfl]; simp [runOn]

theorem run_pscale (x : ℝ) : runOn (.pscale ip) (phaseStmts D ph s ip r c) x = c * D.dscale := by
  rw [run_global _ _ _ _ _ _ _ rfl]; simp [runOn]

theorem run_spd (x : ℝ) : runOn (.spdiameter ip) (phaseStmts D ph s ip r c) x = if ph.spdiameter ≤ 0 then 0 else
    c * D.dscale * ph.pscale * Shape.dsphereEnvelope r ph.spdiameter / (if 0 < shapeEnv ph r then shapeEnv ph r else 1) := by
  rw [run_global _ _ _ _ _ _ _ rfl]; simp [runOn]

theorem run_pos (ia : ℕ) (k : Fin 3) (hi : ia < ph.atom.length) (x : ℝ) :
    runOn (.pos ip ia k) (phaseStmts D ph s ip r c) x = x * fac D ph r := by
  rw [run_atom _ _ _ _ _ _ _ ia rfl hi]
  fin_cases k <;> simp [runOn, atomStmts]

theorem run_u (ia : ℕ) (k : Fin 6) (hi : ia < ph.atom.length) (x : ℝ) :
    runOn (.u ip ia k) (phaseStmts D ph s ip r c) x = x * fac D ph r := by
  rw [run_atom _ _ _ _ _ _ _ ia rfl hi]
  fin_cases k <;> simp [runOn, atomStmts]

theorem run_occ (ia : ℕ) (hi : ia < ph.atom.length) (x : ℝ) :
    runOn (.occ ip ia) (phaseStmts D ph s ip r c) x =
      facp D ph r * (facs ph r * x - 4 * Real.pi * r * ph.rho0 * dnorm ph s / ph.np) +
      ph.pscale * D.dscale * (1 - 2 * ph.weight ia) / ph.np *
        (c + 4 * Real.pi * r * ph.rho0 * dnorm ph s * bk D r * shapeEnv ph r) := by
  rw [run_atom _ _ _ _ _ _ _ ia rfl hi]
  simp [runOn, atomStmts]

end

theorem phasesStmts_owner (D : Data) (i : ℤ) (l : List (Option Calced)) (k : ℕ) :
    ∀ st ∈ phasesStmts D i l k, ∃ q, owner st.1 = some q ∧ k ≤ q := by
  induction l generalizing k with
  | nil => intro st h; simp [phasesStmts] at h
  | cons a l ih =>
    intro st h
    cases a with
    | none =>
      obtain ⟨q, h1, h2⟩ := ih (k + 1) st h
      exact ⟨q, h1, by omega⟩
    | some x =>
      rw [phasesStmts, List.mem_append] at h
      rcases h with h | h
      · exact ⟨k, phaseStmts_owner _ _ _ _ _ _ st h, le_rfl⟩
      · obtain ⟨q, h1, h2⟩ := ih (k + 1) st h
        exact ⟨q, h1, by omega⟩

theorem runOn_phases (D : Data) (i : ℤ) (l : List (Option Calced)) (k q : ℕ) (x : Calced) (v : RVar)
    (hx : l[q]? = some (some x)) (hv : owner v = some (k + q)) (y : ℝ) :
    runOn v (phasesStmts D i l k) y = runOn v (phaseStmts D x.1 x.2.1 (k + q) (D.r i) (x.2.2 i)) y := by
  induction l generalizing k q y with
  | nil => simp at hx
  | cons a l ih =>
    cases q with
    | zero =>
      simp only [List.getElem?_cons_zero, Option.some.injEq] at hx
      subst hx
      rw [phasesStmts, runOn_append]
      apply runOn_skip
      intro st hs e
      obtain ⟨q, h1, h2⟩ := phasesStmts_owner D i l (k + 1) st hs
      rw [e, hv] at h1
      have := Option.some.inj h1
      omega
    | succ q =>
      rw [List.getElem?_cons_succ] at hx
      have e : k + (q + 1) = k + 1 + q := by omega
      rw [e] at hv ⊢
      cases a with
      | none => rw [phasesStmts]; exact ih (k + 1) q hx hv y
      | some z =>
        rw [phasesStmts, runOn_append, ih (k + 1) q hx hv]
        rw [runOn_skip v (phaseStmts D z.1 z.2.1 k _ _)]
        intro st hs e'
        have h1 := phaseStmts_owner D z.1 z.2.1 k _ _ st hs
        rw [e', hv] at h1
        have := Option.some.inj h1
        omega

/-! ## The columns of `calc` -/

/-- The selected phases with their curves. -/
noncomputable def cal (D : Data) (psel : List (Option (PPhase × Sel))) : List (Option Calced) :=
  psel.map (Option.map fun x => (x.1, x.2, curve D x.1 x.2))

/-- Two lists with the same curves at a grid point. -/
theorem calcs_spec {D : Data} (h : D.Ok) (psel : List (Option (PPhase × Sel))) :
    ∃ l, calcs D psel = .ok l ∧ ∀ i, D.ncmin ≤ i → i ≤ D.ncmax → ∀ is, stmts D is i l = stmts D is i (cal D psel) := by
  have key : ∃ l, calcs D psel = .ok l ∧ ∀ i, D.ncmin ≤ i → i ≤ D.ncmax →
      (∀ k, phasesStmts D i l k = phasesStmts D i (cal D psel) k) ∧
      (∀ f, l.foldl (fun f x => match x with
        | none => f
        | some y => fac D y.1 (D.r i)) f = (cal D psel).foldl (fun f x => match x with
        | none => f
        | some y => fac D y.1 (D.r i)) f) ∧
      ∀ t, l.foldl (fun t x => match x with
        | none => t
        | some y => t + D.dscale * y.1.pscale * y.2.2 i) t = (cal D psel).foldl (fun t x => match x with
        | none => t
        | some y => t + D.dscale * y.1.pscale * y.2.2 i) t := by
    induction psel with
    | nil => exact ⟨[], rfl, fun i _ _ => ⟨fun _ => rfl, fun _ => rfl, fun _ => rfl⟩⟩
    | cons a m ih =>
      obtain ⟨l, e, hl⟩ := ih
      cases a with
      | none =>
        refine ⟨none :: l, by rw [calcs, e]; rfl, fun i hi hi' => ?_⟩
        obtain ⟨h1, h2, h3⟩ := hl i hi hi'
        refine ⟨fun k => ?_, h2, h3⟩
        exact h1 (k + 1)
      | some x =>
        obtain ⟨p, ep, -, hp⟩ := ppp_spec h x.1 x.2
        refine ⟨some (x.1, x.2, calcAt D x.1 x.2 p) :: l, by rw [calcs, ep, Res.bind_ok, e]; rfl, fun i hi hi' => ?_⟩
        obtain ⟨h1, h2, h3⟩ := hl i hi hi'
        have hc : calcAt D x.1 x.2 p i = curve D x.1 x.2 i := by
          unfold calcAt curve
          rw [hp i ((ncmin_nonneg h).trans hi) hi']
        refine ⟨fun k => ?_, fun f => ?_, fun t => ?_⟩
        · show phaseStmts D x.1 x.2 k (D.r i) (calcAt D x.1 x.2 p i) ++ phasesStmts D i l (k + 1) =
            phaseStmts D x.1 x.2 k (D.r i) (curve D x.1 x.2 i) ++ phasesStmts D i (cal D m) (k + 1)
          rw [hc, h1]
        · exact h2 _
        · show List.foldl _ (t + D.dscale * x.1.pscale * calcAt D x.1 x.2 p i) l = _
          rw [hc, h3]
          rfl
  obtain ⟨l, e, hl⟩ := key
  refine ⟨l, e, fun i hi hi' is => ?_⟩
  obtain ⟨h1, h2, h3⟩ := hl i hi hi'
  have a2 : lastFac D i l = lastFac D i (cal D psel) := h2 0
  have a3 : totAt D i l = totAt D i (cal D psel) := h3 0
  unfold stmts
  rw [h1, a2, a3]

/-! ## The sums over the pairs -/

theorem dincs_range {D : Data} (h : D.Ok) (ph : PPhase) (is ip : ℕ) (v : RVar) (x : (ℕ × ℕ) × (ℤ × ℤ × ℤ)) :
    ∀ y ∈ dincs D ph is ip v x, D.ncmin ≤ y.1 ∧ y.1 ≤ D.ncmax := by
  intro y hy
  unfold dincs at hy
  split at hy
  · rw [List.mem_map] at hy
    obtain ⟨g, hg, rfl⟩ := hy
    rw [mem_grid] at hg
    exact ⟨(ib_ge h _ _).trans hg.1, hg.2.trans (ie_le h _ _ _)⟩
  · simp at hy

theorem rawIncs_range {D : Data} (h : D.Ok) (is : ℕ) (v : RVar) (psel : List (Option (PPhase × Sel))) (k : ℕ) :
    ∀ y ∈ rawIncs D is v psel k, D.ncmin ≤ y.1 ∧ y.1 ≤ D.ncmax := by
  induction psel generalizing k with
  | nil => intro y hy; simp [rawIncs] at hy
  | cons a l ih =>
    cases a with
    | none => exact ih (k + 1)
    | some x =>
      intro y hy
      rw [rawIncs, List.mem_append, List.mem_flatMap] at hy
      rcases hy with ⟨z, -, hy⟩ | hy
      · exact dincs_range h _ _ _ _ _ y hy
      · exact ih (k + 1) y hy

theorem raw_spec {D : Data} (h : D.Ok) (is : ℕ) (v : RVar) (psel : List (Option (PPhase × Sel))) :
    ∃ p, raw D is v psel = .ok p ∧ ∀ i, D.ncmin ≤ i → i ≤ D.ncmax → p.getD i.toNat 0 = sumAt (rawIncs D is v psel 0) i := by
  have h0 := ncmin_nonneg h
  obtain ⟨p, e1, -, e3⟩ := addAll_spec (rawIncs D is v psel 0) (List.replicate (D.ncmax + 1).toNat 0) fun x hx => by
    have := rawIncs_range h is v psel 0 x hx
    rw [List.length_replicate]
    omega
  rw [List.length_replicate] at e3
  refine ⟨p, e1, fun i hi hi' => ?_⟩
  rw [e3 i (by omega) (by omega), getD_lt _ (by rw [List.length_replicate]; omega), List.getElem_replicate, zero_add]

theorem valOf_other (p : Pk) (is ip ia ja : ℕ) (v : RVar) (q : ℕ) (hv : owner v = some q) (hq : q ≠ ip) :
    valOf v (p.adds is ip ia ja) = 0 := by
  unfold valOf
  apply List.sum_eq_zero
  intro y hy
  rw [List.mem_map] at hy
  obtain ⟨x, hx, rfl⟩ := hy
  rw [if_neg]
  rintro rfl
  simp only [Pk.adds, List.mem_cons, List.not_mem_nil, or_false] at hx
  rcases hx with hx | hx | hx | hx | hx | hx | hx | hx | hx | hx | hx | hx | hx | hx | hx | hx | hx | hx | hx | hx | hx | hx |
    hx | hx | hx | hx | hx | hx | hx | hx <;> rw [hx] at hv <;> simp [owner] at hv <;> exact hq hv.symm

theorem decSum_other (D : Data) (ph : PPhase) (s : Sel) (is ip : ℕ) (v : RVar) (i : ℤ) (q : ℕ) (hv : owner v = some q)
    (hq : q ≠ ip) : decSum D ph s (dval D ph is ip v) i = 0 := by
  unfold decSum
  apply List.sum_eq_zero
  intro y hy
  rw [List.mem_map] at hy
  obtain ⟨x, -, rfl⟩ := hy
  unfold dval
  rw [valOf_other _ _ _ _ _ _ q hv hq, ite_self]

theorem raw_late (D : Data) (is : ℕ) (v : RVar) (psel : List (Option (PPhase × Sel))) (k q : ℕ) (hv : owner v = some q)
    (hq : q < k) (i : ℤ) : sumAt (rawIncs D is v psel k) i = 0 := by
  induction psel generalizing k with
  | nil => rfl
  | cons a l ih =>
    cases a with
    | none => exact ih (k + 1) (by omega)
    | some x => rw [rawIncs, sumAt_append, dincs_dec, ih (k + 1) (by omega), decSum_other _ _ _ _ _ _ _ q hv (by omega), add_zero]

theorem raw_owner (D : Data) (is : ℕ) (v : RVar) (psel : List (Option (PPhase × Sel))) (k q : ℕ) (x : PPhase × Sel)
    (hx : psel[q]? = some (some x)) (hv : owner v = some (k + q)) (i : ℤ) :
    sumAt (rawIncs D is v psel k) i = decSum D x.1 x.2 (dval D x.1 is (k + q) v) i := by
  induction psel generalizing k q with
  | nil => simp at hx
  | cons a l ih =>
    cases q with
    | zero =>
      simp only [List.getElem?_cons_zero, Option.some.injEq] at hx
      subst hx
      rw [rawIncs, sumAt_append, dincs_dec, raw_late _ _ _ _ _ (k + 0) hv (by omega), add_zero]
      rfl
    | succ q =>
      rw [List.getElem?_cons_succ] at hx
      have e : k + (q + 1) = k + 1 + q := by omega
      rw [e] at hv ⊢
      cases a with
      | none => rw [rawIncs]; exact ih (k + 1) q hx hv
      | some z =>
        rw [rawIncs, sumAt_append, dincs_dec, ih (k + 1) q hx hv, decSum_other _ _ _ _ _ _ _ _ hv (by omega), zero_add]

/-! ## The column of `fit_a` -/

/-- The column before the termination filter. -/
noncomputable def column (D : Data) (is : ℕ) (v : RVar) (psel : List (Option (PPhase × Sel))) (i : ℤ) : ℝ :=
  runOn v (stmts D is i (cal D psel)) (sumAt (rawIncs D is v psel 0) i)

theorem fitA_of {D : Data} (h : D.Ok) (is : ℕ) (v : RVar) (psel : List (Option (PPhase × Sel)))
    (hb : ∀ x, some x ∈ psel → ¬Bad D x.1 x.2) (h0 : ¬Div0 D is v psel) :
    ∃ c, fitA D is v psel = .ok (some c) ∧ ∀ i, D.ncmin ≤ i → i ≤ D.ncmax → c i = filt D (column D is v psel) i := by
  obtain ⟨t, e1, -⟩ := total_spec h psel
  rw [if_pos hb] at e1
  obtain ⟨p, e2, hp⟩ := raw_spec h is v psel
  obtain ⟨l, e3, hl⟩ := calcs_spec h psel
  refine ⟨fun i => filt D (fun i => runOn v (stmts D is i l) (p.getD i.toNat 0)) i, ?_, fun i hi hi' => ?_⟩
  · unfold fitA
    rw [e1, Res.bind_ok, e2, Res.bind_ok, e3, Res.bind_ok]
    dsimp only
    rw [if_neg h0]
    by_cases hq : 0 < D.qmax
    · obtain ⟨z, hz, -⟩ := C42.total h.step hq (nclen_pos h)
        (fun n : ℕ => runOn v (stmts D is (D.ncmin + n) l) (p.getD (D.ncmin + n).toNat 0))
      rw [if_pos hq, hz]
      dsimp only
      congr 2
      funext i
      unfold filt
      rw [if_pos hq, hz]
      rfl
    · rw [if_neg hq]
      congr 2
      funext i
      unfold filt
      rw [if_neg hq]
  · refine filt_congr h (fun j hj hj' => ?_) i hi hi'
    unfold column
    rw [hl j hj hj', hp j hj hj']

/-- The column of a variable of a phase. -/
theorem column_phase (D : Data) (is : ℕ) (v : RVar) (psel : List (Option (PPhase × Sel))) (q : ℕ) (x : PPhase × Sel)
    (hx : psel[q]? = some (some x)) (hv : owner v = some q) (i : ℤ) : column D is v psel i =
      runOn v (phaseStmts D x.1 x.2 q (D.r i) (curve D x.1 x.2 i)) (decSum D x.1 x.2 (dval D x.1 is q v) i) := by
  unfold column stmts
  rw [runOn_append]
  have h1 := raw_owner D is v psel 0 q x hx (by rwa [Nat.zero_add]) i
  rw [Nat.zero_add] at h1
  have h2 := runOn_phases D i (cal D psel) 0 q (x.1, x.2, curve D x.1 x.2) v (by
    unfold cal
    rw [List.getElem?_map, hx]
    rfl) (by rwa [Nat.zero_add]) (decSum D x.1 x.2 (dval D x.1 is q v) i)
  rw [Nat.zero_add] at h2
  rw [h1, h2]
  apply runOn_skip
  intro st hs e
  rw [← e] at hv
  simp only [List.mem_cons, List.not_mem_nil, or_false] at hs
  rcases hs with hs | hs | hs <;> rw [hs] at hv <;> cases hv

/-! ## The termination filter and derivatives -/

theorem filt_grid {D : Data} (h : D.Ok) (i : ℤ) (h1 : D.ncmin ≤ i) (h2 : i ≤ D.ncmax) (c : ℤ → ℝ) : filt D c i =
    ((grid D.ncmin D.ncmax).map fun j => c j * filt D (fun m => if m = j then 1 else 0) i).sum := by
  have e : ∀ m, D.ncmin ≤ m → m ≤ D.ncmax →
      c m = ((grid D.ncmin D.ncmax).map fun j => c j * if m = j then 1 else 0).sum := by
    intro m hm hm'
    have hmem : m ∈ grid D.ncmin D.ncmax := mem_grid.2 ⟨hm, hm'⟩
    have hn := nodup_grid D.ncmin D.ncmax
    generalize grid D.ncmin D.ncmax = l at hmem hn
    induction l with
    | nil => simp at hmem
    | cons a l ih =>
      rw [List.nodup_cons] at hn
      rw [List.map_cons, List.sum_cons]
      by_cases ea : m = a
      · subst ea
        rw [if_pos rfl, mul_one, List.sum_eq_zero, add_zero]
        intro y hy
        rw [List.mem_map] at hy
        obtain ⟨j, hj, rfl⟩ := hy
        rw [if_neg (fun e : m = j => hn.1 (e ▸ hj)), mul_zero]
      · rw [if_neg ea, mul_zero, zero_add]
        exact ih (by simpa [ea] using hmem) hn.2
  rw [filt_congr h e i h1 h2, filt_sum h]
  congr 1
  apply List.map_congr_left
  intro j _
  exact filt_smul h (c j) (fun m => if m = j then 1 else 0) i

theorem filt_deriv {D : Data} (h : D.Ok) (g : ℝ → ℤ → ℝ) (g' : ℤ → ℝ) (t₀ : ℝ)
    (hg : ∀ i, D.ncmin ≤ i → i ≤ D.ncmax → HasDerivAt (fun t => g t i) (g' i) t₀) (i : ℤ) (h1 : D.ncmin ≤ i) (h2 : i ≤ D.ncmax) :
    HasDerivAt (fun t => filt D (g t) i) (filt D g' i) t₀ := by
  have e : (fun t => filt D (g t) i) = fun t =>
      ((grid D.ncmin D.ncmax).map fun j => g t j * filt D (fun m => if m = j then 1 else 0) i).sum := by
    funext t
    exact filt_grid h i h1 h2 (g t)
  rw [e, filt_grid h i h1 h2 g']
  apply hasDerivAt_list
  intro j hj
  rw [mem_grid] at hj
  exact (hg j hj.1 hj.2).mul_const _

end Pdffit.Deriv
