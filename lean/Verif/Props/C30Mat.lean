import Verif.Lemmas.DerivMat
import Verif.Lemmas.DetDemo
import Verif.Props.C30

/-!
# C30, derivatives: the matrices `fit_a` and `fit_b`

`Model/DerivMat.lean` addresses the matrices as the code does: rows by the grid index, columns by `refvar` at the offsets that
`fit_setup` stored. The theorems say that after `fit_setup` no access is outside, that the matrices have the right size and
that every column is the one of its own variable (`Model/Deriv.lean`, C44).
-/

namespace Pdffit.C30
open Det Deriv Layout DMat C47

section
variable {F : Type} (addr : RVar → ℕ) (cons : List (Constr F)) (natoms : List ℕ) (nset : ℕ)

/-- The columns that `refvar` refers to exist. -/
theorem refvar_lt (c : ℕ) (h : some c ∈ refvar addr cons natoms nset) : c < (cons.map Constr.vref).length := by
  obtain ⟨k, hk⟩ := List.mem_iff_getElem?.1 h
  obtain ⟨v, x, -, h2, -⟩ := own addr cons natoms nset k c hk
  rw [List.length_map]
  exact (List.getElem?_eq_some_iff.1 h2).1

theorem refvar_len : (refvar addr cons natoms nset).length = (setup natoms nset).slots.length := List.length_map ..

/-- At most one position refers to a column. -/
theorem refvar_unique (hsep : Separate addr natoms nset) {k c : ℕ} (h : (refvar addr cons natoms nset)[k]? = some (some c)) (j : ℕ) :
    (refvar addr cons natoms nset)[j]? = some (some c) ↔ j = k := by
  refine ⟨fun hj => ?_, fun e => e ▸ h⟩
  obtain ⟨v, x, h1, h2, h3, -⟩ := own addr cons natoms nset k c h
  obtain ⟨w, y, g1, g2, g3, -⟩ := own addr cons natoms nset j c hj
  rw [h2] at g2
  cases g2
  have ex : ∀ (k : ℕ) (v : RVar), (setup natoms nset).slots[k]? = some v → C47.Exists natoms nset v := fun k v hv => by
    rw [← complete]
    exact List.mem_of_getElem? hv
  have e := hsep w v (ex j w g1) (ex k v h1) (g3.symm.trans h3)
  subst e
  obtain ⟨a1, a2⟩ := List.getElem?_eq_some_iff.1 g1
  obtain ⟨b1, b2⟩ := List.getElem?_eq_some_iff.1 h1
  exact (List.Nodup.getElem_inj_iff (distinct natoms nset)).1 (a2.trans b2.symm)

/-- `fit_a` with its entries. -/
theorem fitA_entries {D : Data} (h : D.Ok) (is : ℕ) (his : is < nset) (psel : List (Option (PPhase × Sel)))
    (hk : Known natoms psel 0) (old : Mat ℝ) (ho : old.WF) :
    ∃ A E, fitAMat (layOf addr cons natoms nset) (cons.map Constr.vref) old D is psel = .ok A ∧
      Has A (D.ncmax + 1).toNat cons.length E ∧
      (∀ (k c : ℕ) (v : RVar), Separate addr natoms nset → (refvar addr cons natoms nset)[k]? = some (some c) →
        (setup natoms nset).slots[k]? = some v → ∀ i : ℕ, D.ncmin ≤ i → (i : ℤ) ≤ D.ncmax → E i c = filt D (column D is v psel) i) ∧
      ∀ c, some c ∉ refvar addr cons natoms nset → c < cons.length → ∀ i : ℕ, D.ncmin ≤ i → (i : ℤ) ≤ D.ncmax → E i c = 0 := by
  have h0 := ncmin_nonneg h
  have hle := ncmin_le_ncmax h
  have hlen : (cons.map Constr.vref).length = cons.length := List.length_map ..
  have hR : ((D.ncmax + 1).toNat : ℤ) = D.ncmax + 1 := by omega
  obtain ⟨A0, e0, H0⟩ := reset_has old ho (D.ncmax + 1).toNat (cons.map Constr.vref).length
  obtain ⟨ops, e1, r1⟩ := rawOps_rel addr cons natoms nset D is his psel 0 hk
  have hrange : ∀ (ops : List Op) (l : List AOp), List.Forall₂ (OpRel (setup natoms nset).slots) ops l →
      (∀ a ∈ l, D.ncmin ≤ a.1 ∧ a.1 ≤ D.ncmax) →
      ∀ op ∈ ops, 0 ≤ op.row ∧ op.row < ((D.ncmax + 1).toNat : ℤ) ∧ op.slot < (refvar addr cons natoms nset).length := by
    intro ops l r hl op hop
    obtain ⟨a1, a2, a3⟩ := rel_range r hl op hop
    rw [refvar_len]
    exact ⟨by omega, by omega, a3⟩
  obtain ⟨A1, e2, H1⟩ := exec_has _ _ _ (refvar_lt addr cons natoms nset) ops
    (hrange ops _ r1 (rawA_range h is psel 0)) _ _ H0
  obtain ⟨l, e3, hl⟩ := calcs_spec h psel
  have hkc := calcs_known hk e3
  obtain ⟨ops', e4, r2⟩ := collect_rel _ (pointOps (layOf addr cons natoms nset) D is l) (pointA D is l) (grid D.ncmin D.ncmax)
    fun i _ => pointOps_rel addr cons natoms nset D is his l hkc i
  have hpr : ∀ a ∈ (grid D.ncmin D.ncmax).flatMap (pointA D is l), D.ncmin ≤ a.1 ∧ a.1 ≤ D.ncmax := by
    intro a ha
    rw [List.mem_flatMap] at ha
    obtain ⟨i, hi, ha⟩ := ha
    unfold pointA at ha
    rw [List.mem_map] at ha
    obtain ⟨y, -, rfl⟩ := ha
    exact mem_grid.1 hi
  obtain ⟨A2, e5, H2⟩ := exec_has _ _ _ (refvar_lt addr cons natoms nset) ops' (hrange ops' _ r2 hpr) _ _ H1
  obtain ⟨A3, e6, E, H3, hE⟩ := filterCols_has h (cons.map Constr.vref) hR H2
  refine ⟨A3, E, ?_, ?_, ?_, ?_⟩
  · unfold fitAMat
    rw [e0, Res.bind_ok, e1, Res.bind_ok]
    show (execAll (refvar addr cons natoms nset) ops (A0.fill 0) >>= _) = _
    rw [e2, Res.bind_ok, e3, Res.bind_ok, e4, Res.bind_ok]
    show (execAll (refvar addr cons natoms nset) ops' A1 >>= _) = _
    rw [e5, Res.bind_ok, e6]
  · rw [hlen] at H3
    exact H3
  · intro k c v hsep hc hv i hi hi'
    have hcl := refvar_lt addr cons natoms nset c (List.mem_of_getElem? hc)
    obtain ⟨v', x, g1, g2, -, g4⟩ := own addr cons natoms nset k c hc
    have hx : (cons.map Constr.vref).getD c false = true := by
      rw [List.getD, List.getElem?_map, g2]
      exact g4
    rw [hE c i hcl hi hi', if_pos hx]
    refine filt_congr h (fun j hj hj' => ?_) i hi hi'
    have hu := refvar_unique addr cons natoms nset hsep hc
    rw [foldAt_eq (distinct natoms nset) hv hu r1, foldAt_eq (distinct natoms nset) hv hu r2, runAt_raw,
      runAt_points _ _ _ _ _ _ (nodup_grid _ _), if_pos (by rw [mem_grid]; omega), zero_add]
    rw [show ((j.toNat : ℕ) : ℤ) = j by omega, hl j hj hj']
    rfl
  · intro c hc hcl i hi hi'
    rw [hE c i (by rw [hlen]; exact hcl) hi hi']
    split
    · rw [filt_congr h (d := fun _ => 0) (fun j hj hj' => by rw [foldAt_none hc, foldAt_none hc]) i hi hi', filt_zero h]
    · rw [foldAt_none hc, foldAt_none hc]

/-- (partial) After `fit_setup`, `determine(true, ...)` ends without any access outside `refvar`, `fit_a` and `fit_b`; `fit_a` has a row for every point
of the calculated range and a column for every constraint, `fit_b` a column for every parameter; and the least-squares
routine reads `fit_b` inside it. Missing: states in which phases were added without another `fit_setup` (`stale_layout`). -/
theorem derivatives_ok_partial (d : DSet) (i : Inv d) (is : ℕ) (his : is < nset) (psel : List (Option (PPhase × Sel)))
    (hk : Known natoms psel 0) (old : Mat ℝ) (ho : old.WF) (dvdp : Mat ℝ) (hw : dvdp.WF) (hr : dvdp.rows = cons.length) :
    ∃ A B y, fitAMat (layOf addr cons natoms nset) (cons.map Constr.vref) old d.D is psel = .ok A ∧
      A.WF ∧ A.rows = (d.D.ncmax + 1).toNat ∧ A.cols = cons.length ∧
      fitBMat (layOf addr cons natoms nset) (cons.map Constr.vref) old dvdp d.D is psel = .ok B ∧
      B.WF ∧ B.rows = (d.D.ncmax + 1).toNat ∧ B.cols = dvdp.cols ∧
      dyda B dvdp.cols d.D = .ok y ∧ (y.length : ℤ) = d.D.nfmax - d.D.nfmin + 1 ∧ ∀ r ∈ y, r.length = dvdp.cols := by
  have o : d.D.Ok := ⟨i.step, i.lo, i.ord⟩
  obtain ⟨A, E, e, H, -, -⟩ := fitA_entries addr cons natoms nset o is his psel hk old ho
  have hd : C48.Holds dvdp (fun (i : Fin cons.length) (c : Fin dvdp.cols) =>
      dvdp.data[(i : ℕ) * dvdp.cols + c]'(by rw [hw, hr]; exact flat_lt i.2 c.2)) := by
    refine ⟨hr, rfl, hw, fun i j => ?_⟩
    unfold Mat.get
    rw [Res.at?_of_lt]
  obtain ⟨B, e', hB⟩ := C48.C48_product A dvdp _ _ H.holds hd
  have h1 := ncmin_nonneg o
  have h2 := ncmin_le_nfmin o
  have h3 := nfmin_le_nfmax o
  have h4 := nfmax_le_ncmax o
  have hg : ∀ i ∈ grid d.D.nfmin d.D.nfmax, ∀ j, j < dvdp.cols → ∃ x, getZ B i j = .ok x := by
    intro i hi j hj
    rw [mem_grid] at hi
    unfold getZ
    rw [if_pos (by omega)]
    exact ⟨_, hB.get ⟨i.toNat, by omega⟩ ⟨j, hj⟩⟩
  have hrow : ∀ i ∈ grid d.D.nfmin d.D.nfmax,
      ∃ r, collect (fun j => getZ B i j >>= fun x => .ok [x]) (List.range dvdp.cols) = .ok r ∧ r.length = dvdp.cols := by
    intro i hi
    choose! g hg using hg i hi
    refine ⟨(List.range dvdp.cols).flatMap fun j => [g j], collect_ok _ _ _ fun j hj => ?_, ?_⟩
    · rw [hg j (List.mem_range.1 hj), Res.bind_ok]
    · simp
  choose! r hrow using hrow
  refine ⟨A, B, (grid d.D.nfmin d.D.nfmax).flatMap fun i => [r i], e, H.wf, H.rows, H.cols, ?_, hB.wf, hB.rows, hB.cols, ?_, ?_, ?_⟩
  · unfold fitBMat
    rw [e, Res.bind_ok, e']
  · unfold dyda
    refine collect_ok _ _ _ fun j hj => ?_
    rw [(hrow j hj).1, Res.bind_ok]
  · have : (grid d.D.nfmin d.D.nfmax).length = (d.D.nfmax + 1 - d.D.nfmin).toNat := by simp [grid]
    simp only [List.length_flatMap, List.length_cons, List.length_nil, Nat.zero_add, List.map_const', List.sum_replicate, smul_eq_mul,
      Nat.mul_one, this]
    omega
  · intro a ha
    rw [List.mem_flatMap] at ha
    obtain ⟨j, hj, ha⟩ := ha
    rw [List.mem_singleton] at ha
    rw [ha, (hrow j hj).2]

/-- The column of an attached constraint is the column of its variable, whatever the other variables are. -/
theorem derivatives_column {D : Data} (h : D.Ok) (hsep : Separate addr natoms nset) (is : ℕ) (his : is < nset)
    (psel : List (Option (PPhase × Sel))) (hk : Known natoms psel 0) (old : Mat ℝ) (ho : old.WF) (k c : ℕ) (v : RVar)
    (hc : (refvar addr cons natoms nset)[k]? = some (some c)) (hv : (setup natoms nset).slots[k]? = some v) (col : ℤ → ℝ)
    (hcol : fitA D is v psel = .ok (some col)) (A : Mat ℝ)
    (hA : fitAMat (layOf addr cons natoms nset) (cons.map Constr.vref) old D is psel = .ok A) (i : ℕ) (hi : D.ncmin ≤ i)
    (hi' : (i : ℤ) ≤ D.ncmax) : A.get i c = .ok (col i) := by
  obtain ⟨A', E, e, H, h1, -⟩ := fitA_entries addr cons natoms nset h is his psel hk old ho
  rw [hA] at e
  cases e
  have hcl := refvar_lt addr cons natoms nset c (List.mem_of_getElem? hc)
  rw [List.length_map] at hcl
  rw [H.get i c (by omega) hcl, h1 k c v hsep hc hv i hi hi']
  have hb : ∀ x, some x ∈ psel → ¬Bad D x.1 x.2 := by
    by_contra hb
    obtain ⟨t, e1, -⟩ := total_spec h psel
    rw [if_neg hb] at e1
    obtain ⟨p, e2, -⟩ := raw_spec h is v psel
    obtain ⟨l, e3, -⟩ := calcs_spec h psel
    unfold fitA at hcol
    rw [e1, Res.bind_ok, e2, Res.bind_ok, e3, Res.bind_ok] at hcol
    cases hcol
  have hd : ¬Div0 D is v psel := by
    intro hd
    obtain ⟨t, e1, -⟩ := total_spec h psel
    rw [if_pos hb] at e1
    obtain ⟨p, e2, -⟩ := raw_spec h is v psel
    obtain ⟨l, e3, -⟩ := calcs_spec h psel
    unfold fitA at hcol
    rw [e1, Res.bind_ok, e2, Res.bind_ok, e3, Res.bind_ok] at hcol
    dsimp only at hcol
    rw [if_pos hd] at hcol
    cases hcol
  obtain ⟨col', e1, h2⟩ := fitA_of h is v psel hb hd
  rw [hcol] at e1
  cases e1
  rw [h2 i hi hi']

/-- The column of a constraint that is not attached is zero. -/
theorem derivatives_unattached {D : Data} (h : D.Ok) (is : ℕ) (his : is < nset)
    (psel : List (Option (PPhase × Sel))) (hk : Known natoms psel 0) (old : Mat ℝ) (ho : old.WF) (c : ℕ) (hcl : c < cons.length)
    (hc : some c ∉ refvar addr cons natoms nset) (A : Mat ℝ)
    (hA : fitAMat (layOf addr cons natoms nset) (cons.map Constr.vref) old D is psel = .ok A) (i : ℕ) (hi : D.ncmin ≤ i)
    (hi' : (i : ℤ) ≤ D.ncmax) : A.get i c = .ok 0 := by
  obtain ⟨A', E, e, H, -, h1⟩ := fitA_entries addr cons natoms nset h is his psel hk old ho
  rw [hA] at e
  cases e
  rw [H.get i c (by omega) hcl, h1 c hc hcl i hi hi']

/-- **Violation**: a phase that was loaded after `fit_setup` has no stored offset. When `fit_setup` is not run again (C17:
after a refinement that ended with an error), the derivatives with this phase selected are not defined. -/
theorem stale_layout {D : Data} (h : D.Ok) (vref : List Bool) (is : ℕ) (psel : List (Option (PPhase × Sel))) (ip : ℕ)
    (x : PPhase × Sel) (hx : psel[ip]? = some (some x)) (hp : natoms.length ≤ ip) (old A : Mat ℝ) :
    fitAMat (layOf addr cons natoms nset) vref old D is psel ≠ .ok A := by
  have hoff : ∀ j, natoms.length ≤ j → ∀ o, (layOf addr cons natoms nset).phase j ≠ .ok o := by
    intro j hj o ho
    have hl : (setup natoms nset).phaseOff.length = natoms.length := by
      unfold setup
      dsimp only
      have : ∀ (l : List (ℕ × ℕ)) (s : Setup), (l.foldl addPhase s).phaseOff.length = s.phaseOff.length + l.length := by
        intro l
        induction l with
        | nil => intro s; rfl
        | cons a l ih =>
          intro s
          rw [List.foldl_cons, ih, List.length_cons]
          show (s.phaseOff ++ [s.slots.length]).length + l.length = _
          rw [List.length_append, List.length_singleton]
          omega
      rw [this, List.length_zipIdx]
      simp
    have : ¬j < (setup natoms nset).phaseOff.length := by omega
    unfold Lay.phase layOf Res.at? at ho
    dsimp only at ho
    rw [List.getElem?_eq_none (by omega)] at ho
    cases ho
  have hslots : ∀ (l : List (Option Calced)) (k ip : ℕ) (x : Calced), l[ip]? = some (some x) → natoms.length ≤ k + ip → ∀ a,
      phasesSlots (layOf addr cons natoms nset) l k ≠ .ok a := by
    intro l
    induction l with
    | nil => intro k ip x hx; simp at hx
    | cons y l ih =>
      intro k ip x hx hk a ha
      cases ip with
      | zero =>
        simp only [List.getElem?_cons_zero, Option.some.injEq] at hx
        subst hx
        rw [phasesSlots, Res.bind_eq_ok] at ha
        obtain ⟨b, hb, -⟩ := ha
        unfold phaseSlots at hb
        rw [Res.bind_eq_ok] at hb
        obtain ⟨c, -, hb⟩ := hb
        rw [Res.bind_eq_ok] at hb
        obtain ⟨o, ho, -⟩ := hb
        exact hoff k (by omega) o ho
      | succ ip =>
        rw [List.getElem?_cons_succ] at hx
        have ih := ih (k + 1) ip x hx (by omega)
        cases y with
        | none => exact ih a ha
        | some y =>
          rw [phasesSlots, Res.bind_eq_ok] at ha
          obtain ⟨b, -, ha⟩ := ha
          rw [Res.bind_eq_ok] at ha
          obtain ⟨c, hc, -⟩ := ha
          exact ih c hc
  have hcal : ∀ (psel : List (Option (PPhase × Sel))) (ip : ℕ) (x : PPhase × Sel) (l : List (Option Calced)), psel[ip]? = some (some x) →
      calcs D psel = .ok l → ∃ y, l[ip]? = some (some y) := by
    intro psel
    induction psel with
    | nil => intro ip x l hx; simp at hx
    | cons a m ih =>
      intro ip x l hx hl
      cases a with
      | none =>
        rw [calcs, Res.bind_eq_ok] at hl
        obtain ⟨r, hr, hl⟩ := hl
        cases hl
        cases ip with
        | zero => simp at hx
        | succ ip => exact ih ip x r (by simpa using hx) hr
      | some y =>
        rw [calcs, Res.bind_eq_ok] at hl
        obtain ⟨p, -, hl⟩ := hl
        rw [Res.bind_eq_ok] at hl
        obtain ⟨r, hr, hl⟩ := hl
        cases hl
        cases ip with
        | zero => exact ⟨_, rfl⟩
        | succ ip => exact ih ip x r (by simpa using hx) hr
  intro hA
  unfold fitAMat at hA
  simp only [Res.bind_eq_ok] at hA
  obtain ⟨-, -, -, -, -, -, l, hl, ops, ho, -⟩ := hA
  obtain ⟨y, hy⟩ := hcal psel ip x l hx hl
  have hg : D.ncmin ∈ grid D.ncmin D.ncmax := mem_grid.2 ⟨le_rfl, ncmin_le_ncmax h⟩
  cases hgr : grid D.ncmin D.ncmax with
  | nil => rw [hgr] at hg; simp at hg
  | cons i g =>
    rw [hgr, collect, Res.bind_eq_ok] at ho
    obtain ⟨b, hb, -⟩ := ho
    unfold pointOps at hb
    rw [Res.bind_eq_ok] at hb
    obtain ⟨s, hs, -⟩ := hb
    exact hslots l 0 ip y hy (by omega) s hs

end

/-- The addresses of the example: the position in the list of all variables of a phase with two atoms and one data set. -/
def addr2 : RVar → ℕ := fun v => (setup [2] 1).slots.idxOf v

theorem addr2_separate : Separate addr2 [2] 1 := by
  intro v w hv hw e
  rw [← complete] at hv hw
  exact (List.idxOf_inj hv).1 e

/-- The scale of the data set and the occupancy of the second atom are refined. -/
def cons2 : List (Constr String) := [⟨addr2 (.dscale 0), none, 1, .ident, true⟩, ⟨addr2 (.occ 0 1), none, 2, .ident, true⟩]

/-- The two atoms of `demo`: the first column of `fit_a` is that of the scale. -/
example : ∃ A col, fitAMat (layOf addr2 cons2 [2] 1) (cons2.map Constr.vref) ⟨0, 0, []⟩ (demoD 0) 0
      [some (demo, ⟨fun _ => false, fun _ => false⟩)] = .ok A ∧
    A.rows = ((demoD 0).ncmax + 1).toNat ∧ A.cols = 2 ∧
    fitA (demoD 0) 0 (.dscale 0) [some (demo, ⟨fun _ => false, fun _ => false⟩)] = .ok (some col) ∧
    ∀ i : ℕ, (demoD 0).ncmin ≤ i → (i : ℤ) ≤ (demoD 0).ncmax → A.get i 0 = .ok (col i) := by
  have hk : Known [2] [some (demo, (⟨fun _ => false, fun _ => false⟩ : Sel))] 0 := by
    intro ip x hx
    cases ip with
    | zero =>
      simp only [List.getElem?_cons_zero, Option.some.injEq] at hx
      subst hx
      rfl
    | succ ip => simp at hx
  have ho : (⟨0, 0, []⟩ : Mat ℝ).WF := rfl
  obtain ⟨A, E, e, H, -, -⟩ := fitA_entries addr2 cons2 [2] 1 (demoD_ok 0) 0 (by norm_num) _ hk ⟨0, 0, []⟩ ho
  obtain ⟨col, hc, -⟩ := fitA_of (demoD_ok 0) 0 (.dscale 0) [some (demo, ⟨fun _ => false, fun _ => false⟩)] (by
    intro x hx
    simp only [List.mem_singleton, Option.some.injEq] at hx
    subst hx
    exact demo_good 0 _) (by
    rintro (⟨-, h⟩ | ⟨ip, ia, ph, s, h, -⟩)
    · norm_num [demoD] at h
    · cases h)
  refine ⟨A, col, e, H.rows, H.cols, hc, fun i hi hi' => ?_⟩
  exact derivatives_column addr2 cons2 [2] 1 (demoD_ok 0) addr2_separate 0 (by norm_num) _ hk _ ho 31 0 (.dscale 0)
    (by decide +kernel) (by decide +kernel) col hc A e i hi hi'

end Pdffit.C30
