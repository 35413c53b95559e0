import Verif.Lemmas.DerivChain
import Verif.Lemmas.ConstrMove
import Verif.Props.C15
import Verif.Props.C44Wit

/-!
# C62  The derivatives used by the least-squares step are the derivatives of the calculated curve

`refine` needs the derivative of every calculated point with respect to every free parameter. The program takes it as the product of `fit_a`
(curve by constrained variable, C44, C30) and `dvdp` (variable by parameter, C08, C10).

* `derivatives_true_partial`: for every history of calls without replaced constraints, one constraint per variable, formulas at a point inside their
  domains, no choice of the program at a threshold, and variables for which the columns of `fit_a` are right (`Good`), the entry of
  `fit_b` is the derivative of the curve that `fit_theory` calculates as a function of the parameter, all other parameters kept.
  Constraints may share parameters; the sum over all constrained variables is taken.
* `gradient_true_partial`: then `beta` of `mrqcof` is -1/2 of the derivative of the weighted sum of squares.

Missing (violations shown elsewhere): replaced constraints (C08), angles, oblique cells, several phases with `qbroad`, zero occupancy,
`dscale` or diameter (C44), and points at a threshold or a wrapped boundary.
-/

namespace Pdffit.C62
open Geom Bonds Det Deriv Layout Conf Filter DMat C47 Parser

/-- The formulas of the program for the derivative with respect to this variable are right (C44). -/
def Good (D : Data) (psel : List (Option (PPhase × Sel))) : RVar → Prop
  | .dscale _ => D.dscale ≠ 0
  | .qdamp _ => True
  | .qbroad _ => ∃ (ip : ℕ) (x : PPhase × Sel), psel[ip]? = some (some x) ∧ ∀ q : ℕ, q ≠ ip → ∀ y, psel[q]? ≠ some (some y)
  | .pscale _ => True
  | .delta1 _ => True
  | .delta2 _ => True
  | .sratio _ => True
  | .spdiameter ip => 0 ≤ D.rmin ∧ ∀ x, psel[ip]? = some (some x) → x.1.spdiameter ≠ 0
  | .occ ip ia => ∀ x, psel[ip]? = some (some x) → (x.1.atm ia).occ ≠ 0
  | .pos ip _ _ => ∀ x, psel[ip]? = some (some x) → Orth x.1.cell
  | .u ip _ _ => ∀ x, psel[ip]? = some (some x) → Orth x.1.cell
  | .a0 _ _ => True
  | .win _ _ => False

theorem good_correct {D : Data} (h : D.Ok) {psel : List (Option (PPhase × Sel))} {f : ℤ → ℝ} (hf : determine D psel = .ok (some f))
    (is : ℕ) {natoms : List ℕ} {nset : ℕ} (hk : Known natoms psel 0) {moves : RVar → Prop}
    (hP : ∀ ip y, psel[ip]? = some (some y) → PhOk moves D ip y.1 y.2) (v : RVar) (hv : C47.Exists natoms nset v) (hm : moves v)
    (hF : ¬C44.Foreign is psel v) (hG : Good D psel v) : C44.Correct D is v psel := by
  unfold C44.Foreign at hF
  have dat : ∀ q, (v = .dscale q ∨ v = .qdamp q ∨ v = .qbroad q) → q = is := by
    intro q hq
    by_contra hne
    rcases hq with rfl | rfl | rfl <;>
    · apply hF
      simp [owner, hne]
  have phs : ∀ q, owner v = some q → ∃ x, psel[q]? = some (some x) := by
    intro q hq
    rw [hq] at hF
    dsimp only at hF
    push Not at hF
    exact hF
  have atm : ∀ (ip ia : ℕ) (x : PPhase × Sel), psel[ip]? = some (some x) → (∃ n, natoms[ip]? = some n ∧ ia < n) → ia < x.1.atom.length := by
    rintro ip ia x hx ⟨n, h1, h2⟩
    have := hk ip x hx
    rw [Nat.zero_add, h1] at this
    cases this
    exact h2
  cases v with
  | dscale q =>
    rw [dat q (by simp)]
    exact C44.dscale h hf is hG
  | qdamp q =>
    rw [dat q (by simp)]
    exact C44.qdamp h hf is
  | qbroad q =>
    rw [dat q (by simp)]
    obtain ⟨ip, ⟨ph, s⟩, hx, h1⟩ := hG
    exact C44.qbroad_steady_partial h hf is ip ph s hx h1 (hP ip _ hx).steady
  | pscale q =>
    obtain ⟨⟨ph, s⟩, hx⟩ := phs q rfl
    exact C44.pscale h hf is q ph s hx
  | delta1 q =>
    obtain ⟨⟨ph, s⟩, hx⟩ := phs q rfl
    exact C44.delta1_partial h hf is q ph s hx (hP q _ hx).steady
  | delta2 q =>
    obtain ⟨⟨ph, s⟩, hx⟩ := phs q rfl
    exact C44.delta2_partial h hf is q ph s hx (hP q _ hx).steady
  | sratio q =>
    obtain ⟨⟨ph, s⟩, hx⟩ := phs q rfl
    exact C44.sratio_partial h hf is q ph s hx (hP q _ hx).steady
  | spdiameter q =>
    obtain ⟨⟨ph, s⟩, hx⟩ := phs q rfl
    exact C44.spdiameter h hf is q ph s hx (hG.2 _ hx) hG.1
  | occ q ia =>
    obtain ⟨⟨ph, s⟩, hx⟩ := phs q rfl
    exact C44.occ h hf is q ph s hx ia (atm q ia _ hx hv) (hG _ hx)
  | pos q ia k =>
    obtain ⟨⟨ph, s⟩, hx⟩ := phs q rfl
    exact C44.pos_steady_partial h hf is q ph s hx (hG _ hx) ia (atm q ia _ hx hv) k (hP q _ hx).steady
  | u q ia k =>
    obtain ⟨⟨ph, s⟩, hx⟩ := phs q rfl
    exact C44.u_steady_partial h hf is q ph s hx (hG _ hx) ia (atm q ia _ hx hv) k (hP q _ hx).steady
  | a0 q k =>
    obtain ⟨⟨ph, s⟩, hx⟩ := phs q rfl
    rcases (hP q _ hx).cell with hc | ⟨-, O, F, hp, hs, hS⟩
    · exact absurd hm (hc.1 k).1
    · exact C44.a0_steady_partial h hf is q ph s hx O F (fun i j hi hj k => (hp i j hi hj k).le) hs k hS
  | win q k => exact hG.elim

/-- What is calculated: the constraints `cons` with the parameters `par`, variables `vars` before the evaluation, matrix `dvdp` of
earlier derivatives, data set `D` with number `is` and the selected phases `psel`. -/
structure Job where
  s : CState (List Char) ℝ
  vars : ℕ → ℝ
  addr : RVar → ℕ
  icc : ℕ → Option ℝ
  natoms : List ℕ
  nset : ℕ
  D : Data
  is : ℕ
  psel : List (Option (PPhase × Sel))

namespace Job
variable (J : Job)

/-- The curve with the parameters `par`. -/
noncomputable def curve (par : ParStore ℝ) : Res (Option (ℤ → ℝ)) :=
  curveAt (fparse builtinTab) J.addr J.icc J.s.cons J.vars J.s.dvdp J.D J.is J.psel par

/-- `fill_variables` with the current parameters. -/
noncomputable def fill := fillVariables (fparse builtinTab) J.s.par J.s.cons J.vars J.s.dvdp

/-- The variables for the current parameters. -/
noncomputable def val (v : RVar) : ℝ := varsAt (fparse builtinTab) J.icc J.s.cons J.vars J.s.dvdp J.s.par (J.addr v)

/-- The variable is given by a constraint with a free parameter. -/
def moves (v : RVar) : Prop := ∃ c, vfind J.fill.1 (J.addr v) = some c

/-- `fit_b` for the current parameters. -/
noncomputable def fitB (old : Mat ℝ) : Res (Mat ℝ) :=
  fitBMat (layOf J.addr J.fill.1 J.natoms J.nset) (J.fill.1.map Constr.vref) old J.fill.2.2.1 (dataFrom J.val J.is J.D) J.is
    (selFrom J.val J.psel)

/-- The conditions. -/
structure Ok : Prop where
  /-- the variables have different addresses -/
  sep : Separate J.addr J.natoms J.nset
  /-- the state comes from calls, none of which replaced a constraint -/
  calls : ∃ ops, C08.NoRepl (fparse builtinTab) {} ops ∧ CState.run (fparse builtinTab) {} ops = J.s
  one : (J.s.cons.map Constr.addr).Nodup
  assigns : ∀ c ∈ J.s.cons, c.assigns
  form : ∀ c ∈ J.s.cons, FormOk J.s.par c
  target : ∀ c ∈ J.s.cons, ∃ v, C47.Exists J.natoms J.nset v ∧ c.addr = J.addr v
  /-- no coordinate is moved at a jump of the wrapping -/
  wrap : ∀ c ∈ J.s.cons, ∀ n, J.icc c.addr = some n → 0 < n ∧ ∀ m : ℤ, m ≠ 0 → J.fill.2.1 c.addr ≠ n * m
  set : J.is < J.nset
  known : Known J.natoms J.psel 0
  data : (dataFrom J.val J.is J.D).Ok
  phases : ∀ ip y, J.psel[ip]? = some (some y) → PhOk J.moves (dataFrom J.val J.is J.D) ip (phaseFrom J.val ip y.1) y.2
  good : ∀ v, C47.Exists J.natoms J.nset v → J.moves v → C44.Foreign J.is (selFrom J.val J.psel) v ∨
    Good (dataFrom J.val J.is J.D) (selFrom J.val J.psel) v

end Job

/-- One coordinate after wrapping. -/
noncomputable def wrap1 (icc : ℕ → Option ℝ) (a : ℕ) (x : ℝ) : ℝ := wrapVars icc (fun _ => x) a

theorem wrapVars_eq (icc : ℕ → Option ℝ) (v : ℕ → ℝ) (a : ℕ) : wrapVars icc v a = wrap1 icc a (v a) := rfl

theorem vfind_some {F : Type} {cs : List (Constr F)} {a c : ℕ} (h : vfind cs a = some c) :
    ∃ x, cs[c]? = some x ∧ x.addr = a ∧ x.vref = true := by
  unfold vfind at h
  split at h
  · cases h
  · rename_i i hi
    split at h
    · rename_i hv
      cases h
      obtain ⟨h1, h2, -⟩ := List.findIdx?_eq_some_iff_getElem.1 hi
      refine ⟨cs[c], List.getElem?_eq_getElem h1, by simpa using h2, ?_⟩
      rw [List.getElem?_eq_getElem h1] at hv
      simpa using hv
    · cases h

theorem vfind_of {F : Type} {cs : List (Constr F)} (hn : (cs.map Constr.addr).Nodup) {c : ℕ} {x : Constr F} (hx : cs[c]? = some x) :
    vfind cs x.addr = if x.vref then some c else none := by
  obtain ⟨hc, hcx⟩ := List.getElem?_eq_some_iff.1 hx
  have hi : cs.findIdx? (fun y => y.addr == x.addr) = some c := by
    rw [List.findIdx?_eq_some_iff_getElem]
    refine ⟨hc, by simp [hcx], fun j hj => ?_⟩
    have hjl : j < cs.length := by omega
    simp only [beq_iff_eq]
    intro e
    have := (List.Nodup.getElem_inj_iff hn (i := j) (j := c) (hi := by simpa using hjl) (hj := by simpa using hc)).1
      (by simp only [List.getElem_map]; rw [hcx, e])
    omega
  unfold vfind
  rw [hi]
  simp [hx]

/-- (partial) The product of `fit_a` and `dvdp` is the derivative of the calculated curve with respect to the free parameters. -/
theorem derivatives_true_partial (J : Job) (H : J.Ok) (f : ℤ → ℝ) (hf : J.curve J.s.par = .ok (some f)) (old : Mat ℝ) (ho : old.WF) :
    ∃ B, J.fitB old = .ok B ∧
      ∀ k x, J.s.par.p[k]? = some x → J.s.par.ip[k]? = some true →
        ∃ F : ℝ → ℤ → ℝ, (∀ᶠ t in nhds x, J.curve (J.s.par.move k t) = .ok (some (F t))) ∧
          ∀ i : ℕ, (dataFrom J.val J.is J.D).ncmin ≤ i → (i : ℤ) ≤ (dataFrom J.val J.is J.D).ncmax →
            ∃ b, B.get i k = .ok b ∧ HasDerivAt (fun t => F t i) b x := by
  classical
  obtain ⟨ops, hno, hrun⟩ := H.calls
  have hinv : C08.Inv textIds J.s := by
    rw [← hrun]
    exact C08.run_inv (fparse_parserOK builtinTab) (fparse_parserUses builtinTab) ops {} ⟨ParStore.wf_empty,
      by simp [Mat.WF, Mat.empty], by simp [Mat.empty], by simp [Mat.empty], by intro i j x h; simp [Mat.empty] at h⟩ hno
  -- the curve at the current parameters
  have hfill : J.fill.2.2.2 = none := by
    unfold Job.curve curveAt at hf
    split at hf
    · cases hf
    · cases hf
    · assumption
  have hlat : ¬∃ x, some x ∈ selFrom J.val J.psel ∧ ∀ m, lattice x.1.cell ≠ .ok m := by
    intro hc
    unfold Job.curve curveAt at hf
    rw [show (fillVariables (fparse builtinTab) J.s.par J.s.cons J.vars J.s.dvdp).2.2.2 = none from hfill] at hf
    dsimp only at hf
    rw [if_pos (show ∃ x, some x ∈ selFrom (fun v => varsAt (fparse builtinTab) J.icc J.s.cons J.vars J.s.dvdp J.s.par (J.addr v)) J.psel ∧
      ∀ m, lattice x.1.cell ≠ .ok m from hc)] at hf
    cases hf
  have hdet : determine (dataFrom J.val J.is J.D) (selFrom J.val J.psel) = .ok (some f) := by
    unfold Job.curve curveAt at hf
    rw [show (fillVariables (fparse builtinTab) J.s.par J.s.cons J.vars J.s.dvdp).2.2.2 = none from hfill] at hf
    dsimp only at hf
    rwa [if_neg (show ¬∃ x, some x ∈ selFrom (fun v => varsAt (fparse builtinTab) J.icc J.s.cons J.vars J.s.dvdp J.s.par (J.addr v)) J.psel ∧
      ∀ m, lattice x.1.cell ≠ .ok m from hlat)] at hf
  have hb := (determine_some H.data hdet).1
  -- the constraints after the evaluation
  have hall : ∀ c ∈ J.s.cons, ∃ r, cres (fparse builtinTab) J.s.par c = .ok r := by
    intro c hc
    obtain ⟨-, -, h⟩ := fillVariables_value (parse := fparse builtinTab) (par := J.s.par) (cs := J.s.cons) (v := J.vars) (m := J.s.dvdp)
      (Prod.ext rfl (Prod.ext rfl (Prod.ext rfl hfill)))
    obtain ⟨y, hy⟩ := h c hc (H.assigns c hc)
    exact cres_of_value hy
  obtain ⟨m', em, em1, em2, em3, -⟩ := fillVariables_ok (fparse_parserOK builtinTab) hinv.wf J.s.cons J.vars J.s.dvdp hinv.m hall
  have hcons : J.fill.1 = J.s.cons.map (cmark (fparse builtinTab) J.s.par) := by rw [Job.fill, em]
  have hmat : J.fill.2.2.1 = m' := by rw [Job.fill, em]
  set cons' := J.fill.1 with hcons'
  set N := J.s.cons.length with hN
  have hlen : cons'.length = N := by rw [hcons, List.length_map]
  have hget : ∀ (c : ℕ) (x : Constr (List Char)), J.s.cons[c]? = some x → cons'[c]? = some (cmark (fparse builtinTab) J.s.par x) := by
    intro c x hx
    rw [hcons, List.getElem?_map, hx]; rfl
  have haddr : ∀ x : Constr (List Char), (cmark (fparse builtinTab) J.s.par x).addr = x.addr := fun x =>
    congrArg (·.1) (cmark_core (fparse builtinTab) J.s.par x)
  have hone' : (cons'.map Constr.addr).Nodup := by
    rw [hcons, List.map_map, show Constr.addr ∘ cmark (fparse builtinTab) J.s.par = Constr.addr from funext haddr]
    exact H.one
  -- the matrices
  have hk1 : Known J.natoms (selFrom J.val J.psel) 0 := by
    intro ip x hx
    unfold selFrom at hx
    rw [List.getElem?_mapIdx] at hx
    cases hp : J.psel[ip]? with
    | none => rw [hp] at hx; cases hx
    | some o =>
      cases o with
      | none => rw [hp] at hx; cases hx
      | some y =>
        rw [hp] at hx
        cases hx
        rw [H.known ip y hp]
        simp [phaseFrom]
  obtain ⟨A, E, eA, HA, -, -⟩ := C30.fitA_entries J.addr cons' J.natoms J.nset H.data J.is H.set (selFrom J.val J.psel) hk1 old ho
  have hd : C48.Holds m' (fun (i : Fin cons'.length) (c : Fin m'.cols) =>
      m'.data[(i : ℕ) * m'.cols + c]'(by rw [em3, em1]; exact flat_lt (hlen ▸ i.2) c.2)) := by
    refine ⟨by rw [em1, hlen], rfl, em3, fun i j => ?_⟩
    unfold Mat.get
    exact at?_some (List.getElem?_eq_getElem _)
  obtain ⟨B, eB, HB⟩ := C48.C48_product A m' _ _ HA.holds hd
  refine ⟨B, ?_, fun k x hx hfree => ?_⟩
  · unfold Job.fitB fitBMat
    rw [← hcons', eA, Res.bind_ok, hmat]
    exact eB
  have hkl : k < m'.cols := by rw [em2]; exact (List.getElem?_eq_some_iff.1 hx).1
  -- the constraints near the current value of the parameter
  obtain ⟨g, hev, hg⟩ := fill_move hinv.wf hx hfree J.s.cons J.vars J.s.dvdp hinv.m H.one H.assigns H.form hfill
  let ad : Fin N → ℕ := fun c => (J.s.cons[c]).addr
  let wt : ℝ → Fin N → ℝ := fun t c => wrap1 J.icc (ad c) (g c t)
  let valW : (Fin N → ℝ) → RVar → ℝ := fun w v =>
    match vfind cons' (J.addr v) with
    | some c => if h : c < N then w ⟨c, h⟩ else 0
    | none => J.val v
  have hgx : ∀ (c : ℕ) (x0 : Constr (List Char)), J.s.cons[c]? = some x0 → J.fill.2.1 x0.addr = g c x := by
    intro c x0 hc
    have := hev.self_of_nhds.2.1 c x0 hc
    rwa [ParStore.move_self hx] at this
  have hvals : ∀ᶠ t in nhds x, (fun v => varsAt (fparse builtinTab) J.icc J.s.cons J.vars J.s.dvdp (J.s.par.move k t) (J.addr v)) = valW (wt t) := by
    filter_upwards [hev] with t ht
    funext v
    show wrap1 J.icc (J.addr v) _ = _
    cases hvf : vfind cons' (J.addr v) with
    | some c =>
      obtain ⟨y, hy, hya, -⟩ := vfind_some hvf
      have hc : c < N := by rw [← hlen]; exact (List.getElem?_eq_some_iff.1 hy).1
      have hcx : J.s.cons[c]? = some J.s.cons[c] := List.getElem?_eq_getElem hc
      rw [hget c _ hcx] at hy
      cases hy
      rw [haddr] at hya
      simp only [valW, hvf, dif_pos hc, wt, ad]
      rw [← hya, ht.2.1 c _ hcx]
      rfl
    | none =>
      simp only [valW, hvf]
      show _ = wrap1 J.icc (J.addr v) _
      congr 1
      by_cases hex : ∃ y ∈ J.s.cons, y.addr = J.addr v
      · obtain ⟨y, hy, hya⟩ := hex
        obtain ⟨c, hc, rfl⟩ := List.getElem_of_mem hy
        have hcx : J.s.cons[c]? = some J.s.cons[c] := List.getElem?_eq_getElem hc
        have h1 := vfind_of hone' (hget c _ hcx)
        rw [haddr, hya, hvf] at h1
        have h2 : (cmark (fparse builtinTab) J.s.par J.s.cons[c]).vref = false := by
          by_contra h2
          rw [Bool.not_eq_false] at h2
          rw [if_pos h2] at h1
          cases h1
        rw [← hya, ht.2.1 c _ hcx, (hg c _ hcx).2 h2 t]
        exact (hgx c _ hcx).symm
      · push Not at hex
        rw [ht.2.2 _ hex]
        have := hev.self_of_nhds.2.2 _ hex
        rw [ParStore.move_self hx] at this
        exact this.symm
  have hv0 : valW (wt x) = J.val := by
    have := hvals.self_of_nhds
    rw [ParStore.move_self hx] at this
    exact this.symm
  -- the curve as a function of the variables
  have hvd : ∀ v, DifferentiableAt ℝ (fun w => valW w v) (wt x) := fun v => by
    cases hvf : vfind cons' (J.addr v) with
    | none => simp only [valW, hvf]; exact differentiableAt_const _
    | some c =>
      simp only [valW, hvf]
      split
      · exact differentiableAt_apply _ _
      · exact differentiableAt_const _
  have hvm : ∀ v, ¬J.moves v → ∀ w, valW w v = valW (wt x) v := fun v hv w => by
    unfold Job.moves at hv
    push Not at hv
    cases hvf : vfind cons' (J.addr v) with
    | none => simp only [valW, hvf]
    | some c => exact absurd hvf (hv c)
  have hmem : ∀ (ip : ℕ) (y : PPhase × Sel), J.psel[ip]? = some (some y) → some (phaseFrom J.val ip y.1, y.2) ∈ selFrom J.val J.psel := fun ip y hy => by
    refine List.mem_of_getElem? (i := ip) ?_
    unfold selFrom
    rw [List.getElem?_mapIdx, hy]; rfl
  have hbx : ∀ (ip : ℕ) (y : PPhase × Sel), J.psel[ip]? = some (some y) →
      ¬Bad (dataFrom (valW (wt x)) J.is J.D) (phaseFrom (valW (wt x)) ip y.1) y.2 := fun ip y hy => by
    rw [hv0]
    exact hb _ (hmem ip y hy)
  have hPx : ∀ (ip : ℕ) (y : PPhase × Sel), J.psel[ip]? = some (some y) →
      PhOk J.moves (dataFrom (valW (wt x)) J.is J.D) ip (phaseFrom (valW (wt x)) ip y.1) y.2 := fun ip y hy => by
    rw [hv0]
    exact H.phases ip y hy
  have hlw : ∀ w, ¬∃ z, some z ∈ selFrom (valW w) J.psel ∧ ∀ m, lattice z.1.cell ≠ .ok m := by
    rintro w ⟨z, hz, hz'⟩
    obtain ⟨ip, hip⟩ := List.getElem?_of_mem hz
    unfold selFrom at hip
    rw [List.getElem?_mapIdx] at hip
    cases hp : J.psel[ip]? with
    | none => rw [hp] at hip; cases hip
    | some o =>
      cases o with
      | none => rw [hp] at hip; cases hip
      | some y =>
        rw [hp] at hip
        cases hip
        have h3 := (phase_joint hvd hvm J.is J.D ip y.1 y.2 (hPx ip y hp) (hbx ip y hp)).2.2
        rw [hv0] at h3
        obtain ⟨m, hm⟩ := h3 (by
          by_contra hc
          push Not at hc
          exact hlat ⟨_, hmem ip y hp, hc⟩) w
        exact hz' m hm
  have hjoint := joint hvd hvm J.is J.D (by rw [hv0]; exact H.data) J.psel hbx hPx
  obtain ⟨F, hF, hdiff⟩ := hjoint
  -- the path of the variables
  have hwt : ∀ c : Fin N, HasDerivAt (fun t => wt t c) (C08.deriv (fparse builtinTab) J.s.par J.s.cons[c] k) x := by
    intro c
    have hcx : J.s.cons[(c : ℕ)]? = some J.s.cons[c] := List.getElem?_eq_getElem c.2
    have hd := (hg c _ hcx).1
    simp only [wt, ad, wrap1, wrapVars]
    cases hi : J.icc (J.s.cons[c]).addr with
    | none => exact hd
    | some n =>
      obtain ⟨h1, h2⟩ := H.wrap _ (List.getElem_mem c.2) n hi
      dsimp only
      refine fmod_deriv h1 hd fun m hm => ?_
      rw [← hgx c _ hcx]
      exact h2 m hm
  have hwc : ContinuousAt wt x := by
    rw [continuousAt_pi]
    exact fun c => (hwt c).continuousAt
  refine ⟨fun t => F (wt t), ?_, fun i hi hi' => ?_⟩
  · filter_upwards [hev, hvals, hwc.eventually hF] with t h1 h2 h3
    unfold Job.curve curveAt
    rw [h1.1]
    dsimp only
    rw [h2, if_neg (hlw _), h3]
  have hpart : ∀ c : Fin N, ∃ a, A.get i c = .ok a ∧ HasDerivAt (fun t => F (Function.update (wt x) c t) i) a (wt x c) := by
    intro c
    have hcx : J.s.cons[(c : ℕ)]? = some J.s.cons[c] := List.getElem?_eq_getElem c.2
    have hup : ∀ᶠ t in nhds (wt x c), determine (dataFrom (valW (Function.update (wt x) c t)) J.is J.D)
        (selFrom (valW (Function.update (wt x) c t)) J.psel) = .ok (some (F (Function.update (wt x) c t))) := by
      have hcu : ContinuousAt (Function.update (wt x) c) (wt x c) := (hasDerivAt_update (wt x) c (wt x c)).continuousAt
      have hF' : ∀ᶠ w in nhds (Function.update (wt x) c (wt x c)), determine (dataFrom (valW w) J.is J.D) (selFrom (valW w) J.psel) = .ok (some (F w)) := by
        rw [Function.update_eq_self]
        exact hF
      exact hcu.eventually hF'
    cases hr : (cmark (fparse builtinTab) J.s.par J.s.cons[c]).vref with
    | false =>
      refine ⟨0, C30.derivatives_unattached J.addr cons' J.natoms J.nset H.data J.is H.set _ hk1 old ho c (by rw [hlen]; exact c.2) ?_ A eA i hi hi', ?_⟩
      · intro hm
        obtain ⟨kk, hkk⟩ := List.getElem?_of_mem hm
        obtain ⟨-, y, -, h2, -, h3⟩ := C47.own _ _ _ _ kk c hkk
        rw [hget _ _ hcx] at h2
        cases h2
        rw [hr] at h3
        cases h3
      · have hsame : ∀ t, valW (Function.update (wt x) c t) = valW (wt x) := by
          intro t
          funext v
          cases hvf : vfind cons' (J.addr v) with
          | none => simp only [valW, hvf]
          | some c' =>
            simp only [valW, hvf]
            split
            · rename_i hc'
              rw [Function.update_of_ne]
              rintro rfl
              obtain ⟨y, hy, -, h3⟩ := vfind_some hvf
              rw [hget _ _ hcx] at hy
              cases hy
              rw [hr] at h3
              cases h3
            · rfl
        refine (hasDerivAt_const (wt x c) (F (wt x) i)).congr_of_eventuallyEq ?_
        filter_upwards [hup] with t ht
        rw [hsame t, hF.self_of_nhds] at ht
        simp only [Res.ok.injEq, Option.some.injEq] at ht
        rw [ht]
    | true =>
      obtain ⟨v, hv, hva⟩ := H.target _ (List.getElem_mem c.2)
      have hvf : vfind cons' (J.addr v) = some c.1 := by
        have := vfind_of hone' (hget _ _ hcx)
        rw [haddr, hr, if_pos rfl] at this
        rw [← hva]
        exact this
      have hmv : J.moves v := ⟨c, hvf⟩
      obtain ⟨kk, hkk⟩ := List.getElem?_of_mem ((C47.complete J.natoms J.nset v).2 hv)
      have hatt : (refvar J.addr cons' J.natoms J.nset)[kk]? = some (some (c : ℕ)) :=
        (C47.attached_partial J.addr cons' J.natoms J.nset H.sep hone' c _ (hget _ _ hcx) hr v hv (by rw [haddr]; exact hva) kk).2 hkk
      have hupd : ∀ t u, C47.Exists J.natoms J.nset u → valW (Function.update (wt x) c t) u = Function.update J.val v t u := by
        intro t u hu
        by_cases huv : u = v
        · subst huv
          rw [Function.update_self]
          simp only [valW, hvf, dif_pos c.2]
          exact Function.update_self ..
        · rw [Function.update_of_ne huv, ← hv0]
          cases hvf' : vfind cons' (J.addr u) with
          | none => simp only [valW, hvf']
          | some c' =>
            simp only [valW, hvf']
            split
            · rw [Function.update_of_ne]
              rintro rfl
              obtain ⟨y, hy, hya, -⟩ := vfind_some hvf'
              rw [hget _ _ hcx] at hy
              cases hy
              rw [haddr] at hya
              exact huv (H.sep _ _ hu hv (hya.symm.trans hva))
            · rfl
      have hup' : ∀ᶠ t in nhds (wt x c), determine (updData v t J.is (dataFrom J.val J.is J.D)) (updSel v t (selFrom J.val J.psel)) =
          .ok (some (F (Function.update (wt x) c t))) := by
        filter_upwards [hup] with t ht
        rw [← ht, selFrom_congr (hupd t) H.known, dataFrom_congr (hupd t) H.set, selFrom_update, dataFrom_update]
      by_cases hfo : C44.Foreign J.is (selFrom J.val J.psel) v
      · obtain ⟨⟨col, hc1, hc2⟩, hc3⟩ := C44.foreign H.data hdet J.is hfo
        refine ⟨col i, C30.derivatives_column J.addr cons' J.natoms J.nset H.data H.sep J.is H.set _ hk1 old ho kk c v hatt hkk col hc1 A eA i hi hi', ?_⟩
        rw [hc2 i hi hi']
        refine (hasDerivAt_const (wt x c) (f i)).congr_of_eventuallyEq ?_
        filter_upwards [hup'] with t ht
        rw [hc3 t] at ht
        simp only [Res.ok.injEq, Option.some.injEq] at ht
        rw [← ht]
      · have hG := (H.good v hv hmv).resolve_left hfo
        obtain ⟨col, F', hc1, hc2, hc3⟩ := good_correct H.data hdet J.is hk1 (moves := J.moves) (fun ip y hy => by
          unfold selFrom at hy
          rw [List.getElem?_mapIdx] at hy
          cases hp : J.psel[ip]? with
          | none => rw [hp] at hy; cases hy
          | some o =>
            cases o with
            | none => rw [hp] at hy; cases hy
            | some z =>
              rw [hp] at hy
              cases hy
              exact H.phases ip z hp) v hv hmv hfo hG
        have hval : value (dataFrom J.val J.is J.D) J.is (selFrom J.val J.psel) v = wt x c := by
          rw [value_from J.val J.is J.D J.psel H.known v hv hfo, ← hv0]
          simp only [valW, hvf, dif_pos c.2]
        rw [hval] at hc2 hc3
        refine ⟨col i, C30.derivatives_column J.addr cons' J.natoms J.nset H.data H.sep J.is H.set _ hk1 old ho kk c v hatt hkk col hc1 A eA i hi hi', ?_⟩
        refine (hc3 i hi hi').congr_of_eventuallyEq ?_
        filter_upwards [hup', hc2] with t h1 h2
        rw [h1] at h2
        simp only [Res.ok.injEq, Option.some.injEq] at h2
        rw [h2]
  choose a ha1 ha2 using hpart
  have hder := chain (hdiff i hi hi') a ha2 wt _ rfl hwt
  refine ⟨_, ?_, hder⟩
  have hiR : i < (((dataFrom J.val J.is J.D).ncmax) + 1).toNat := by omega
  have hBg := HB.get ⟨i, hiR⟩ ⟨k, hkl⟩
  dsimp only at hBg
  rw [hBg]
  refine congrArg Res.ok ((Matrix.mul_apply ..).trans ?_)
  refine Fintype.sum_equiv (finCongr hlen) _ _ fun c => ?_
  have hc : (c : ℕ) < N := by rw [← hlen]; exact c.2
  have hcx : J.s.cons[(c : ℕ)]? = some J.s.cons[(c : ℕ)] := List.getElem?_eq_getElem hc
  have e1 : E i c = a (finCongr hlen c) := by
    have h1 := HA.get i c hiR c.2
    have h2 := ha1 (finCongr hlen c)
    rw [show ((finCongr hlen c : Fin N) : ℕ) = (c : ℕ) from rfl, h1] at h2
    exact Res.ok.inj h2
  have e2 := (C08.deriv_of_inv (fparse_parserOK builtinTab) (fparse_parserUses builtinTab) J.vars J.s _ hinv rfl hfill c k _
    (show (CState.exec (fparse builtinTab) J.s (.eval J.vars)).cons[(c : ℕ)]? = _ from hget c _ hcx)
    ((assigns_core (cmark_core (fparse builtinTab) J.s.par J.s.cons[(c : ℕ)])).2 (H.assigns _ (List.getElem_mem hc)))
    (List.getElem?_eq_some_iff.1 hx).1 hfree).1
  have e3 : (CState.exec (fparse builtinTab) J.s (.eval J.vars)).dvdp = m' := hmat
  have e4 := hd.get c ⟨k, hkl⟩
  rw [e3, e4] at e2
  have e5 := Res.ok.inj e2
  show E i c * _ = _
  rw [e1]
  congr 1
  refine e5.trans ?_
  have hcore := cmark_core (fparse builtinTab) J.s.par J.s.cons[(c : ℕ)]
  have q1 := congrArg (·.2.1) hcore
  have q2 := congrArg (·.2.2.1) hcore
  have q3 := congrArg (·.2.2.2) hcore
  simp only [Constr.core] at q1 q2 q3
  show C08.deriv _ J.s.par _ k = C08.deriv _ J.s.par J.s.cons[(c : ℕ)] k
  unfold C08.deriv
  rw [q1, q2, q3]

/-- (partial) The vector `beta` of the normal equations is -1/2 of the gradient of the weighted sum of squares. The weights `W`,
observed values `O` and the fit range are arbitrary; `d` are the entries of `fit_b` that `mrqcof` reads. -/
theorem gradient_true_partial (J : Job) (H : J.Ok) (f : ℤ → ℝ) (hf : J.curve J.s.par = .ok (some f)) (old : Mat ℝ) (ho : old.WF)
    (W O : ℤ → ℝ) (lo hi : ℤ) (hlo : (dataFrom J.val J.is J.D).ncmin ≤ lo) (hhi : hi ≤ (dataFrom J.val J.is J.D).ncmax)
    (al : ℕ → ℕ → ℝ) (be : ℕ → ℝ) :
    ∃ B, J.fitB old = .ok B ∧ ∀ d : ℤ → ℕ → ℝ,
      (∀ i l, lo ≤ i → i ≤ hi → l < J.s.par.p.length → getZ B i l = .ok (d i l)) →
      ∀ k x, J.s.par.p[k]? = some x → J.s.par.ip[k]? = some true →
        ∃ F : ℝ → ℤ → ℝ, (∀ᶠ t in nhds x, J.curve (J.s.par.move k t) = .ok (some (F t))) ∧
          HasDerivAt (fun t => ((grid lo hi).map fun i => W i * (O i - F t i) ^ 2).sum)
            (-2 * (mrqAcc (fun l => J.s.par.ip.getD l false) J.s.par.p.length
              [(grid lo hi).map fun i => ⟨W i, O i, f i, d i⟩] al be).2.1 (C15.row (fun l => J.s.par.ip.getD l false) k)) x := by
  obtain ⟨B, hB, h⟩ := derivatives_true_partial J H f hf old ho
  refine ⟨B, hB, fun d hd k x hx hfree => ?_⟩
  obtain ⟨F, hF, hder⟩ := h k x hx hfree
  refine ⟨F, hF, ?_⟩
  have hFx : F x = f := by
    have := hF.self_of_nhds
    rw [ParStore.move_self hx, hf] at this
    simpa using this.symm
  have hk : k < J.s.par.p.length := (List.getElem?_eq_some_iff.1 hx).1
  rw [(C15.C15_mrqcof_gives_normal_equations _ _ _ al be).2.1 k hk (by simp [List.getD, hfree])]
  simp only [List.flatten_cons, List.flatten_nil, List.append_nil, List.map_map, Function.comp_def]
  have h0 := ncmin_nonneg H.data
  have key : ∀ i ∈ grid lo hi, HasDerivAt (fun t => W i * (O i - F t i) ^ 2) (-2 * (W i * (O i - f i) * d i k)) x := by
    intro i hi
    rw [mem_grid] at hi
    obtain ⟨b, hb1, hb2⟩ := hder i.toNat (by omega) (by omega)
    have e := hd i k hi.1 hi.2 hk
    unfold getZ at e
    rw [if_pos (by omega), hb1] at e
    cases e
    rw [show ((i.toNat : ℕ) : ℤ) = i by omega] at hb2
    refine (((hb2.const_sub (O i)).fun_pow 2).const_mul (W i)).congr_deriv ?_
    rw [hFx]
    norm_num
    ring
  revert key
  generalize grid lo hi = L
  intro key
  induction L with
  | nil => simpa using hasDerivAt_const x (0 : ℝ)
  | cons i L ih =>
    simp only [List.map_cons, List.sum_cons]
    refine ((key i (by simp)).add (ih fun j hj => key j (by simp [hj]))).congr_deriv ?_
    ring

/-! ## Example: two edges of an orthorhombic cell given by two shared parameters -/

section demo
open C44 Formula C10

/-- The values of all variables of the structure with an isolated peak. -/
noncomputable def cfg : RVar → ℝ := fun v => value (witD 1) 0 [some (ex 0, witS)] v

/-- `a = p1` and `b = p1 + p2`. -/
noncomputable def demoOps : List (COp (List Char) ℝ) :=
  [.setpar 1 (33 / 10), .setpar 2 (7 / 10), .int (C30.addr2 (.a0 0 0)) 1 .ident, .str (C30.addr2 (.a0 0 1)) (some "@1+@2".toList)]

/-- Coordinates are wrapped into one cell. -/
def demoIcc (a : ℕ) : Option ℝ :=
  match (setup [2] 1).slots[a]? with
  | some (.pos _ _ _) => some 1
  | _ => none

noncomputable def demoJob : Job where
  s := CState.run (fparse builtinTab) {} demoOps
  vars := fun a => cfg ((setup [2] 1).slots.getD a (.dscale 0))
  addr := C30.addr2
  icc := demoIcc
  natoms := [2]
  nset := 1
  D := witD 1
  is := 0
  psel := [some (ex 0, witS)]

theorem demo_s : demoJob.s = ⟨⟨[33 / 10, 7 / 10], [true, true], [1, 2]⟩,
    [⟨C30.addr2 (.a0 0 0), none, 1, .ident, true⟩, ⟨C30.addr2 (.a0 0 1), some "@1+@2".toList, -1, .user, true⟩], .empty⟩ := by
  have h0 : C30.addr2 (.a0 0 0) = 0 := by decide +kernel
  have h1 : C30.addr2 (.a0 0 1) = 1 := by decide +kernel
  simp only [demoJob, CState.run, demoOps, List.foldl_cons, List.foldl_nil, CState.exec, h0, h1]
  rfl

theorem demo_norepl : C08.NoRepl (fparse builtinTab) {} demoOps := by
  have h0 : C30.addr2 (.a0 0 0) = 0 := by decide +kernel
  have h1 : C30.addr2 (.a0 0 1) = 1 := by decide +kernel
  refine ⟨by simp, by simp, by simp, by simp, by simp, ?_, ?_, by simp, trivial⟩
  · rintro a i t e
    cases e
    rfl
  · rintro a f e
    cases e
    simp only [CState.exec, h0, h1]
    rfl

theorem demo_formula : IsFormula (.bin .add (.par 1) (.par 2)) "@1+@2".toList := by
  refine ⟨_, [], (List.append_nil _).symm, ?_, by simp⟩
  exact Txt.add (o := .add) (s := ['@', '1']) (w := []) (t := ['@', '2']) (Or.inl rfl)
    (.expr (.term (.par (ds := [1]) (by simp) (by decide)))) (by simp) (.term (.par (ds := [2]) (by simp) (by decide)))

noncomputable def demoPar : ParStore ℝ := ⟨[33 / 10, 7 / 10], [true, true], [1, 2]⟩

theorem demo_par : demoJob.s.par = demoPar := by rw [demo_s]; rfl

theorem demoPar_wf : demoPar.Wf := ⟨rfl, rfl, by decide⟩

theorem demo_p1 : parVal demoPar 1 = some (33 / 10) := rfl
theorem demo_p2 : parVal demoPar 2 = some (7 / 10) := rfl

theorem demo_inside : Inside (parVal demoPar) (.bin .add (.par 1) (.par 2)) :=
  ⟨⟨_, demo_p1⟩, ⟨_, demo_p2⟩, by simp⟩

theorem demo_val2 : (⟨C30.addr2 (.a0 0 1), some "@1+@2".toList, -1, .user, true⟩ : Constr (List Char)).value (fparse builtinTab) demoPar = some 4 := by
  refine C05.C05_text_value demoPar demoPar_wf _ _ rfl _ demo_formula 4 ?_
  simp only [Ex.val, demo_p1, demo_p2]
  norm_num [Ex.opVal]

theorem demo_val1 : (⟨C30.addr2 (.a0 0 0), none, 1, .ident, true⟩ : Constr (List Char)).value (fparse builtinTab) demoPar = some (33 / 10) := rfl

theorem demo_fill : demoJob.fill.2.2.2 = none ∧
    demoJob.fill.2.1 = upd (upd demoJob.vars (C30.addr2 (.a0 0 0)) (33 / 10)) (C30.addr2 (.a0 0 1)) 4 ∧
    demoJob.fill.1.map Constr.addr = [C30.addr2 (.a0 0 0), C30.addr2 (.a0 0 1)] := by
  have hm : (Mat.empty : Mat ℝ).WF := by simp [Mat.WF, Mat.empty]
  obtain ⟨m', e, -⟩ := fillVariables_ok (fparse_parserOK builtinTab) demoPar_wf demoJob.s.cons demoJob.vars .empty hm (by
    rw [demo_s]
    intro c hc
    simp only [List.mem_cons, List.not_mem_nil, or_false] at hc
    rcases hc with rfl | rfl
    · exact cres_of_value demo_val1
    · exact cres_of_value demo_val2)
  have e' : demoJob.fill = fillVariables (fparse builtinTab) demoPar demoJob.s.cons demoJob.vars .empty := by
    unfold Job.fill
    rw [demo_par, show demoJob.s.dvdp = .empty by rw [demo_s]]
  rw [e] at e'
  refine ⟨by rw [e'], ?_, ?_⟩
  · obtain ⟨-, h, -⟩ := fillVariables_value e
    rw [e']
    dsimp only
    rw [h, demo_s]
    simp only [List.foldl_cons, List.foldl_nil, demo_val1, demo_val2, Option.elim]
  · rw [e']
    dsimp only
    rw [List.map_map, show Constr.addr ∘ cmark (fparse builtinTab) demoPar = Constr.addr from
      funext fun x => congrArg (·.1) (cmark_core (fparse builtinTab) demoPar x), demo_s]
    rfl

theorem slot_of {v : RVar} (hv : C47.Exists [2] 1 v) : (setup [2] 1).slots[C30.addr2 v]? = some v := by
  rw [← complete] at hv
  unfold C30.addr2
  rw [List.getElem?_eq_getElem (List.idxOf_lt_length_of_mem hv), List.getElem_idxOf]

theorem a00 : C47.Exists [2] 1 (.a0 0 0) := by simp [C47.Exists]
theorem a01 : C47.Exists [2] 1 (.a0 0 1) := by simp [C47.Exists]

theorem demo_vals (v : RVar) (hv : C47.Exists [2] 1 v) : demoJob.val v = cfg v := by
  have h1 : demoJob.fill.2.1 (C30.addr2 v) = cfg v := by
    rw [demo_fill.2.1]
    unfold upd
    split
    · rename_i h
      rw [C30.addr2_separate _ _ hv a01 h]
      simp [cfg, value, owner, getPhase, ex, wit]
    · split
      · rename_i h
        rw [C30.addr2_separate _ _ hv a00 h]
        simp [cfg, value, owner, getPhase, ex, wit]
      · show cfg ((setup [2] 1).slots.getD (C30.addr2 v) (.dscale 0)) = cfg v
        rw [List.getD, slot_of hv]; rfl
  show wrap1 demoIcc (C30.addr2 v) (demoJob.fill.2.1 (C30.addr2 v)) = _
  rw [h1]
  unfold wrap1 wrapVars demoIcc
  rw [slot_of hv]
  cases v
  case pos q ia k =>
    dsimp only
    refine fmodK_small one_pos ?_
    obtain ⟨n, h2, h3⟩ := hv
    have hq : q = 0 := by
      by_contra hq
      obtain ⟨m, rfl⟩ := Nat.exists_eq_succ_of_ne_zero hq
      simp at h2
    subst hq
    simp only [List.getElem?_cons_zero, Option.some.injEq] at h2
    subst h2
    have : ia = 0 ∨ ia = 1 := by omega
    rcases this with rfl | rfl <;> fin_cases k <;> simp [cfg, value, owner, getPhase, ex, wit, PPhase.atm] <;>
      norm_num [abs_lt]
  all_goals rfl

theorem demo_sel : selFrom demoJob.val demoJob.psel = [some (ex 0, witS)] := by
  have hk : Known [2] [some (ex 0, witS)] 0 := by
    intro ip x hx
    cases ip with
    | zero =>
      simp only [List.getElem?_cons_zero, Option.some.injEq] at hx
      subst hx
      rfl
    | succ ip => simp at hx
  show selFrom demoJob.val [some (ex 0, witS)] = _
  rw [selFrom_congr demo_vals hk]
  unfold selFrom phaseFrom atomFrom
  simp [cfg, value, owner, getPhase, ex, wit, PPhase.atm]

theorem demo_data : dataFrom demoJob.val 0 (witD 1) = witD 1 := by
  rw [dataFrom_congr demo_vals (by norm_num)]
  simp [dataFrom, cfg, value, owner, witD]

theorem demo_moves (v : RVar) (hv : C47.Exists [2] 1 v) (hm : demoJob.moves v) : v = .a0 0 0 ∨ v = .a0 0 1 := by
  obtain ⟨c, hc⟩ := hm
  obtain ⟨x, hx, ha, -⟩ := vfind_some hc
  have : x.addr ∈ demoJob.fill.1.map Constr.addr := List.mem_map.2 ⟨x, List.mem_of_getElem? hx, rfl⟩
  rw [demo_fill.2.2, ha] at this
  simp only [List.mem_cons, List.not_mem_nil, or_false] at this
  rcases this with h | h
  · exact Or.inl (C30.addr2_separate _ _ hv a00 h)
  · exact Or.inr (C30.addr2_separate _ _ hv a01 h)

theorem demo_ok : demoJob.Ok where
  sep := C30.addr2_separate
  calls := ⟨demoOps, demo_norepl, rfl⟩
  one := by
    rw [demo_s]
    simp only [List.map_cons, List.map_nil]
    decide +kernel
  assigns := by
    rw [demo_s]
    intro c hc
    simp only [List.mem_cons, List.not_mem_nil, or_false] at hc
    rcases hc with rfl | rfl <;> simp [Constr.assigns]
  form := by
    rw [demo_par, demo_s]
    intro c hc line hl
    simp only [List.mem_cons, List.not_mem_nil, or_false] at hc
    rcases hc with rfl | rfl
    · cases hl
    · cases hl
      exact ⟨_, demo_formula, demo_inside⟩
  target := by
    rw [demo_s]
    intro c hc
    simp only [List.mem_cons, List.not_mem_nil, or_false] at hc
    rcases hc with rfl | rfl
    · exact ⟨_, a00, rfl⟩
    · exact ⟨_, a01, rfl⟩
  wrap := by
    rw [demo_s]
    intro c hc n hn
    simp only [List.mem_cons, List.not_mem_nil, or_false] at hc
    exfalso
    rcases hc with rfl | rfl
    · have : demoIcc (C30.addr2 (.a0 0 0)) = some n := hn
      rw [demoIcc, slot_of a00] at this
      cases this
    · have : demoIcc (C30.addr2 (.a0 0 1)) = some n := hn
      rw [demoIcc, slot_of a01] at this
      cases this
  set := by norm_num [demoJob]
  known := by
    intro ip x hx
    cases ip with
    | zero =>
      simp only [demoJob, List.getElem?_cons_zero, Option.some.injEq] at hx
      subst hx
      rfl
    | succ ip => simp [demoJob] at hx
  data := by
    show (dataFrom demoJob.val 0 (witD 1)).Ok
    rw [demo_data]
    exact witD_ok 1
  phases := by
    intro ip y hy
    cases ip with
    | succ ip => simp [demoJob] at hy
    | zero =>
      simp only [demoJob, List.getElem?_cons_zero, Option.some.injEq] at hy
      subst hy
      have hph : phaseFrom demoJob.val 0 (ex 0) = ex 0 := by
        have := demo_sel
        simpa [selFrom, demoJob] using this
      show PhOk demoJob.moves (dataFrom demoJob.val 0 (witD 1)) 0 (phaseFrom demoJob.val 0 (ex 0)) witS
      rw [demo_data, hph]
      refine ⟨Or.inr fun h => ?_, Or.inr ⟨fun k h => ?_, wit_orth, wit_fine reg90, ?_, le_rfl, ex_steady 1 0 (by norm_num)⟩⟩
      · rcases demo_moves _ (by simp [C47.Exists]) h with h | h <;> cases h
      · rcases demo_moves _ (by simp [C47.Exists]) h with h | h <;> cases h
      · intro i j hi hj k
        change i < 2 at hi
        change j < 2 at hj
        have h1 : i = 0 ∨ i = 1 := by omega
        have h2 : j = 0 ∨ j = 1 := by omega
        rcases h1 with rfl | rfl <;> rcases h2 with rfl | rfl <;> fin_cases k <;> norm_num [ex, wit, PPhase.atm, abs_lt]
  good := by
    intro v hv hm
    right
    rcases demo_moves v hv hm with rfl | rfl <;> trivial

theorem demo_curve : ∃ f, demoJob.curve demoJob.s.par = .ok (some f) := by
  obtain ⟨f, hf⟩ := ex_curve 1 0 (by norm_num)
  refine ⟨f, ?_⟩
  unfold Job.curve curveAt
  rw [show (fillVariables (fparse builtinTab) demoJob.s.par demoJob.s.cons demoJob.vars demoJob.s.dvdp).2.2.2 = none from demo_fill.1]
  dsimp only
  rw [if_neg]
  · show determine (dataFrom demoJob.val 0 (witD 1)) (selFrom demoJob.val demoJob.psel) = _
    rw [demo_data, demo_sel, hf]
  · show ¬∃ x, some x ∈ selFrom demoJob.val demoJob.psel ∧ ∀ m, lattice x.1.cell ≠ .ok m
    rw [demo_sel]
    rintro ⟨x, hx, h⟩
    simp only [List.mem_singleton, Option.some.injEq] at hx
    subst hx
    obtain ⟨m, hm⟩ := (wit_fine reg90).acc
    exact h m hm

/-- The theorem applies: the first parameter moves two edges. -/
theorem demo_deriv : ∃ (f : ℤ → ℝ) (B : Mat ℝ) (F : ℝ → ℤ → ℝ), demoJob.curve demoJob.s.par = .ok (some f) ∧ demoJob.fitB ⟨0, 0, []⟩ = .ok B ∧
    (∀ᶠ t in nhds (33 / 10 : ℝ), demoJob.curve (demoJob.s.par.move 0 t) = .ok (some (F t))) ∧
    (∃ b, B.get 0 0 = .ok b ∧ HasDerivAt (fun t => F t 0) b (33 / 10)) ∧ ∃ b, B.get 0 1 = .ok b := by
  obtain ⟨f, hc⟩ := demo_curve
  obtain ⟨B, hB, h⟩ := derivatives_true_partial demoJob demo_ok f hc ⟨0, 0, []⟩ rfl
  obtain ⟨F, h1, h2⟩ := h 0 (33 / 10) (by rw [demo_par]; rfl) (by rw [demo_par]; rfl)
  obtain ⟨F', h1', h2'⟩ := h 1 (7 / 10) (by rw [demo_par]; rfl) (by rw [demo_par]; rfl)
  have hd : dataFrom demoJob.val demoJob.is demoJob.D = witD 1 := demo_data
  have hlo : (dataFrom demoJob.val demoJob.is demoJob.D).ncmin ≤ (0 : ℕ) := by rw [hd, witD_ncmin]; rfl
  have hhi : ((0 : ℕ) : ℤ) ≤ (dataFrom demoJob.val demoJob.is demoJob.D).ncmax := by rw [hd, witD_ncmax]; rfl
  obtain ⟨b, hb, -⟩ := h2' 0 hlo hhi
  exact ⟨f, B, F, hc, hB, h1, h2 0 hlo hhi, b, hb⟩

example : ∃ (f : ℤ → ℝ) (B : Mat ℝ) (F : ℝ → ℤ → ℝ), demoJob.curve demoJob.s.par = .ok (some f) ∧ demoJob.fitB ⟨0, 0, []⟩ = .ok B ∧
    (∀ᶠ t in nhds (33 / 10 : ℝ), demoJob.curve (demoJob.s.par.move 0 t) = .ok (some (F t))) ∧
    ∃ b, B.get 0 0 = .ok b ∧ HasDerivAt (fun t => F t 0) b (33 / 10) := by
  obtain ⟨f, B, F, h1, h2, h3, h4, -⟩ := demo_deriv
  exact ⟨f, B, F, h1, h2, h3, h4⟩

/-- `beta` for the one point of the demonstration, weight 2 and observed value 5. -/
example : ∃ (f : ℤ → ℝ) (d : ℤ → ℕ → ℝ) (F : ℝ → ℤ → ℝ),
    (∀ᶠ t in nhds (33 / 10 : ℝ), demoJob.curve (demoJob.s.par.move 0 t) = .ok (some (F t))) ∧
    HasDerivAt (fun t => ((grid 0 0).map fun i => 2 * (5 - F t i) ^ 2).sum)
      (-2 * (mrqAcc (fun l => [true, true].getD l false) 2 [(grid 0 0).map fun i => ⟨2, 5, f i, d i⟩] (fun _ _ => 0) (fun _ => 0)).2.1 0) (33 / 10) := by
  obtain ⟨f, B, -, hc, hB, -, ⟨b0, hb0, -⟩, b1, hb1⟩ := demo_deriv
  have hd : dataFrom demoJob.val demoJob.is demoJob.D = witD 1 := demo_data
  obtain ⟨B', hB', h⟩ := gradient_true_partial demoJob demo_ok f hc ⟨0, 0, []⟩ rfl (fun _ => 2) (fun _ => 5) 0 0
    (by rw [hd, witD_ncmin]) (by rw [hd, witD_ncmax]) (fun _ _ => 0) (fun _ => 0)
  rw [hB] at hB'
  cases hB'
  obtain ⟨F, h1, h2⟩ := h (fun _ l => if l = 0 then b0 else b1) (by
    intro i l h1 h2 hl
    obtain rfl : i = 0 := by omega
    rw [demo_par] at hl
    change l < 2 at hl
    have : l = 0 ∨ l = 1 := by omega
    rcases this with rfl | rfl
    · exact hb0
    · exact hb1) 0 (33 / 10) (by rw [demo_par]; rfl) (by rw [demo_par]; rfl)
  rw [demo_par] at h2
  exact ⟨f, fun _ l => if l = 0 then b0 else b1, F, h1, h2⟩

end demo
end Pdffit.C62
