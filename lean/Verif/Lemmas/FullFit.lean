import Verif.Model.FullFit
import Verif.Props.C30Mat
import Verif.Props.C53
import Verif.Props.C62

/-!
# One evaluation of the fit as a whole
-/

namespace Pdffit.Full
open Geom Det Deriv Layout Conf DMat C47 _root_.Pdffit.Parser

/-- What reading data and structures leaves behind: separate variables, positive dimensions of the supercells, data on a grid
with a fit range inside. -/
structure Input.Ok (I : Input) : Prop where
  sep : Separate I.addr I.natoms I.nset
  icc : ∀ ph ∈ I.phases, ∀ k, 0 < ph.icc k
  data : ∀ s ∈ I.sets, C30.Inv s.d

namespace Input
variable {I : Input}

theorem known (v : ℕ → ℝ) (s : SetIn) : Known I.natoms (I.sel v s) 0 := by
  intro ip x hx
  unfold sel selFrom template at hx
  rw [List.getElem?_mapIdx, List.getElem?_mapIdx] at hx
  rw [Nat.zero_add]
  unfold natoms
  rw [List.getElem?_map]
  cases hp : I.phases[ip]? with
  | none => rw [hp] at hx; cases hx
  | some ph =>
    rw [hp] at hx
    simp only [Option.map_some, Option.some.injEq] at hx
    cases hs : s.sel.getD ip none with
    | none => rw [hs] at hx; cases hx
    | some σ =>
      rw [hs] at hx
      simp only [Option.map_some, Option.some.injEq] at hx
      subst hx
      simp [phaseFrom]

theorem dat_ok (H : I.Ok) {s : SetIn} (hs : s ∈ I.sets) (v : ℕ → ℝ) (is : ℕ) : (I.dat v is s).Ok := by
  have h := H.data s hs
  exact ⟨h.step, h.lo, h.ord⟩

/-- The point `i` of a data set. -/
def pt (s : SetIn) (f : ℤ → ℝ) (g : ℤ → ℕ → ℝ) (i : ℤ) : Pt ℝ := ⟨s.d.wic.getD i.toNat 0, s.d.obs.getD i.toNat 0, f i, g i⟩

theorem calcSet_ok (H : I.Ok) {F : Type} (cons : List (Constr F)) {is : ℕ} {s : SetIn} (hs : I.sets[is]? = some s) (v : ℕ → ℝ)
    (old : Mat ℝ) (ho : old.WF) (dvdp : Mat ℝ) (hw : dvdp.WF) (hr : dvdp.rows = cons.length) (f : ℤ → ℝ)
    (hf : determine (I.dat v is s) (I.sel v s) = .ok (some f)) (hz : ¬I.Zero (refvar I.addr cons I.natoms I.nset) v is s) :
    ∃ (A : Mat ℝ) (g : ℤ → ℕ → ℝ) (E : ℕ → ℕ → ℝ), I.calcSet v (refvar I.addr cons I.natoms I.nset) (cons.map Constr.vref) dvdp is s old =
        .ok (some (A, (grid s.d.D.nfmin s.d.D.nfmax).map (pt s f g))) ∧ A.WF ∧
      (∀ i ∈ grid s.d.D.nfmin s.d.D.nfmax, ∀ j, j < dvdp.cols → g i j = ∑ c : Fin cons.length, E i.toNat c * (dvdp.ent c j).getD 0) ∧
      (∀ (k c : ℕ) (x : RVar), (refvar I.addr cons I.natoms I.nset)[k]? = some (some c) →
        (setup I.natoms I.nset).slots[k]? = some x → ∀ i ∈ grid s.d.D.nfmin s.d.D.nfmax,
          E i.toNat c = filt (I.dat v is s) (column (I.dat v is s) is x (I.sel v s)) i) ∧
      ∀ c, some c ∉ refvar I.addr cons I.natoms I.nset → c < cons.length → ∀ i ∈ grid s.d.D.nfmin s.d.D.nfmax, E i.toNat c = 0 := by
  have hmem := List.mem_of_getElem? hs
  have o := dat_ok H hmem v is
  have hin := H.data s hmem
  have his : is < I.nset := (List.getElem?_eq_some_iff.1 hs).1
  obtain ⟨A, E, e, HA, h1, h2⟩ := C30.fitA_entries I.addr cons I.natoms I.nset o is his (I.sel v s) (known v s) old ho
  have hd : C48.Holds dvdp (fun (i : Fin cons.length) (c : Fin dvdp.cols) => (dvdp.ent i c).getD 0) := by
    refine ⟨hr, rfl, hw, fun i j => ?_⟩
    obtain ⟨x, g1, g2⟩ := Mat.get_ok hw (i := i) (j := j) (by rw [hr]; exact i.2) j.2
    rw [g1]
    unfold Mat.ent
    rw [g2]
    rfl
  obtain ⟨B, eB, HB⟩ := C48.C48_product A dvdp _ _ HA.holds hd
  have k1 : 0 ≤ (I.dat v is s).ncmin := ncmin_nonneg o
  have k2 : (I.dat v is s).ncmin ≤ s.d.D.nfmin := ncmin_le_nfmin (D := I.dat v is s) o
  have k3 : s.d.D.nfmin ≤ s.d.D.nfmax := nfmin_le_nfmax (D := s.d.D) ⟨hin.step, hin.lo, hin.ord⟩
  have k4 : s.d.D.nfmax ≤ (I.dat v is s).ncmax := nfmax_le_ncmax (D := I.dat v is s) o
  have k5 := C30.nfmax_lt s.d hin
  refine ⟨A, fun i j => ((List.range dvdp.cols).map fun j => ∑ c : Fin cons.length, E i.toNat c * (dvdp.ent c j).getD 0).getD j 0,
    E, ?_, HA.wf, ?_, ?_, ?_⟩
  · unfold calcSet
    rw [hf, Res.bind_ok]
    have e' : fitAMat (I.lay (refvar I.addr cons I.natoms I.nset)) (cons.map Constr.vref) old (I.dat v is s) is (I.sel v s) = .ok A := e
    rw [e', Res.bind_ok, eB, Res.bind_ok]
    dsimp only
    rw [if_neg hz]
    have hcol := collect_ok (point s ((List.range ((I.dat v is s).ncmax + 1).toNat).map fun n : ℕ => f n) B)
      (fun i => [pt s f (fun i j => ((List.range dvdp.cols).map fun j =>
        ∑ c : Fin cons.length, E i.toNat c * (dvdp.ent c j).getD 0).getD j 0) i])
      (grid (I.dat v is s).nfmin (I.dat v is s).nfmax) (by
        intro i hi
        rw [mem_grid] at hi
        have hi1 : s.d.D.nfmin ≤ i := hi.1
        have hi2 : i ≤ s.d.D.nfmax := hi.2
        have rd : ∀ l : List ℝ, i < l.length → readAt l i = .ok (l.getD i.toNat 0) := by
          intro l hl
          unfold readAt
          rw [if_pos (by omega), Res.at?_of_lt (by omega)]
          congr 1
          rw [List.getD_eq_getElem _ _ (by omega)]
        unfold point
        rw [rd _ (by rw [hin.wic]; omega), Res.bind_ok, rd _ (by rw [hin.obs]; omega), Res.bind_ok, rd _ (by simp; omega), Res.bind_ok]
        have hrow := collect_ok (fun j => getZ B i j >>= fun x => .ok [x])
          (fun j => [∑ c : Fin cons.length, E i.toNat c * (dvdp.ent c j).getD 0]) (List.range B.cols) (by
            intro j hj
            rw [List.mem_range, HB.cols] at hj
            unfold getZ
            rw [if_pos (by omega)]
            have := HB.get ⟨i.toNat, by omega⟩ ⟨j, hj⟩
            dsimp only at this
            rw [this, Res.bind_ok]
            rfl)
        rw [hrow, Res.bind_ok, HB.cols]
        unfold pt
        congr 3
        · rw [List.getD_eq_getElem _ _ (by simp; omega)]
          simp
          congr 1
          omega
        · rw [← List.map_eq_flatMap])
    rw [hcol, Res.bind_ok]
    congr 3
    exact (List.map_eq_flatMap (f := pt s f _)).symm
  · intro i hi j hj
    dsimp only
    rw [List.getD_eq_getElem _ _ (by simpa using hj)]
    simp
  · intro k c x hk hx i hi
    rw [mem_grid] at hi
    have h := h1 k c x H.sep hk hx i.toNat (by omega) (by omega)
    rwa [Int.toNat_of_nonneg (by omega)] at h
  · intro c hc hl i hi
    rw [mem_grid] at hi
    exact h2 c hc hl i.toNat (by omega) (by omega)

/-- The curve of data set `is`; zero if it is not defined. -/
noncomputable def curveOf (I : Input) (v : ℕ → ℝ) (is : ℕ) (s : SetIn) : ℤ → ℝ :=
  match determine (I.dat v is s) (I.sel v s) with
  | .ok (some f) => f
  | _ => fun _ => 0

/-- Everything is defined and a number: the cells of all phases and the curves of all data sets. -/
structure Num (I : Input) (v : ℕ → ℝ) : Prop where
  lat : ∀ ip, ip < I.phases.length → ∃ m, lattice ⟨fun k => I.val v (.a0 ip k), fun k => I.val v (.win ip k)⟩ = .ok m
  det : ∀ (is : ℕ) s, I.sets[is]? = some s → ∃ f, determine (I.dat v is s) (I.sel v s) = .ok (some f)

theorem Num.curve {v : ℕ → ℝ} (h : Num I v) {is : ℕ} {s : SetIn} (hs : I.sets[is]? = some s) :
    determine (I.dat v is s) (I.sel v s) = .ok (some (I.curveOf v is s)) := by
  obtain ⟨f, hf⟩ := h.det is s hs
  unfold curveOf
  rw [hf]

/-- Entry of `fit_b` at point `i`, parameter `j`: the columns of the variables times the derivatives of the variables. -/
noncomputable def slope (I : Input) (v : ℕ → ℝ) (is : ℕ) (s : SetIn) (n : ℕ) (tv : ℕ → RVar) (d : ℕ → ℕ → ℝ) (i : ℤ) (j : ℕ) : ℝ :=
  ∑ c : Fin n, filt (I.dat v is s) (column (I.dat v is s) is (tv c) (I.sel v s)) i * d c j

theorem calcSets_ok (H : I.Ok) {F : Type} (cons : List (Constr F)) (hone : (cons.map Constr.addr).Nodup) (v : ℕ → ℝ) (hn : Num I v)
    (tv : ℕ → RVar) (htv : ∀ (c : ℕ) x, cons[c]? = some x → C47.Exists I.natoms I.nset (tv c) ∧ x.addr = I.addr (tv c))
    (hz : ∀ (is : ℕ) s, I.sets[is]? = some s → ∀ (c : ℕ) x, cons[c]? = some x → x.vref = true →
      ¬Div0 (I.dat v is s) is (tv c) (I.sel v s))
    (dvdp : Mat ℝ) (hw : dvdp.WF) (hr : dvdp.rows = cons.length) (l : List SetIn) :
    ∀ (is : ℕ) (c : List Out), (∀ k : ℕ, I.sets[is + k]? = l[k]?) → (∀ x ∈ c, x.1.WF) →
    ∃ (o : List Out) (G : ℕ → ℤ → ℕ → ℝ),
      I.calcSets v (refvar I.addr cons I.natoms I.nset) (cons.map Constr.vref) dvdp is l c = (o, none) ∧ (∀ x ∈ o, x.1.WF) ∧
      o.map Prod.snd = l.mapIdx (fun k s => (grid s.d.D.nfmin s.d.D.nfmax).map (pt s (I.curveOf v (is + k) s) (G (is + k)))) ∧
      ∀ (k : ℕ) s, l[k]? = some s → ∀ i ∈ grid s.d.D.nfmin s.d.D.nfmax, ∀ j, j < dvdp.cols →
        (∀ (c : ℕ) x, cons[c]? = some x → x.vref = false → (dvdp.ent c j).getD 0 = 0) →
        G (is + k) i j = I.slope v (is + k) s cons.length tv (fun c j => (dvdp.ent c j).getD 0) i j := by
  induction l with
  | nil => intro is c _ _; exact ⟨[], fun _ _ _ => 0, rfl, by simp, rfl, by simp⟩
  | cons s l ih =>
    intro is c hl hc
    have hs : I.sets[is]? = some s := by simpa using hl 0
    have hz0 : ¬I.Zero (refvar I.addr cons I.natoms I.nset) v is s := by
      rintro ⟨k, c, x, h1, h2, h3⟩
      obtain ⟨x', y, g1, g2, g3, g4⟩ := own I.addr cons I.natoms I.nset k c h2
      rw [h1] at g1
      cases g1
      obtain ⟨t1, t2⟩ := htv c y g2
      have ex : C47.Exists I.natoms I.nset x := by
        rw [← complete]
        exact List.mem_of_getElem? h1
      have e := H.sep _ _ ex t1 (g3.symm.trans t2)
      subst e
      exact hz is s hs c y g2 g4 h3
    have ho : (c.head?.getD (⟨0, 0, []⟩, [])).1.WF := by
      cases c with
      | nil => rfl
      | cons x c => exact hc x (by simp)
    obtain ⟨A, g, E, e1, e2, e3, e4, e5⟩ := calcSet_ok H cons hs v _ ho dvdp hw hr _ (hn.curve hs) hz0
    obtain ⟨o, G, h1, h2, h3, h4⟩ := ih (is + 1) c.tail (fun k => by
      have := hl (k + 1)
      rw [show is + 1 + k = is + (k + 1) by omega, this]
      rfl) (fun x hx => hc x (List.mem_of_mem_tail hx))
    refine ⟨(A, (grid s.d.D.nfmin s.d.D.nfmax).map (pt s (I.curveOf v is s) g)) :: o, fun m => if m = is then g else G m, ?_, ?_, ?_, ?_⟩
    · rw [calcSets, e1]
      dsimp only
      rw [h1]
    · intro x hx
      rcases List.mem_cons.1 hx with rfl | hx
      · exact e2
      · exact h2 x hx
    · rw [List.map_cons, h3, List.mapIdx_cons]
      congr 1
      · simp
      · congr 1
        funext k s
        dsimp only
        rw [if_neg (by omega), show is + 1 + k = is + (k + 1) by omega]
    · intro k s' hk i hi j hj hv
      cases k with
      | zero =>
        simp only [List.getElem?_cons_zero, Option.some.injEq] at hk
        subst hk
        simp only [Nat.add_zero, if_true]
        rw [e3 i hi j hj]
        unfold slope
        refine Finset.sum_congr rfl fun c _ => ?_
        have hcx : cons[(c : ℕ)]? = some cons[(c : ℕ)] := List.getElem?_eq_getElem c.2
        obtain ⟨t1, t2⟩ := htv c _ hcx
        cases hr : (cons[(c : ℕ)]).vref with
        | false =>
          dsimp only
          rw [hv c _ hcx hr, mul_zero, mul_zero]
        | true =>
          congr 1
          obtain ⟨k, hk⟩ := List.getElem?_of_mem ((complete I.natoms I.nset (tv c)).2 t1)
          exact e4 k c (tv c) ((attached_partial I.addr cons I.natoms I.nset H.sep hone c _ hcx hr _ t1 t2 k).2 hk) hk i hi
      | succ k =>
        rw [List.getElem?_cons_succ] at hk
        have h := h4 k s' hk i hi j hj hv
        rw [show is + 1 + k = is + (k + 1) by omega] at h
        dsimp only
        rw [if_neg (by omega)]
        exact h

theorem det_ok (H : I.Ok) {F : Type} (cons : List (Constr F)) (hone : (cons.map Constr.addr).Nodup) (v : ℕ → ℝ) (hn : Num I v)
    (tv : ℕ → RVar) (htv : ∀ (c : ℕ) x, cons[c]? = some x → C47.Exists I.natoms I.nset (tv c) ∧ x.addr = I.addr (tv c))
    (hz : ∀ (is : ℕ) s, I.sets[is]? = some s → ∀ (c : ℕ) x, cons[c]? = some x → x.vref = true →
      ¬Div0 (I.dat v is s) is (tv c) (I.sel v s))
    (dvdp : Mat ℝ) (hw : dvdp.WF) (hr : dvdp.rows = cons.length) (c : List Out) (hc : ∀ x ∈ c, x.1.WF) :
    ∃ (o : List Out) (G : ℕ → ℤ → ℕ → ℝ),
      I.det v (refvar I.addr cons I.natoms I.nset) (cons.map Constr.vref) dvdp c = (o, none) ∧ (∀ x ∈ o, x.1.WF) ∧
      o.map Prod.snd = I.sets.mapIdx (fun is s => (grid s.d.D.nfmin s.d.D.nfmax).map (pt s (I.curveOf v is s) (G is))) ∧
      ∀ (is : ℕ) s, I.sets[is]? = some s → ∀ i ∈ grid s.d.D.nfmin s.d.D.nfmax, ∀ j, j < dvdp.cols →
        (∀ (c : ℕ) x, cons[c]? = some x → x.vref = false → (dvdp.ent c j).getD 0 = 0) →
        G is i j = I.slope v is s cons.length tv (fun c j => (dvdp.ent c j).getD 0) i j := by
  obtain ⟨o, G, h1, h2, h3, h4⟩ := calcSets_ok H cons hone v hn tv htv hz dvdp hw hr I.sets 0 c (fun k => by rw [Nat.zero_add]) hc
  simp only [Nat.zero_add] at h3 h4
  refine ⟨o, G, ?_, h2, h3, h4⟩
  unfold det
  rw [if_neg, h1]
  rintro ⟨ip, hip, hm⟩
  obtain ⟨m, e⟩ := hn.lat ip hip
  exact hm m e

/-- The variables that the constraints prescribe at the parameters `par`; `v0` are the variables before. -/
noncomputable def vars (I : Input) (cs : List (Constr (List Char))) (v0 : ℕ → ℝ) (par : ParStore ℝ) : ℕ → ℝ :=
  wrapVars I.icc (cs.foldl (cstep (fparse builtinTab) par) v0)

/-- The derivative of the variable of constraint `c` with respect to parameter `j`. -/
noncomputable def dvar (cs : List (Constr (List Char))) (par : ParStore ℝ) (c j : ℕ) : ℝ :=
  match cs[c]? with
  | some x => C08.deriv (fparse builtinTab) par x j
  | none => 0

/-- The state between evaluations. -/
structure Ready (I : Input) (dmax : ℝ) (p0 : ParStore ℝ) (cs : List (Constr (List Char))) (v0 : ℕ → ℝ)
    (w : CWorld (List Char) ℝ (List Out)) : Prop where
  mid : C53.Mid (I.static dmax) textIds p0 cs w
  inv : CInv (I.static dmax) (fun c => ∀ x ∈ c, x.1.WF) cs v0 w

theorem icc_pos (H : I.Ok) (a : ℕ) (n : ℝ) (h : I.icc a = some n) : 0 < n := by
  unfold icc at h
  split at h
  · rename_i ip ia k _
    cases hp : I.phases[ip]? with
    | none => rw [hp] at h; cases h
    | some ph =>
      rw [hp] at h
      simp only [Option.map_some, Option.some.injEq] at h
      rw [← h]
      exact_mod_cast H.icc ph (List.mem_of_getElem? hp) k
  · cases h

theorem deriv_core {F : Type} {parse : FParser F ℝ} {par : ParStore ℝ} {c c' : Constr F} (h : c.core = c'.core) (j : ℕ) :
    C08.deriv parse par c j = C08.deriv parse par c' j := by
  have q1 := congrArg (·.2.1) h
  have q2 := congrArg (·.2.2.1) h
  have q3 := congrArg (·.2.2.2) h
  simp only [Constr.core] at q1 q2 q3
  unfold C08.deriv
  rw [q1, q2, q3]

theorem core_get {F : Type} {cs cs' : List (Constr F)} (h : cs.map Constr.core = cs'.map Constr.core) {c : ℕ} {x : Constr F}
    (hx : cs[c]? = some x) : ∃ y, cs'[c]? = some y ∧ y.core = x.core := by
  have := congrArg (·[c]?) h
  simp only [List.getElem?_map, hx, Option.map_some] at this
  cases hy : cs'[c]? with
  | none => rw [hy] at this; cases this
  | some y =>
    rw [hy] at this
    exact ⟨y, rfl, by simpa using this.symm⟩

theorem setup_ok (dmax : ℝ) {p0 : ParStore ℝ} {cs : List (Constr (List Char))} {v0 : ℕ → ℝ}
    {w : CWorld (List Char) ℝ (List Out)} (hi : C08.Inv textIds ⟨p0, w.cons, w.dvdp⟩)
    (hw : CInv (I.static dmax) (fun c => ∀ x ∈ c, x.1.WF) cs v0 w)
    (hcon : ∀ c ∈ cs, ∃ r, cres (fparse builtinTab) p0 c = .ok r) :
    ∃ w', (constrTheory (I.static dmax)).setup p0 w = (w', none) ∧ I.Ready dmax p0 cs v0 w' := by
  obtain ⟨cs', v', m', so, h1, h2, -, h4, -⟩ := fill_inv (S := I.static dmax) (par := p0) (fparse_parserOK builtinTab) hi.wf
    ⟨rfl, rfl, rfl⟩ hw
  cases so with
  | some x => exact absurd hcon (h4 (by simp))
  | none =>
    have hnp : (I.static dmax).slots.length = (I.static dmax).npar := by
      show ((setup I.natoms I.nset).slots.map I.addr).length = _
      rw [List.length_map]
      exact C47.count I.natoms I.nset
    have e : (constrTheory (I.static dmax)).setup p0 w = (((constrTheory (I.static dmax)).setup p0 w).1, none) := by
      refine Prod.ext rfl ?_
      simp only [constrTheory, fitSetup, h1, hnp, ne_eq, not_true_eq_false, if_false, Option.map_none]
    refine ⟨_, e, ?_, ?_⟩
    · obtain ⟨g1, g2, g3, g4⟩ := C53.fitSetup_none e
      exact C53.mid_of_fill (S := I.static dmax) (fparse_parserOK builtinTab) (fparse_parserUses builtinTab) ⟨rfl, rfl, rfl⟩ hw.cons hi
        g1 g2 g3 (by rw [g4, g2])
    · simp only [constrTheory, fitSetup, h1, hnp, ne_eq, not_true_eq_false, if_false]
      exact ⟨h2.cons, h2.vars, h2.wf, hw.curve⟩

/-- One evaluation: it succeeds, the variables are those that the constraints prescribe, the calculated values are those of
`determine`, and the derivatives with respect to the free parameters are the columns of the variables times the derivatives of
the constraints. -/
theorem eval_ok (H : I.Ok) (dmax : ℝ) {p0 par : ParStore ℝ} {cs : List (Constr (List Char))} {v0 : ℕ → ℝ}
    (hone : (cs.map Constr.addr).Nodup) (hasg : ∀ c ∈ cs, c.assigns) (tv : ℕ → RVar)
    (htv : ∀ (c : ℕ) x, cs[c]? = some x → C47.Exists I.natoms I.nset (tv c) ∧ x.addr = I.addr (tv c))
    {w : CWorld (List Char) ℝ (List Out)} (hw : I.Ready dmax p0 cs v0 w) (hs : C53.Same p0 par)
    (hcon : ∀ c ∈ cs, ∃ r, cres (fparse builtinTab) par c = .ok r) (hn : Num I (I.vars cs v0 par))
    (hz : ∀ (is : ℕ) s, I.sets[is]? = some s → ∀ (c : ℕ) x, cs[c]? = some x → C53.UsesFree textIds p0 x →
      ¬Div0 (I.dat (I.vars cs v0 par) is s) is (tv c) (I.sel (I.vars cs v0 par) s)) :
    ∃ (w' : CWorld (List Char) ℝ (List Out)) (G : ℕ → ℤ → ℕ → ℝ), (constrTheory (I.static dmax)).eval par w = (w', none) ∧ I.Ready dmax p0 cs v0 w' ∧ w'.vars = I.vars cs v0 par ∧
      (I.static dmax).pts w'.curve =
        I.sets.mapIdx (fun is s => (grid s.d.D.nfmin s.d.D.nfmax).map (pt s (I.curveOf (I.vars cs v0 par) is s) (G is))) ∧
      ∀ (is : ℕ) s, I.sets[is]? = some s → ∀ i ∈ grid s.d.D.nfmin s.d.D.nfmax, ∀ j, j < p0.p.length → p0.ip.getD j false = true →
        G is i j = I.slope (I.vars cs v0 par) is s cs.length tv (dvar cs par) i j := by
  have hp := fparse_parserOK builtinTab
  have hu := fparse_parserUses builtinTab
  obtain ⟨cs', v', m', so, h1, h2, h3, h4, -⟩ := fill_inv (S := I.static dmax) (par := par) hp hw.mid.inv.wf
    ⟨hs.ip, hs.id, hs.len⟩ hw.inv
  cases so with
  | some x => exact absurd hcon (h4 (by simp))
  | none =>
    have hv : wrapVars (I.static dmax).icc v' = I.vars cs v0 par := (h3 rfl).2
    have h1' : fillVariables (fparse builtinTab) par w.cons w.vars w.dvdp = (cs', v', m', none) := h1
    have hok : (fillVariables (fparse builtinTab) par w.cons w.vars w.dvdp).2.2.2 = none := by rw [h1']
    obtain ⟨q1, q2, q3, q4, q5⟩ := C53.fill_settle hp hu (hs.inv hw.mid.inv) hok
    rw [h1'] at q1 q2 q3 q4 q5
    dsimp only at q1 q2 q3 q4 q5
    have hset : cs' = w.cons := by
      rw [q2]
      exact C53.map_cmark_settled w.cons (fun c hc => by rw [hw.mid.flags c hc, hs.usesFree]) (by rw [← q2]; exact q3)
    have hrv : w.refvar = refvar I.addr cs' I.natoms I.nset := by
      rw [hw.mid.refvar, hset]
      show ((setup I.natoms I.nset).slots.map I.addr).map _ = _
      rw [List.map_map]
      rfl
    have hcore : cs'.map Constr.core = cs.map Constr.core := h2.cons
    have hlen : cs'.length = cs.length := by simpa using congrArg List.length hcore
    have hone' : (cs'.map Constr.addr).Nodup := by
      have e : cs'.map Constr.addr = cs.map Constr.addr := by
        have := congrArg (List.map (fun x : ℕ × Option (List Char) × ℤ × FCon => x.1)) hcore
        rw [List.map_map, List.map_map] at this
        exact this
      rw [e]
      exact hone
    have htv' : ∀ (c : ℕ) x, cs'[c]? = some x → C47.Exists I.natoms I.nset (tv c) ∧ x.addr = I.addr (tv c) := by
      intro c x hx
      obtain ⟨y, hy, e⟩ := core_get hcore hx
      obtain ⟨t1, t2⟩ := htv c y hy
      exact ⟨t1, by rw [← t2]; exact (congrArg (·.1) e).symm⟩
    obtain ⟨o, G, d1, d2, d3, d4⟩ := det_ok H cs' hone' (I.vars cs v0 par) hn tv htv' (fun is s hs' c x hx hv => by
        obtain ⟨y, hy, e⟩ := core_get hcore hx
        exact hz is s hs' c y hy ((C53.usesFree_core e).2 ((hs.usesFree textIds x).1 ((q3 x (List.mem_of_getElem? hx)).1 hv))))
      m' h2.wf q4 w.curve hw.inv.curve
    have hev : (constrTheory (I.static dmax)).eval par w =
        ({ w with cons := cs', vars := I.vars cs v0 par, dvdp := m', curve := o }, none) := by
      simp only [constrTheory, fitTheory]
      rw [h1]
      dsimp only
      rw [hv, hrv]
      have d1' : (I.static dmax).det (I.vars cs v0 par) (refvar I.addr cs' I.natoms I.nset) (cs'.map Constr.vref) m' w.curve = (o, none) := d1
      rw [d1']
      rfl
    obtain ⟨f1, f2, f3, f4⟩ := C53.fitTheory_none hev
    refine ⟨_, G, hev, ⟨?_, ?_⟩, rfl, d3, ?_⟩
    · refine C53.mid_of_fill (S := I.static dmax) hp hu hs hw.mid.core hw.mid.inv f1 f2 f3 ?_
      dsimp only
      rw [hw.mid.refvar, hset]
    · refine ⟨h2.cons, ?_, h2.wf, d2⟩
      intro a ha
      dsimp only
      rw [← hv, wrapVars_idem (S := I.static dmax) (icc_pos H)]
      exact h2.vars a ha
    · intro is s hs' i hi j hj hf
      have hfree : par.ip[j]? = some true := by
        rw [hs.ip]
        rw [List.getD] at hf
        cases hq : p0.ip[j]? with
        | none => simp [hq] at hf
        | some b => rw [hq] at hf; simpa using hf
      have hj' : j < par.p.length := by rw [hs.len]; exact hj
      have hent : ∀ (c : ℕ) x, cs'[c]? = some x → (m'.ent c j).getD 0 = C08.deriv (fparse builtinTab) par x j ∧
          (x.vref = false → (m'.ent c j).getD 0 = 0) := by
        intro c x hx
        have hcl := (List.getElem?_eq_some_iff.1 hx).1
        obtain ⟨y, hy, e⟩ := core_get hcore hx
        have h5 := C08.deriv_of_inv hp hu w.vars ⟨par, w.cons, w.dvdp⟩ _ (hs.inv hw.mid.inv) rfl hok c j x
          (by simp only [CState.exec]; rw [h1']; exact hx) ((assigns_core e.symm).2 (hasg y (List.mem_of_getElem? hy)))
          hj' hfree
        simp only [CState.exec] at h5
        rw [h1'] at h5
        dsimp only at h5
        obtain ⟨z, g1, g2⟩ := Mat.get_ok h2.wf (i := c) (j := j) (by rw [show m'.rows = _ from q4]; exact hcl)
          (by rw [show m'.cols = _ from q5]; exact hj')
        dsimp only at g1 g2
        have hz : (m'.ent c j).getD 0 = z := by
          unfold Mat.ent
          rw [g2]
          rfl
        rw [hz]
        rw [g1] at h5
        refine ⟨by simpa using h5.1, fun hvf => ?_⟩
        have := h5.2 (by
          intro n hn hpf
          have : x.vref = true := (q3 x (List.mem_of_getElem? hx)).2 ⟨n, hn, j, hpf, by
            unfold C14.free
            rw [List.getD, hfree]
            rfl⟩
          rw [hvf] at this
          cases this)
        simpa using this
      rw [d4 is s hs' i hi j (by rw [show m'.cols = _ from q5]; exact hj') (fun c x hx hvf => (hent c x hx).2 hvf)]
      unfold slope
      refine Fintype.sum_equiv (finCongr hlen) _ _ fun c => ?_
      have hcx : cs'[(c : ℕ)]? = some cs'[(c : ℕ)] := List.getElem?_eq_getElem c.2
      obtain ⟨y, hy, e⟩ := core_get hcore hcx
      show _ * (m'.ent c j).getD 0 = _ * dvar cs par c j
      rw [(hent c _ hcx).1]
      unfold dvar
      rw [hy]
      dsimp only
      rw [deriv_core e]
      rfl

end Input
end Pdffit.Full
