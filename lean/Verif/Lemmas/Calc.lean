import Verif.Model.Calc
import Verif.Lemmas.FullFit
import Verif.Props.C74

/-! # Lemmas about `calc()` -/

namespace Pdffit.Calc
open Geom Det Full _root_.Pdffit.Parser

/-! ## Evaluating the constraints twice -/

theorem rowAfter_cases {K : Type} (j : ℕ) (l : List (ℕ × K)) :
    (∀ o, rowAfter l j o = o) ∨ ∃ x, ∀ o, rowAfter l j o = some x := by
  induction l using List.reverseRecOn with
  | nil => exact .inl fun o => rfl
  | append_singleton l e ih =>
    unfold rowAfter at ih ⊢
    by_cases he : e.1 = j
    · exact .inr ⟨e.2, fun o => by simp [he]⟩
    · rcases ih with h | ⟨x, h⟩
      · exact .inl fun o => by simp [he, h]
      · exact .inr ⟨x, fun o => by simp [he, h]⟩

theorem rowAfter_idem {K : Type} (j : ℕ) (l : List (ℕ × K)) (o : Option K) : rowAfter l j (rowAfter l j o) = rowAfter l j o := by
  rcases rowAfter_cases j l with h | ⟨x, h⟩
  · rw [h]
  · rw [h, h]

theorem mat_ext {K : Type} {a b : Mat K} (ha : a.WF) (hb : b.WF) (hr : a.rows = b.rows) (hc : a.cols = b.cols)
    (h : ∀ i j, i < a.rows → j < a.cols → a.ent i j = b.ent i j) : a = b := by
  obtain ⟨r, c, d⟩ := a
  obtain ⟨r', c', d'⟩ := b
  dsimp only at hr hc h
  subst hr hc
  have ha : d.length = r * c := ha
  have hb : d'.length = r * c := hb
  congr 1
  refine List.ext_getElem? fun n => ?_
  by_cases hn : n < r * c
  · have hc : 0 < c := Nat.pos_of_ne_zero fun h => by simp [h] at hn
    have := h (n / c) (n % c) (Nat.div_lt_of_lt_mul (by rwa [Nat.mul_comm])) (Nat.mod_lt _ hc)
    unfold Mat.ent at this
    dsimp only at this
    rwa [Nat.mul_comm, Nat.div_add_mod] at this
  · rw [List.getElem?_eq_none (by omega), List.getElem?_eq_none (by omega)]

section
variable {F : Type} {parse : FParser F ℝ} {par : ParStore ℝ}

theorem cmark_idem (c : Constr F) : cmark parse par (cmark parse par c) = cmark parse par c := by
  have h : cres parse par (cmark parse par c) = cres parse par c := cres_core (cmark_core parse par c)
  obtain ⟨a, f, i, t, v⟩ := c
  unfold cmark at h ⊢
  rw [h]
  cases cres parse par ⟨a, f, i, t, v⟩ with
  | error x => rfl
  | ok r => rfl

theorem cents_mark (c : Constr F) : cents parse par (cmark parse par c) = cents parse par c := by
  unfold cents
  rw [cres_core (cmark_core parse par c)]

theorem marks_core (cs : List (Constr F)) : (cs.map (cmark parse par)).map Constr.core = cs.map Constr.core := by
  rw [List.map_map]
  exact List.map_congr_left fun c _ => cmark_core _ _ c

/-- The matrix after a second evaluation is the same. -/
theorem fill_again (hp : ParserOK parse) (hw : par.Wf) (cs : List (Constr F)) (v v' : ℕ → ℝ) (m : Mat ℝ) (hm : m.WF)
    (ha : ∀ c ∈ cs, ∃ r, cres parse par c = .ok r) {m' : Mat ℝ} (h : (fillVariables parse par cs v m).2.2.1 = m') :
    fillVariables parse par (cs.map (cmark parse par)) v' m' =
      (cs.map (cmark parse par), cs.foldl (cstep parse par) v', m', none) ∧ m'.WF := by
  obtain ⟨m1, e1, r1, c1, w1, h1⟩ := fillVariables_ok hp hw cs v m hm ha
  rw [e1] at h
  dsimp only at h
  subst h
  obtain ⟨m2, e2, r2, c2, w2, h2⟩ := fillVariables_ok hp hw (cs.map (cmark parse par)) v' m1 w1 (allok_core (marks_core cs).symm ha)
  refine ⟨?_, w1⟩
  rw [e2, List.map_map, foldl_cstep_core _ _ (marks_core cs)]
  have hcc : (cmark parse par ∘ cmark parse par) = cmark parse par := funext fun c => cmark_idem c
  rw [hcc]
  have : m2 = m1 := by
    refine mat_ext w2 w1 (by rw [r2, r1, List.length_map]) (by rw [c2, c1]) fun i j hi hj => ?_
    rw [r2] at hi
    rw [c2] at hj
    have hi' : i < cs.length := by simpa using hi
    rw [h2 i j hi hj, List.getElem_map, cents_mark]
    have ho : oldEnt m1 i j = m1.ent i j := by
      unfold oldEnt
      rw [if_pos ⟨by omega, by omega⟩]
    rw [ho, h1 i j hi' hj, rowAfter_idem]
  rw [this]

end

/-- Variables after an evaluation stay as they are when evaluated again. -/
theorem vars_idem {I : Input} (H : I.Ok) (cs : List (Constr (List Char))) (v : ℕ → ℝ) (par : ParStore ℝ)
    (ha : ∀ c ∈ cs, ∃ r, cres (fparse builtinTab) par c = .ok r) : I.vars cs (I.vars cs v par) par = I.vars cs v par := by
  funext a
  by_cases hc : ∃ c ∈ cs, c.addr = a ∧ c.assigns
  · unfold Input.vars
    simp only [wrapVars]
    rw [cstep_assigned cs a ha _ v (.inl hc)]
  · have hc' : ∀ c ∈ cs, c.addr = a → ¬ c.assigns := fun c hc1 h1 h2 => hc ⟨c, hc1, h1, h2⟩
    have e := wrapVars_idem (S := I.static 0) (I.icc_pos H) (cs.foldl (cstep (fparse builtinTab) par) v) a
    have e3 : ∀ u : ℕ → ℝ, I.vars cs u par a = wrapVars I.icc u a := by
      intro u
      unfold Input.vars
      simp only [wrapVars]
      rw [cstep_other cs a hc']
    rw [e3]
    exact e

/-! ## The loop over the data sets -/

/-- Sum over the fit range. -/
noncomputable def setNorm (s : SetIn) : ℝ := ((grid s.d.D.nfmin s.d.D.nfmax).map fun i => s.d.wic.getD i.toNat 0 * s.d.obs.getD i.toNat 0 ^ 2).sum

theorem readAt_ok {l : List ℝ} {i : ℤ} (h0 : 0 ≤ i) (h1 : i < l.length) : readAt l i = .ok (l.getD i.toNat 0) := by
  have : i.toNat < l.length := by omega
  unfold readAt
  rw [if_pos h0, Res.at?_of_lt this, List.getD_eq_getElem _ _ this]

theorem range_in {d : DSet} (h : C30.Inv d) {i : ℤ} (hi : i ∈ grid d.D.nfmin d.D.nfmax) : 0 ≤ i ∧ i < d.obs.length ∧ i < d.wic.length := by
  have o : d.D.Ok := ⟨h.step, h.lo, h.ord⟩
  have h1 := ncmin_nonneg o
  have h2 := ncmin_le_nfmin o
  have h5 := C30.nfmax_lt d h
  rw [mem_grid] at hi
  have := h.obs
  have := h.wic
  omega

theorem wsq_fold {s : SetIn} (l : List ℤ) (h : ∀ i ∈ l, 0 ≤ i ∧ i < s.d.obs.length ∧ i < s.d.wic.length) (a : ℝ) :
    l.foldlM (fun a i => do
      let w ← readAt s.d.wic i
      let o ← readAt s.d.obs i
      (.ok (a + w * o * o) : Res ℝ)) a =
    .ok (a + (l.map fun i => s.d.wic.getD i.toNat 0 * s.d.obs.getD i.toNat 0 ^ 2).sum) := by
  induction l generalizing a with
  | nil => simp
  | cons i l ih =>
    obtain ⟨h0, h1, h2⟩ := h i (by simp)
    rw [List.foldlM_cons, readAt_ok h0 h2, readAt_ok h0 h1]
    show List.foldlM _ _ l = _
    rw [ih fun j hj => h j (List.mem_cons_of_mem _ hj), List.map_cons, List.sum_cons]
    congr 1
    ring

theorem wsq_ok {s : SetIn} (h : C30.Inv s.d) : wsq s = .ok (setNorm s) := by
  unfold wsq setNorm
  rw [wsq_fold _ fun i hi => range_in h hi, zero_add]

/-- The PDF of data set `is` as calculated from the variables `v`; `none` if it is not a number somewhere. -/
noncomputable def pdfOf (I : Input) (v : ℕ → ℝ) (is : ℕ) (s : SetIn) : Option (ℤ → ℝ) :=
  match determine (I.dat v is s) (I.sel v s) with
  | .ok t => t
  | _ => none

/-- The data set after the calculation. -/
noncomputable def after (I : Input) (v : ℕ → ℝ) (is : ℕ) (s : SetIn) (o : SetSt) : SetSt :=
  { o with nfmin := s.d.D.nfmin, nfmax := s.d.D.nfmax, pdftot := toCurve (I.dat v is s) (pdfOf I v is s) }

theorem determine_pdfOf {I : Input} (H : I.Ok) (v : ℕ → ℝ) (is : ℕ) {s : SetIn} (hs : s ∈ I.sets) :
    determine (I.dat v is s) (I.sel v s) = .ok (pdfOf I v is s) := by
  classical
  obtain ⟨t, h, -⟩ := determine_spec (Input.dat_ok H hs v is) (I.sel v s)
  unfold pdfOf
  rw [h]

theorem calcSet_ok {I : Input} (H : I.Ok) (v : ℕ → ℝ) (is : ℕ) {s : SetIn} (hs : s ∈ I.sets) (o : SetSt) :
    calcSet I v is s o = .ok (after I v is s o, setNorm s, s.d.D.nfmax - s.d.D.nfmin + 1) := by
  unfold calcSet
  rw [determine_pdfOf H v is hs, wsq_ok (H.data s hs)]
  rfl

theorem calcSets_ok {I : Input} (H : I.Ok) (v : ℕ → ℝ) (l : List SetIn) : ∀ (is : ℕ) (c : List SetSt) (wn : ℝ) (nt : ℤ),
    (∀ s ∈ l, s ∈ I.sets) → c.length = l.length →
    calcSets I v is l c wn nt = (.ok (), (l.zip c).mapIdx (fun k x => after I v (is + k) x.1 x.2), wn + (l.map setNorm).sum,
      nt + (l.map fun s => s.d.D.nfmax - s.d.D.nfmin + 1).sum) := by
  induction l with
  | nil =>
    intro is c wn nt _ hc
    obtain rfl : c = [] := List.length_eq_zero_iff.1 hc
    simp [calcSets]
  | cons s l ih =>
    intro is c wn nt hl hc
    cases c with
    | nil => simp at hc
    | cons o c =>
      rw [calcSets, calcSet_ok H v is (hl s (by simp)) o]
      dsimp only
      rw [ih (is + 1) c _ _ (fun s hs => hl s (List.mem_cons_of_mem _ hs)) (by simpa using hc)]
      simp only [List.zip_cons_cons, List.mapIdx_cons, List.map_cons, List.sum_cons, Nat.add_zero]
      refine Prod.ext rfl (Prod.ext ?_ (Prod.ext (add_assoc _ _ _) (add_assoc _ _ _)))
      dsimp only
      congr 1
      exact C74.mapIdx_congr fun k x _ => by rw [Nat.add_assoc, Nat.add_comm 1 k]

/-! ## The whole call -/

/-- What the object satisfies between calls. -/
structure Wf (s : St) : Prop where
  input : s.I.Ok
  par : s.par.Wf
  dvdp : s.dvdp.WF
  sets : s.sets.length = s.I.sets.length

/-- The cells of all phases are acceptable. -/
def Cells (I : Input) (v : ℕ → ℝ) : Prop :=
  ∀ ip, ip < I.phases.length → ∃ m, lattice ⟨fun k => I.val v (.a0 ip k), fun k => I.val v (.win ip k)⟩ = .ok m

/-- All constraints can be evaluated. -/
def Evaluates (s : St) : Prop := ∀ c ∈ s.cons, ∃ r, cres (fparse builtinTab) s.par c = .ok r

/-- The state after a successful call; `m` is the matrix of the derivatives. -/
noncomputable def next (s : St) (m : Mat ℝ) : St :=
  { s with
    cons := s.cons.map (cmark (fparse builtinTab) s.par)
    vars := s.I.vars s.cons s.vars s.par
    dvdp := m
    sets := (s.I.sets.zip s.sets).mapIdx fun k x => after s.I (s.I.vars s.cons s.vars s.par) k x.1 x.2
    wnorm := (s.I.sets.map setNorm).sum
    ntot := (s.I.sets.map fun s => s.d.D.nfmax - s.d.D.nfmin + 1).sum }

theorem cells_iff (I : Input) (v : ℕ → ℝ) : Cells I v ↔ ¬ ∃ ip, ip < I.phases.length ∧
    ∀ m, lattice ⟨fun k => I.val v (.a0 ip k), fun k => I.val v (.win ip k)⟩ ≠ .ok m := by
  unfold Cells
  push Not
  rfl

theorem calculate_ok {s : St} (h : Wf s) (hne : s.I.sets ≠ []) (he : Evaluates s) (hc : Cells s.I (s.I.vars s.cons s.vars s.par)) :
    calculate s = (.ok (), next s (fillVariables (fparse builtinTab) s.par s.cons s.vars s.dvdp).2.2.1) := by
  obtain ⟨m, e, -⟩ := fillVariables_ok (fparse_parserOK builtinTab) h.par s.cons s.vars s.dvdp h.dvdp he
  unfold Input.vars at hc
  unfold calculate
  rw [if_neg hne, e]
  dsimp only
  rw [if_neg ((cells_iff _ _).1 hc), calcSets_ok h.input _ _ _ _ _ _ (fun _ hs => hs) h.sets]
  simp only [zero_add]
  rfl

theorem calculate_cells {s : St} (h : Wf s) (hne : s.I.sets ≠ []) (he : Evaluates s) (hc : ¬ Cells s.I (s.I.vars s.cons s.vars s.par)) :
    calculate s = (.err .structure, { s with
      cons := s.cons.map (cmark (fparse builtinTab) s.par)
      vars := s.I.vars s.cons s.vars s.par
      dvdp := (fillVariables (fparse builtinTab) s.par s.cons s.vars s.dvdp).2.2.1 }) := by
  obtain ⟨m, e, -⟩ := fillVariables_ok (fparse_parserOK builtinTab) h.par s.cons s.vars s.dvdp h.dvdp he
  unfold Input.vars at hc
  rw [cells_iff, not_not] at hc
  unfold calculate
  rw [if_neg hne, e]
  dsimp only
  rw [if_pos hc]
  rfl

theorem calculate_fail {s : St} (h : Wf s) (hne : s.I.sets ≠ []) (he : ¬ Evaluates s) :
    ∃ (l : List (Constr (List Char))) (c : Constr (List Char)) (r : List (Constr (List Char))) (x : Exc) (m : Mat ℝ), s.cons = l ++ c :: r ∧
      (∀ c ∈ l, ∃ r, cres (fparse builtinTab) s.par c = .ok r) ∧
      cres (fparse builtinTab) s.par c = .error x ∧ m.WF ∧
      calculate s = (.err x, { s with
        cons := l.map (cmark (fparse builtinTab) s.par) ++ cmark (fparse builtinTab) s.par c :: r
        vars := l.foldl (cstep (fparse builtinTab) s.par) s.vars
        dvdp := m }) := by
  obtain ⟨l, c, r, x, m, e1, e2, e3, e4, -, -, e5, -⟩ := fillVariables_err (fparse_parserOK builtinTab) h.par s.cons s.vars s.dvdp h.dvdp he
  refine ⟨l, c, r, x, m, e1, e2, e3, e5, ?_⟩
  unfold calculate
  rw [if_neg hne, e4]

theorem evaluates_next {s : St} (he : Evaluates s) (m : Mat ℝ) : Evaluates (next s m) :=
  allok_core (marks_core s.cons).symm he

end Pdffit.Calc
