import Verif.Lemmas.FullMix
import Verif.Props.C71
import Verif.Props.C73

/-!
# C74: refined scale factors of phases give the least-squares mix of the phases

The whole of `refine()`: constraints, calculation of the PDF of all phases and data sets, derivatives, normal equations, damping and stopping
rule. The scale factors of phases are constrained to linear combinations of the parameters; everything else is constant. Then
`refine()` ends, and its chi-square is that of the best mix up to a factor that is at most `10 ^ -36 / μ ^ 8` of the initial excess.

No property of the calculation is assumed, apart from the existence of a curve at the start.
-/

namespace Pdffit.C74
open Geom Det Deriv Layout Conf DMat Full _root_.Pdffit.Parser

/-- The variables that the constraints prescribe: constrained variables have the value of their constraint, the others their old value
(coordinates of atoms wrapped into the supercell). -/
noncomputable def prescribed (I : Input) (cons : List (Constr (List Char))) (v0 : ℕ → ℝ) (par : ParStore ℝ) : ℕ → ℝ := fun a =>
  match cons.find? fun c => c.addr == a with
  | some c => (c.value (fparse builtinTab) par).getD 0
  | none => wrapVars I.icc v0 a

/-- Sum over all points of the fit ranges of all data sets. -/
noncomputable def over (I : Input) (f : ℕ → SetIn → ℤ → ℝ) : ℝ :=
  (I.sets.mapIdx fun is s => ((grid s.d.D.nfmin s.d.D.nfmax).map fun i => s.d.wic.getD i.toNat 0 * f is s i).sum).sum

/-- Chi-square of the PDF calculated from the variables `v`. -/
noncomputable def chi (I : Input) (v : ℕ → ℝ) : ℝ := over I fun is s i => (s.d.obs.getD i.toNat 0 - I.curveOf v is s i) ^ 2

/-- Weighted squared distance of two calculated PDFs. -/
noncomputable def dist (I : Input) (v v' : ℕ → ℝ) : ℝ := over I fun is s i => (I.curveOf v is s i - I.curveOf v' is s i) ^ 2

/-- The constraint is linear in the free parameters. -/
def Linear (p0 : ParStore ℝ) (c : Constr (List Char)) : Prop :=
  ∃ (a : ℝ) (b : ℕ → ℝ), ∀ par, C73.Same p0 par → FormOk par c ∧
    c.value (fparse builtinTab) par = some (a + ∑ i ∈ C73.free p0, b i * par.p.getD i 0)

/-- The problem: linear constraints on scale factors of phases; a curve exists; the weights are not negative. -/
structure Mix (I : Input) (p0 : ParStore ℝ) (cons : List (Constr (List Char))) (v0 : ℕ → ℝ) : Prop where
  one : (cons.map Constr.addr).Nodup
  scale : ∀ c ∈ cons, ∃ ip, ip < I.phases.length ∧ c.addr = I.addr (.pscale ip)
  lin : ∀ c ∈ cons, Linear p0 c
  num : I.Num (prescribed I cons v0 p0)
  weight : ∀ s ∈ I.sets, ∀ i ∈ grid s.d.D.nfmin s.d.D.nfmax, 0 ≤ s.d.wic.getD i.toNat 0

/-- Different values of the free parameters give PDFs that differ at a point of the fit. -/
def Identified (I : Input) (p0 : ParStore ℝ) (cons : List (Constr (List Char))) (v0 : ℕ → ℝ) : Prop :=
  ∀ par, C73.Same p0 par → (∀ (is : ℕ) s, I.sets[is]? = some s → ∀ i ∈ grid s.d.D.nfmin s.d.D.nfmax, s.d.wic.getD i.toNat 0 ≠ 0 →
    I.curveOf (prescribed I cons v0 par) is s i = I.curveOf (prescribed I cons v0 p0) is s i) →
    ∀ i ∈ C73.free p0, par.p.getD i 0 = p0.p.getD i 0

/-- Changing all free parameters changes the curve by at least `μ` times what the separate changes give together. -/
def Sharp (I : Input) (p0 : ParStore ℝ) (cons : List (Constr (List Char))) (v0 : ℕ → ℝ) (μ : ℝ) : Prop :=
  0 < μ ∧ ∀ par, C73.Same p0 par →
    μ * ∑ i ∈ C73.free p0, (par.p.getD i 0 - p0.p.getD i 0) ^ 2 *
      dist I (prescribed I cons v0 (p0.move i (p0.p.getD i 0 + 1))) (prescribed I cons v0 p0) ≤
    dist I (prescribed I cons v0 par) (prescribed I cons v0 p0)

section
variable {I : Input} {p0 : ParStore ℝ} {cons : List (Constr (List Char))} {v0 : ℕ → ℝ}

theorem Linear.assigns {c : Constr (List Char)} (h : Linear p0 c) (h0 : C73.Same p0 p0) : c.assigns := by
  obtain ⟨a, b, h⟩ := h
  have := (h p0 h0).2
  by_contra hn
  unfold Constr.assigns at hn
  push Not at hn
  unfold Constr.value at this
  cases hf : c.form with
  | some f => exact hn.1 (by simp [hf])
  | none =>
    rw [hf, hn.2] at this
    dsimp only at this
    split at this <;> cases this

theorem cstep_value {par : ParStore ℝ} {c : Constr (List Char)} {y : ℝ} (h : c.value (fparse builtinTab) par = some y)
    (v : ℕ → ℝ) : cstep (fparse builtinTab) par v c = upd v c.addr y := by
  unfold Constr.value at h
  unfold cstep cres
  cases hf : c.form with
  | some f =>
    rw [hf] at h
    dsimp only at h ⊢
    cases hp : fparse builtinTab f par with
    | error x => rw [hp] at h; cases h
    | ok r =>
      rw [hp] at h
      cases h
      rfl
  | none =>
    rw [hf] at h
    dsimp only at h ⊢
    unfold ParStore.getpar at h
    cases hp : par.parfind (toUnsigned c.idef) with
    | none => rw [hp] at h; cases h
    | some j =>
      rw [hp] at h
      dsimp only at h
      cases hx : par.p[j]? with
      | none => simp [Res.at?, hx] at h
      | some x =>
        simp only [Res.at?, hx] at h
        cases ht : c.ctype <;> rw [ht] at h <;> cases h <;> simp [List.getD, hx]

theorem cstep_fold {par : ParStore ℝ} : ∀ (cs : List (Constr (List Char))),
    (∀ c ∈ cs, ∃ y, c.value (fparse builtinTab) par = some y) → ∀ v : ℕ → ℝ, cs.foldl (cstep (fparse builtinTab) par) v =
      cs.foldl (fun v c => (c.value (fparse builtinTab) par).elim v (upd v c.addr)) v := by
  intro cs
  induction cs with
  | nil => intro _ v; rfl
  | cons c cs ih =>
    intro h v
    obtain ⟨y, hy⟩ := h c (by simp)
    rw [List.foldl_cons, List.foldl_cons, cstep_value hy, hy, Option.elim_some, ih (fun c hc => h c (by simp [hc]))]

theorem scale_exists {ip : ℕ} (h : ip < I.phases.length) : C47.Exists I.natoms I.nset (.pscale ip) := by
  show ip < I.natoms.length
  unfold Input.natoms
  rwa [List.length_map]

theorem icc_scale (H : I.Ok) {ip : ℕ} (h : ip < I.phases.length) : I.icc (I.addr (.pscale ip)) = none := by
  unfold Input.icc
  split
  · rename_i q ia k hf
    exfalso
    have h1 := List.find?_some hf
    have h2 := List.mem_of_find?_eq_some hf
    rw [C47.complete] at h2
    have := H.sep _ _ h2 (scale_exists h) (by simpa using h1)
    cases this
  · rfl

/-- The engine's variables are the prescribed ones. -/
theorem vars_eq (H : I.Ok) (hM : Mix I p0 cons v0) {par : ParStore ℝ}
    (hv : ∀ c ∈ cons, ∃ y, c.value (fparse builtinTab) par = some y) : I.vars cons v0 par = prescribed I cons v0 par := by
  funext a
  unfold Input.vars prescribed
  rw [cstep_fold cons hv]
  cases hf : cons.find? fun c => c.addr == a with
  | none =>
    dsimp only
    rw [List.find?_eq_none] at hf
    have := foldl_value_other (parse := fparse builtinTab) (par := par) cons a (fun c hc => by simpa using hf c hc) v0
    unfold wrapVars
    rw [this]
  | some c =>
    dsimp only
    have hm := List.mem_of_find?_eq_some hf
    have ha : c.addr = a := by simpa using List.find?_some hf
    obtain ⟨ip, h1, h2⟩ := hM.scale c hm
    obtain ⟨y, hy⟩ := hv c hm
    rw [hy, Option.getD_some]
    unfold wrapVars
    rw [← ha, h2, icc_scale H h1]
    dsimp only
    rw [← h2]
    obtain ⟨l, r, hlr⟩ := List.append_of_mem hm
    rw [hlr]
    refine foldl_value_last l r c ?_ hy v0
    intro c' hc' he
    have := hM.one
    rw [hlr, List.map_append, List.map_cons] at this
    have := (List.nodup_cons.1 (List.nodup_append.1 this).2.1).1
    exact this (List.mem_map.2 ⟨c', hc', he⟩)

theorem same_wf (hw : p0.Wf) {par : ParStore ℝ} (h : C73.Same p0 par) : par.Wf :=
  ⟨by rw [h.2.2.1, h.2.1]; exact hw.lp, by rw [h.1, h.2.1]; exact hw.li, by rw [h.2.1]; exact hw.nd⟩

theorem Mix.value (hM : Mix I p0 cons v0) {par : ParStore ℝ} (h : C73.Same p0 par) :
    ∀ c ∈ cons, ∃ y, c.value (fparse builtinTab) par = some y := by
  intro c hc
  obtain ⟨a, b, hl⟩ := hM.lin c hc
  exact ⟨_, (hl par h).2⟩

theorem refl (p0 : ParStore ℝ) : C73.Same p0 p0 := ⟨rfl, rfl, rfl, fun _ _ _ => rfl⟩

theorem Mix.off (H : I.Ok) (hM : Mix I p0 cons v0) (par : ParStore ℝ) :
    I.Off (prescribed I cons v0 p0) (prescribed I cons v0 par) := by
  intro x hx hp
  unfold Input.val prescribed
  cases hf : cons.find? fun c => c.addr == I.addr x with
  | none => rfl
  | some c =>
    exfalso
    obtain ⟨ip, h1, h2⟩ := hM.scale c (List.mem_of_find?_eq_some hf)
    have ha : c.addr = I.addr x := by simpa using List.find?_some hf
    exact hp ip (H.sep _ _ hx (scale_exists h1) (ha.symm.trans h2))

theorem same_move {par : ParStore ℝ} (h : C73.Same p0 par) {j : ℕ} (hj : j ∈ C73.free p0) (t : ℝ) : C73.Same p0 (par.move j t) := by
  refine ⟨h.1, h.2.1, by simp [ParStore.move, h.2.2.1], fun i hi hf => ?_⟩
  rw [← h.2.2.2 i hi hf]
  have : j ≠ i := by
    rintro rfl
    have := (Finset.mem_filter.1 hj).2
    rw [hf] at this
    cases this
  simp [ParStore.move, List.getD, List.getElem?_set_ne this]

theorem move_getD {par : ParStore ℝ} {j : ℕ} (hj : j < par.p.length) (t : ℝ) (i : ℕ) :
    (par.move j t).p.getD i 0 = if i = j then t else par.p.getD i 0 := by
  unfold ParStore.move
  by_cases h : i = j
  · subst h
    rw [if_pos rfl]
    simp [List.getD, List.getElem?_set_self hj]
  · rw [if_neg h]
    simp [List.getD, List.getElem?_set_ne (Ne.symm h)]

/-- The derivative of a linear constraint is its coefficient. -/
theorem deriv_linear (hw : p0.Wf) {c : Constr (List Char)} (hL : Linear p0 c) {a : ℝ} {b : ℕ → ℝ}
    (h : ∀ par, C73.Same p0 par → FormOk par c ∧
      c.value (fparse builtinTab) par = some (a + ∑ i ∈ C73.free p0, b i * par.p.getD i 0))
    {par : ParStore ℝ} (hs : C73.Same p0 par) {j : ℕ} (hj : j ∈ C73.free p0) : C08.deriv (fparse builtinTab) par c j = b j := by
  obtain ⟨hj1, hj2⟩ := Finset.mem_filter.1 hj
  have hjl : j < par.p.length := by rw [hs.2.2.1]; exact Finset.mem_range.1 hj1
  have hx : par.p[j]? = some (par.p.getD j 0) := by
    rw [List.getD_eq_getElem _ _ hjl, List.getElem?_eq_getElem]
  have hfree : par.ip[j]? = some true := by
    rw [hs.1]
    rw [List.getD] at hj2
    cases hq : p0.ip[j]? with
    | none => rw [hq] at hj2; cases hj2
    | some y => rw [hq] at hj2; simpa using hj2
  obtain ⟨g, g1, g2, -⟩ := value_move (same_wf hw hs) hx hfree c (hL.assigns (refl p0)) (h par hs).1 ⟨_, (h par hs).2⟩
  have e : ∀ t, c.value (fparse builtinTab) (par.move j t) =
      some (a + ∑ i ∈ C73.free p0, b i * par.p.getD i 0 + b j * (t - par.p.getD j 0)) := by
    intro t
    rw [(h _ (same_move hs hj t)).2]
    congr 1
    rw [add_assoc]
    congr 1
    rw [← Finset.add_sum_erase _ _ hj, ← Finset.add_sum_erase _ (fun i => b i * par.p.getD i 0) hj]
    rw [Finset.sum_congr rfl (g := fun i => b i * par.p.getD i 0) (fun i hi => by
      rw [move_getD hjl, if_neg (Finset.ne_of_mem_erase hi)])]
    rw [move_getD hjl, if_pos rfl]
    ring
  have h2 : HasDerivAt (fun t => a + ∑ i ∈ C73.free p0, b i * par.p.getD i 0 + b j * (t - par.p.getD j 0)) (b j) (par.p.getD j 0) := by
    have := (((hasDerivAt_id' (par.p.getD j 0)).sub_const (par.p.getD j 0)).const_mul (b j)).const_add
      (a + ∑ i ∈ C73.free p0, b i * par.p.getD i 0)
    simpa using this
  refine g2.unique (h2.congr_of_eventuallyEq ?_)
  filter_upwards [g1] with t ht
  rw [e t] at ht
  exact (Option.some.inj ht).symm

/-- The calculated points are linear in the free parameters, and the derivatives of the engine are their slopes. -/
theorem Mix.linear (H : I.Ok) (hw : p0.Wf) (hM : Mix I p0 cons v0) :
    ∃ (tv : ℕ → RVar) (S : ℕ → SetIn → ℤ → ℕ → ℝ),
      (∀ (c : ℕ) x, cons[c]? = some x → C47.Exists I.natoms I.nset (tv c) ∧ x.addr = I.addr (tv c)) ∧ (∀ c, ∃ ip, tv c = .pscale ip) ∧
      ∀ par, C73.Same p0 par → ∀ (is : ℕ) s, I.sets[is]? = some s → ∀ i ∈ grid s.d.D.nfmin s.d.D.nfmax,
        I.curveOf (prescribed I cons v0 par) is s i = I.curveOf (prescribed I cons v0 p0) is s i +
          ∑ l ∈ C73.free p0, S is s i l * (par.p.getD l 0 - p0.p.getD l 0) ∧
        ∀ l ∈ C73.free p0, I.slope (prescribed I cons v0 par) is s cons.length tv (Input.dvar cons par) i l = S is s i l := by
  have hch : ∀ c : ℕ, ∃ (q : ℕ × ℝ × (ℕ → ℝ)), ∀ x, cons[c]? = some x → q.1 < I.phases.length ∧ x.addr = I.addr (.pscale q.1) ∧
      ∀ par, C73.Same p0 par → FormOk par x ∧
        x.value (fparse builtinTab) par = some (q.2.1 + ∑ i ∈ C73.free p0, q.2.2 i * par.p.getD i 0) := by
    intro c
    cases hx : cons[c]? with
    | none => exact ⟨(0, 0, fun _ => 0), fun x h => by cases h⟩
    | some x =>
      have hm := List.mem_of_getElem? hx
      obtain ⟨ip, h1, h2⟩ := hM.scale x hm
      obtain ⟨a, b, h3⟩ := hM.lin x hm
      refine ⟨(ip, a, b), fun y hy => ?_⟩
      cases hy
      exact ⟨h1, h2, h3⟩
  choose q hq using hch
  have hget : ∀ c : Fin cons.length, cons[(c : ℕ)]? = some cons[(c : ℕ)] := fun c => List.getElem?_eq_getElem c.2
  refine ⟨fun c => .pscale (q c).1, fun is s i l => ∑ c : Fin cons.length, I.unit (prescribed I cons v0 p0) is s (q c).1 i * (q c).2.2 l,
    fun c x hx => ⟨scale_exists (hq c x hx).1, (hq c x hx).2.1⟩, fun c => ⟨_, rfl⟩, ?_⟩
  intro par hs is s hset i hi
  have hoff := hM.off H par
  constructor
  · have hnum := hoff.num H hM.num
    have hd : ∀ ip ∈ Finset.range I.phases.length, I.val (prescribed I cons v0 par) (.pscale ip) =
        I.val (prescribed I cons v0 p0) (.pscale ip) +
          ∑ c : Fin cons.length, if (q c).1 = ip then ∑ l ∈ C73.free p0, (q c).2.2 l * (par.p.getD l 0 - p0.p.getD l 0) else 0 := by
      intro ip hip
      rw [Finset.mem_range] at hip
      unfold Input.val prescribed
      cases hf : cons.find? fun c => c.addr == I.addr (.pscale ip) with
      | none =>
        dsimp only
        rw [List.find?_eq_none] at hf
        rw [Finset.sum_eq_zero, add_zero]
        intro c _
        rw [if_neg]
        intro he
        refine hf cons[(c : ℕ)] (List.getElem_mem _) ?_
        rw [(hq c _ (hget c)).2.1, he]
        simp
      | some x =>
        dsimp only
        have hm := List.mem_of_find?_eq_some hf
        have ha : x.addr = I.addr (.pscale ip) := by simpa using List.find?_some hf
        obtain ⟨k, hk, rfl⟩ := List.getElem_of_mem hm
        have h1 := hq k _ (List.getElem?_eq_getElem hk)
        have hip' : (q k).1 = ip := by
          have := H.sep _ _ (scale_exists h1.1) (scale_exists hip) (h1.2.1.symm.trans ha)
          injection this
        rw [(h1.2.2 par hs).2, (h1.2.2 p0 (refl p0)).2, Option.getD_some, Option.getD_some]
        rw [Finset.sum_eq_single (⟨k, hk⟩ : Fin cons.length)]
        · rw [if_pos hip', add_assoc, ← Finset.sum_add_distrib]
          congr 1
          refine Finset.sum_congr rfl fun l _ => ?_
          ring
        · intro c _ hc
          rw [if_neg]
          intro he
          apply hc
          have h2 := (hq c _ (hget c)).2.1
          rw [he, ← ha] at h2
          have := (List.Nodup.getElem_inj_iff hM.one (i := c) (j := k) (hi := by simp) (hj := by simpa using hk)).1 (by
            simpa using h2)
          exact Fin.ext this
        · intro h
          exact absurd (Finset.mem_univ _) h
    rw [Input.mix H hnum hset i hi, Input.mix H hM.num hset i hi]
    rw [Finset.sum_congr rfl (fun ip hip => by rw [hd ip hip, hoff.unit hset])]
    simp only [add_mul]
    rw [Finset.sum_add_distrib]
    congr 1
    simp only [Finset.sum_mul]
    rw [Finset.sum_comm, Finset.sum_comm (s := C73.free p0)]
    refine Finset.sum_congr rfl fun c _ => ?_
    rw [Finset.sum_eq_single (q c).1]
    · rw [if_pos rfl, Finset.sum_mul]
      refine Finset.sum_congr rfl fun l _ => ?_
      ring
    · intro ip _ hne
      rw [if_neg (Ne.symm hne), zero_mul]
    · intro h
      exact absurd (Finset.mem_range.2 (hq c _ (hget c)).1) h
  · intro l hl
    unfold Input.slope
    refine Finset.sum_congr rfl fun c _ => ?_
    rw [Input.column_unit H _ hset _ i hi, hoff.unit hset]
    congr 1
    unfold Input.dvar
    rw [hget c]
    dsimp only
    exact deriv_linear hw (hM.lin _ (List.getElem_mem _)) (hq c _ (hget c)).2.2 hs hl

theorem mapIdx_congr {α β : Type} {l : List α} {f g : ℕ → α → β} (h : ∀ k x, l[k]? = some x → f k x = g k x) :
    l.mapIdx f = l.mapIdx g := by
  apply List.ext_getElem?
  intro k
  rw [List.getElem?_mapIdx, List.getElem?_mapIdx]
  cases hx : l[k]? with
  | none => rfl
  | some x => simp [h k x hx]

theorem map_mapIdx {α β γ : Type} (l : List α) (f : ℕ → α → β) (g : β → γ) :
    (l.mapIdx f).map g = l.mapIdx fun k x => g (f k x) := by
  apply List.ext_getElem?
  intro k
  rw [List.getElem?_map, List.getElem?_mapIdx, List.getElem?_mapIdx]
  cases l[k]? <;> rfl

theorem forall₂_mapIdx {α β γ : Type} {R : β → γ → Prop} {l : List α} {f : ℕ → α → β} {g : ℕ → α → γ}
    (h : ∀ k x, l[k]? = some x → R (f k x) (g k x)) : List.Forall₂ R (l.mapIdx f) (l.mapIdx g) := by
  rw [List.forall₂_iff_get]
  refine ⟨by simp, fun k h1 h2 => ?_⟩
  have hk : k < l.length := by simpa using h1
  simpa using h k l[k] (List.getElem?_eq_getElem hk)

/-- All points, given by a function. -/
noncomputable def points (I : Input) (P : ℕ → SetIn → ℤ → Pt ℝ) : List (List (Pt ℝ)) :=
  I.sets.mapIdx fun is s => (grid s.d.D.nfmin s.d.D.nfmax).map (P is s)

theorem points_sum (P : ℕ → SetIn → ℤ → Pt ℝ) (g : Pt ℝ → ℝ) (f : ℕ → SetIn → ℤ → ℝ)
    (h : ∀ (is : ℕ) s, I.sets[is]? = some s → ∀ i ∈ grid s.d.D.nfmin s.d.D.nfmax, g (P is s i) = s.d.wic.getD i.toNat 0 * f is s i) :
    ((points I P).flatten.map g).sum = over I f := by
  unfold points over
  rw [List.map_flatten, List.sum_flatten, List.map_map, map_mapIdx]
  congr 1
  refine mapIdx_congr fun is s hs => ?_
  dsimp only [Function.comp]
  rw [List.map_map]
  congr 1
  exact List.map_congr_left fun i hi => h is s hs i hi

theorem points_mem {P : ℕ → SetIn → ℤ → Pt ℝ} {p : Pt ℝ} (h : p ∈ (points I P).flatten) :
    ∃ is s i, I.sets[is]? = some s ∧ i ∈ grid s.d.D.nfmin s.d.D.nfmax ∧ p = P is s i := by
  obtain ⟨l, h1, h2⟩ := List.mem_flatten.1 h
  unfold points at h1
  obtain ⟨is, his, rfl⟩ := List.mem_mapIdx.1 h1
  obtain ⟨i, hi, rfl⟩ := List.mem_map.1 h2
  exact ⟨is, _, i, List.getElem?_eq_getElem his, hi, rfl⟩

theorem mem_points {P : ℕ → SetIn → ℤ → Pt ℝ} {is : ℕ} {s : SetIn} (hs : I.sets[is]? = some s) {i : ℤ}
    (hi : i ∈ grid s.d.D.nfmin s.d.D.nfmax) : P is s i ∈ (points I P).flatten := by
  refine List.mem_flatten.2 ⟨_, ?_, List.mem_map.2 ⟨i, hi, rfl⟩⟩
  unfold points
  obtain ⟨h1, h2⟩ := List.getElem?_eq_some_iff.1 hs
  exact List.mem_mapIdx.2 ⟨is, h1, by rw [h2]⟩

/-- What the proofs of the theorems below share. -/
structure Setting (I : Input) (dmax : ℝ) (p0 : ParStore ℝ) (cons : List (Constr (List Char))) (v0 : ℕ → ℝ)
    (B : List (List (Pt ℝ))) : Prop where
  chi : ∀ par, C73.Same p0 par → C73.chi (C73.at_ p0 B par) = chi I (prescribed I cons v0 par)
  eval : ∀ par w, C73.Same p0 par → I.Ready dmax p0 cons v0 w → ∃ w', (constrTheory (I.static dmax)).eval par w = (w', none) ∧
    I.Ready dmax p0 cons v0 w' ∧ C73.Agrees p0 ((I.static dmax).pts w'.curve) (C73.at_ p0 B par) ∧ w'.vars = prescribed I cons v0 par
  det : Identified I p0 cons v0 → Determined p0 B
  sharp : ∀ μ, Sharp I p0 cons v0 μ ↔ C73.Sharp p0 B μ

theorem Mix.setting (H : I.Ok) (hw : p0.Wf) (hM : Mix I p0 cons v0) (dmax : ℝ) : ∃ B, Setting I dmax p0 cons v0 B := by
  obtain ⟨tv, S, h1, h2, h3⟩ := hM.linear H hw
  set P : ℕ → SetIn → ℤ → Pt ℝ := fun is s => Input.pt s (I.curveOf (prescribed I cons v0 p0) is s) (S is s) with hP
  have hat : ∀ par, C73.at_ p0 (points I P) par = points I fun is s i =>
      { P is s i with mod := (P is s i).mod + ∑ l ∈ C73.free p0, S is s i l * (par.p.getD l 0 - p0.p.getD l 0) } := by
    intro par
    unfold C73.at_ points
    rw [map_mapIdx]
    refine mapIdx_congr fun is s _ => ?_
    dsimp only [Function.comp]
    rw [List.map_map]
    rfl
  -- a store with other values of the free parameters
  have hmake : ∀ y : ℕ → ℝ, ∃ par, C73.Same p0 par ∧ ∀ i ∈ C73.free p0, par.p.getD i 0 - p0.p.getD i 0 = y i := by
    intro y
    refine ⟨{ p0 with p := p0.p.mapIdx fun i x => if p0.ip.getD i false = true then x + y i else x }, ⟨rfl, rfl, by simp, ?_⟩, ?_⟩
    · intro i hi hf
      rw [List.getD_eq_getElem _ _ (by simpa using hi), List.getElem_mapIdx, hf, List.getD_eq_getElem _ _ hi]
      simp
    · intro i hi
      obtain ⟨g1, g2⟩ := Finset.mem_filter.1 hi
      have g1 := Finset.mem_range.1 g1
      rw [List.getD_eq_getElem _ _ (by simpa using g1), List.getElem_mapIdx, g2, List.getD_eq_getElem _ _ g1]
      simp
  have hdist : ∀ par, C73.Same p0 par → dist I (prescribed I cons v0 par) (prescribed I cons v0 p0) =
      ((points I P).flatten.map fun pt => pt.w * (∑ i ∈ C73.free p0, pt.d i * (par.p.getD i 0 - p0.p.getD i 0)) ^ 2).sum := by
    intro par hs
    unfold dist
    rw [points_sum P _ (fun is s i => (I.curveOf (prescribed I cons v0 par) is s i - I.curveOf (prescribed I cons v0 p0) is s i) ^ 2)]
    intro is s hset i hi
    rw [(h3 par hs is s hset i hi).1, hP]
    simp [Input.pt]
  have hdist1 : ∀ j ∈ C73.free p0, dist I (prescribed I cons v0 (p0.move j (p0.p.getD j 0 + 1))) (prescribed I cons v0 p0) =
      ((points I P).flatten.map fun pt => pt.w * pt.d j * pt.d j).sum := by
    intro j hj
    rw [hdist _ (same_move (refl p0) hj _)]
    congr 1
    refine List.map_congr_left fun pt _ => ?_
    have hjl := Finset.mem_range.1 (Finset.mem_filter.1 hj).1
    rw [Finset.sum_eq_single j]
    · rw [move_getD hjl, if_pos rfl]
      ring
    · intro i _ hne
      rw [move_getD hjl, if_neg hne]
      ring
    · intro h
      exact absurd hj h
  refine ⟨points I P, ?_, ?_, ?_, ?_⟩
  · intro par hs
    rw [hat]
    unfold C73.chi chi
    refine points_sum _ _ _ fun is s hset i hi => ?_
    rw [(h3 par hs is s hset i hi).1]
    rfl
  · intro par w hs hr
    have hv := vars_eq H hM (hM.value hs)
    obtain ⟨w', G, e1, e2, e3, e4, e5⟩ := Input.eval_ok H dmax hM.one (fun c hc => (hM.lin c hc).assigns (refl p0)) tv h1 hr
      ⟨hs.2.1, hs.1, hs.2.2.1⟩ (fun c hc => by
        obtain ⟨y, hy⟩ := hM.value hs c hc
        exact cres_of_value hy) (by rw [hv]; exact (hM.off H par).num H hM.num) (by
        rintro is s - c x - - (⟨e, -⟩ | ⟨ip, ia, ph, σ, e, -⟩)
        · obtain ⟨ip, h⟩ := h2 c
          rw [h] at e
          cases e
        · obtain ⟨ip, h⟩ := h2 c
          rw [h] at e
          cases e)
    rw [hv] at e3 e4 e5
    refine ⟨w', e1, e2, ?_, e3⟩
    rw [e4, hat]
    refine forall₂_mapIdx fun is s hset => ?_
    rw [List.forall₂_map_left_iff, List.forall₂_map_right_iff, List.forall₂_same]
    intro i hi
    obtain ⟨k1, k2⟩ := h3 par hs is s hset i hi
    refine ⟨rfl, rfl, k1, fun l hl => ?_⟩
    show G is i l = S is s i l
    obtain ⟨g1, g2⟩ := Finset.mem_filter.1 hl
    rw [e5 is s hset i hi l (Finset.mem_range.1 g1) g2, k2 l hl]
  · intro hid
    refine ⟨?_, ?_⟩
    · intro pt hpt
      obtain ⟨is, s, i, g1, g2, rfl⟩ := points_mem hpt
      exact hM.weight s (List.mem_of_getElem? g1) i g2
    · intro y hy i hi hf
      obtain ⟨par, hs, hpar⟩ := hmake y
      have hmem : i ∈ C73.free p0 := Finset.mem_filter.2 ⟨Finset.mem_range.2 hi, hf⟩
      have := hid par hs (by
        intro is s hset k hk hw0
        rw [(h3 par hs is s hset k hk).1]
        have := hy _ (mem_points (P := P) hset hk) hw0
        have e : ∑ l ∈ C73.free p0, S is s k l * (par.p.getD l 0 - p0.p.getD l 0) = 0 := by
          refine Eq.trans (Finset.sum_congr rfl fun l hl => ?_) this
          rw [hpar l hl, mul_comm]
          rfl
        rw [e, add_zero]) i hmem
      rw [← hpar i hmem, this, sub_self]
  · intro μ
    unfold Sharp C73.Sharp
    refine and_congr_right fun _ => ⟨fun h y => ?_, fun h par hs => ?_⟩
    · obtain ⟨par, hs, hpar⟩ := hmake y
      have := h par hs
      rw [hdist par hs] at this
      refine le_trans (le_of_eq ?_) (this.trans (le_of_eq ?_))
      · congr 1
        refine Finset.sum_congr rfl fun i hi => ?_
        rw [hdist1 i hi, hpar i hi, mul_comm]
      · congr 1
        refine List.map_congr_left fun pt _ => ?_
        rw [Finset.sum_congr rfl fun i hi => by rw [hpar i hi]]
    · have := h fun i => par.p.getD i 0 - p0.p.getD i 0
      rw [hdist par hs]
      refine le_trans (le_of_eq ?_) this
      congr 1
      refine Finset.sum_congr rfl fun i hi => ?_
      rw [hdist1 i hi, mul_comm]

/-- The state at the start of `refine()`. -/
theorem start (dmax : ℝ) (ops : List (COp (List Char) ℝ)) (hn : C08.NoRepl (fparse builtinTab) {} ops)
    (w : CWorld (List Char) ℝ (List Out)) (hst : CState.run (fparse builtinTab) {} ops = ⟨p0, w.cons, w.dvdp⟩) (hcur : ∀ x ∈ w.curve, x.1.WF)
    (hM : Mix I p0 w.cons w.vars) : p0.Wf ∧
    ∃ w', (constrTheory (I.static dmax)).setup p0 w = (w', none) ∧ I.Ready dmax p0 w.cons w.vars w' := by
  have hi := C08.inv_run (fparse_parserOK builtinTab) (fparse_parserUses builtinTab) ops hn
  rw [hst] at hi
  refine ⟨hi.wf, Input.setup_ok dmax hi ⟨rfl, fun _ _ => rfl, hi.m, hcur⟩ fun c hc => ?_⟩
  obtain ⟨y, hy⟩ := hM.value (refl p0) c hc
  exact cres_of_value hy

end

/-- **C74** The state comes from calls without replaced constraints. `refine()` ends after 5 to 101 steps; the variables are those that the constraints prescribe
at the final parameters; the reported chi-square is that of the PDF calculated from them; and its excess over the chi-square at any other
values of the free parameters is the fraction `left μ (steps - 1)` of the excess at the start, at most. -/
theorem C74_mix (I : Input) (H : I.Ok) (dmax toler : ℝ) (ops : List (COp (List Char) ℝ)) (hn : C08.NoRepl (fparse builtinTab) {} ops)
    (s : Statics ℝ) (e : Eng ℝ (CWorld (List Char) ℝ (List Out)))
    (hst : CState.run (fparse builtinTab) {} ops = ⟨e.par, e.world.cons, e.world.dvdp⟩) (hcur : ∀ x ∈ e.world.curve, x.1.WF)
    (hfresh : ¬ (s.fitRunning = true ∧ e.iter ≠ 0)) (hM : Mix I e.par e.world.cons e.world.vars)
    (hid : Identified I e.par e.world.cons e.world.vars) (μ : ℝ) (hμ : Sharp I e.par e.world.cons e.world.vars μ)
    (fuel : ℕ) (hf : 101 ≤ fuel) (V : ParStore ℝ → ℕ → ℝ) (hV : V = prescribed I e.world.cons e.world.vars) :
    let r := refineLoop (constrTheory (I.static dmax)) toler fuel (s, e)
    r.2.1 = .done ∧ 5 ≤ r.2.2 ∧ r.2.2 ≤ 101 ∧ C73.Same e.par r.1.2.par ∧ r.1.2.world.vars = V r.1.2.par ∧
      r.1.2.chisq = chi I (V r.1.2.par) ∧
      ∀ par, C73.Same e.par par →
        r.1.2.chisq - chi I (V par) ≤ C73.left μ (r.2.2 - 1) * (chi I (V e.par) - chi I (V par)) := by
  subst hV
  obtain ⟨hw, w, h1, h2⟩ := start dmax ops hn e.world hst hcur hM
  obtain ⟨B, hB⟩ := hM.setting H hw dmax
  obtain ⟨c1, c2, c3, c4, -, c6, -, -, ⟨w0, c8, c9⟩, c10⟩ := C73.C73_least_squares (constrTheory (I.static dmax))
    (I.Ready dmax e.par e.world.cons e.world.vars) B toler s e hfresh w h1 h2
    (fun par w hs hr => by
      obtain ⟨w', g1, g2, g3, -⟩ := hB.eval par w hs hr
      exact ⟨w', g1, g2, g3⟩) (hB.det hid) μ ((hB.sharp μ).1 hμ) fuel hf
  refine ⟨c1, c2, c3, c4, ?_, ?_, fun par hs => ?_⟩
  · obtain ⟨w', g1, -, -, g4⟩ := hB.eval _ w0 c4 c8
    rw [c9] at g1
    cases g1
    exact g4
  · rw [c6, hB.chi _ c4]
  · have := c10 par hs
    rw [hB.chi par hs, ← C73.chi_start e.par B, hB.chi _ (refl _)] at this
    exact this

/-- **C74** There is always such a `μ`. -/
theorem C74_sharp (I : Input) (H : I.Ok) (p0 : ParStore ℝ) (hw : p0.Wf) (cons : List (Constr (List Char))) (v0 : ℕ → ℝ)
    (hM : Mix I p0 cons v0) (hid : Identified I p0 cons v0) : ∃ μ, Sharp I p0 cons v0 μ := by
  obtain ⟨B, hB⟩ := hM.setting H hw 0
  obtain ⟨μ, h⟩ := C73.C73_sharp (hB.det hid)
  exact ⟨μ, (hB.sharp μ).2 h⟩

/-- **C74** Chi-square at the end is the least one up to `χ²(start) / (10 ^ 36 μ ^ 8)`. -/
theorem C74_accuracy (I : Input) (H : I.Ok) (dmax toler : ℝ) (ops : List (COp (List Char) ℝ)) (hn : C08.NoRepl (fparse builtinTab) {} ops)
    (s : Statics ℝ) (e : Eng ℝ (CWorld (List Char) ℝ (List Out)))
    (hst : CState.run (fparse builtinTab) {} ops = ⟨e.par, e.world.cons, e.world.dvdp⟩) (hcur : ∀ x ∈ e.world.curve, x.1.WF)
    (hfresh : ¬ (s.fitRunning = true ∧ e.iter ≠ 0)) (hM : Mix I e.par e.world.cons e.world.vars)
    (hid : Identified I e.par e.world.cons e.world.vars) (μ : ℝ) (hμ : Sharp I e.par e.world.cons e.world.vars μ)
    (fuel : ℕ) (hf : 101 ≤ fuel) (V : ParStore ℝ → ℕ → ℝ) (hV : V = prescribed I e.world.cons e.world.vars)
    (par : ParStore ℝ) (hp : C73.Same e.par par) :
    (refineLoop (constrTheory (I.static dmax)) toler fuel (s, e)).1.2.chisq ≤ chi I (V par) + chi I (V e.par) / (10 ^ 36 * μ ^ 8) := by
  subst hV
  obtain ⟨hw, w, h1, h2⟩ := start dmax ops hn e.world hst hcur hM
  obtain ⟨B, hB⟩ := hM.setting H hw dmax
  have := C73.C73_accuracy (constrTheory (I.static dmax))
    (I.Ready dmax e.par e.world.cons e.world.vars) B toler s e hfresh w h1 h2
    (fun par w hs hr => by
      obtain ⟨w', g1, g2, g3, -⟩ := hB.eval par w hs hr
      exact ⟨w', g1, g2, g3⟩) (hB.det hid) μ ((hB.sharp μ).1 hμ) fuel hf par hp
  rw [hB.chi par hp, ← C73.chi_start e.par B, hB.chi _ (refl _)] at this
  exact this

/-- **C74** One free parameter: `refine()` brings it at least `10 ^ 18` times closer to the value with the least chi-square. -/
theorem C74_one_parameter (I : Input) (H : I.Ok) (dmax toler : ℝ) (ops : List (COp (List Char) ℝ))
    (hn : C08.NoRepl (fparse builtinTab) {} ops) (s : Statics ℝ) (e : Eng ℝ (CWorld (List Char) ℝ (List Out)))
    (hst : CState.run (fparse builtinTab) {} ops = ⟨e.par, e.world.cons, e.world.dvdp⟩) (hcur : ∀ x ∈ e.world.curve, x.1.WF)
    (hfresh : ¬ (s.fitRunning = true ∧ e.iter ≠ 0)) (hM : Mix I e.par e.world.cons e.world.vars)
    (hid : Identified I e.par e.world.cons e.world.vars) (i : ℕ) (hi : C73.free e.par = {i})
    (fuel : ℕ) (hf : 101 ≤ fuel) (V : ParStore ℝ → ℕ → ℝ) (hV : V = prescribed I e.world.cons e.world.vars)
    (best : ParStore ℝ) (hb : C73.Same e.par best) (hbest : ∀ par, C73.Same e.par par → chi I (V best) ≤ chi I (V par)) :
    let r := refineLoop (constrTheory (I.static dmax)) toler fuel (s, e)
    r.2.1 = .done ∧ |r.1.2.par.p.getD i 0 - best.p.getD i 0| ≤ |e.par.p.getD i 0 - best.p.getD i 0| / 10 ^ 18 := by
  subst hV
  obtain ⟨hw, w, h1, h2⟩ := start dmax ops hn e.world hst hcur hM
  obtain ⟨B, hB⟩ := hM.setting H hw dmax
  obtain ⟨c1, c2, c3⟩ := C73.C73_one_parameter (constrTheory (I.static dmax))
    (I.Ready dmax e.par e.world.cons e.world.vars) B toler s e hfresh w h1 h2
    (fun par w hs hr => by
      obtain ⟨w', g1, g2, g3, -⟩ := hB.eval par w hs hr
      exact ⟨w', g1, g2, g3⟩) i hi (hB.det hid) fuel hf _ rfl
  set bk := e.par.p.getD i 0 +
    (B.flatten.map fun pt => pt.w * (pt.obs - pt.mod) * pt.d i).sum / (B.flatten.map fun pt => pt.w * pt.d i * pt.d i).sum with hbk
  set D := (B.flatten.map fun pt => pt.w * pt.d i * pt.d i).sum with hD
  have hmem : i ∈ C73.free e.par := by rw [hi]; exact Finset.mem_singleton_self i
  obtain ⟨hm1, hm2⟩ := Finset.mem_filter.1 hmem
  have hdet := hB.det hid
  have hnn : ∀ x ∈ B.flatten.map fun pt => pt.w * pt.d i * pt.d i, 0 ≤ x := by
    intro x hx
    obtain ⟨pt, hpt, rfl⟩ := List.mem_map.1 hx
    rw [mul_assoc]
    exact mul_nonneg (hdet.weight pt hpt) (mul_self_nonneg _)
  have hD0 : D ≠ 0 := by
    intro h0
    have g2 := sum_eq_zero_all _ hnn h0.le
    have g3 := hdet.indep (fun _ => 1) (by
      intro pt hpt hw
      have h4 := g2 _ (List.mem_map_of_mem hpt)
      rw [mul_assoc] at h4
      have h5 := mul_self_eq_zero.1 ((mul_eq_zero.1 h4).resolve_left hw)
      show ∑ j ∈ C73.free e.par, 1 * pt.d j = 0
      rw [hi, Finset.sum_singleton, h5, mul_zero]) i (Finset.mem_range.1 hm1) hm2
    exact one_ne_zero g3
  have hDpos : 0 < D := lt_of_le_of_ne (List.sum_nonneg hnn) (Ne.symm hD0)
  have e1 := c3 best hb
  have e2 := c3 _ (same_move (refl e.par) hmem bk)
  have e3 := hbest _ (same_move (refl e.par) hmem bk)
  rw [← hB.chi _ hb, ← hB.chi _ (same_move (refl e.par) hmem bk), e1, e2, move_getD (Finset.mem_range.1 hm1), if_pos rfl] at e3
  have e4 : D * (best.p.getD i 0 - bk) ^ 2 ≤ 0 := by nlinarith [e3]
  have e5 : (best.p.getD i 0 - bk) ^ 2 ≤ 0 := by
    by_contra h
    push Not at h
    exact absurd (mul_pos hDpos h) (not_lt.2 e4)
  have e6 : best.p.getD i 0 = bk := by
    have := pow_eq_zero_iff (two_ne_zero) |>.1 (le_antisymm e5 (sq_nonneg _))
    linarith
  rw [e6]
  exact ⟨c1, c2⟩

/-! ## Example: one atom in a cubic cell, data calculated with the scale factor 5, the fit started at 2 -/

open C68 in
/-- The cubic structure of C68 and five points `1, 1.5, ..., 3` with the observed values `obs`. -/
noncomputable def cubic (obs : List ℝ) : Input where
  addr := fun v => (setup [1] 1).slots.idxOf v
  phases := [iso (1 / 200)]
  sets := [⟨⟨span isoD 1 3, 3, 5, obs, [1, 1, 1, 1, 1]⟩, [some C60.noSel], fun _ _ => 1⟩]

/-- The values of its variables. -/
noncomputable def val1 : RVar → ℝ
  | .a0 _ _ => 3
  | .win _ _ => 90
  | .pscale _ => 2
  | .sratio _ => 1
  | .u _ _ k => if k.val < 3 then 1 / 200 else 0
  | .occ _ _ => 1
  | .dscale _ => 1
  | _ => 0

noncomputable def vars1 : ℕ → ℝ := fun a => (((setup [1] 1).slots[a]?).map val1).getD 0

/-- `pscale` is constrained to parameter 1. -/
def cons1 : List (Constr (List Char)) := [⟨(setup [1] 1).slots.idxOf (.pscale 0), none, 1, .ident, true⟩]

def store (x : ℝ) : ParStore ℝ := ⟨[x], [true], [1]⟩

theorem cubic_ok (obs : List ℝ) (h : obs.length = 5) : (cubic obs).Ok where
  sep := by
    intro v w hv hw e
    rw [← C47.complete] at hv
    exact (List.idxOf_inj hv).1 e
  icc := by
    intro ph hp k
    simp only [cubic, List.mem_singleton] at hp
    subst hp
    fin_cases k <;> simp [C68.iso, demo]
  data := by
    intro s hs
    simp only [cubic, List.mem_singleton] at hs
    subst hs
    refine ⟨by norm_num [C68.span, C68.isoD], by norm_num [C68.span, C68.isoD], by norm_num [C68.span, C68.isoD],
      by norm_num [C68.span, C68.isoD], by norm_num [C68.span, C68.isoD], h, rfl⟩

theorem vars1_val (x : RVar) (hx : C47.Exists [1] 1 x) : vars1 ((setup [1] 1).slots.idxOf x) = val1 x := by
  rw [← C47.complete] at hx
  unfold vars1
  rw [List.getElem?_eq_getElem (List.idxOf_lt_length_of_mem hx), List.getElem_idxOf]
  rfl

theorem cubic_val (obs : List ℝ) (h : obs.length = 5) (x : RVar) (hx : C47.Exists [1] 1 x) :
    (cubic obs).val (prescribed (cubic obs) cons1 vars1 (store 2)) x = val1 x := by
  have hsep := (cubic_ok obs h).sep
  unfold Input.val prescribed
  cases hf : cons1.find? fun c => c.addr == (cubic obs).addr x with
  | some c =>
    have hm := List.mem_of_find?_eq_some hf
    have ha : c.addr = (cubic obs).addr x := by simpa using List.find?_some hf
    simp only [cons1, List.mem_singleton] at hm
    subst hm
    have := hsep x (.pscale 0) hx (by show 0 < 1; norm_num) ha.symm
    subst this
    rfl
  | none =>
    dsimp only
    unfold wrapVars Input.icc
    cases hq : (setup (cubic obs).natoms (cubic obs).nset).slots.find? fun v => (cubic obs).addr v == (cubic obs).addr x with
    | none => exact vars1_val x hx
    | some y =>
      have hy : y = x := by
        have h1 := List.mem_of_find?_eq_some hq
        rw [C47.complete] at h1
        have h2 := List.find?_some hq
        exact hsep y x h1 hx (by simpa using h2)
      subst hy
      cases y with
      | pos ip ia k =>
        dsimp only
        have e0 : vars1 ((cubic obs).addr (.pos ip ia k)) = 0 := vars1_val _ hx
        cases (cubic obs).phases[ip]? with
        | none => exact e0
        | some ph => simp [e0, fmodK, val1]
      | _ => exact vars1_val _ hx

theorem cubic_phase (obs : List ℝ) (h : obs.length = 5) :
    phaseFrom ((cubic obs).val (prescribed (cubic obs) cons1 vars1 (store 2))) 0 (C68.iso (1 / 200)) = C68.iso (1 / 200) := by
  have hv := cubic_val obs h
  generalize (cubic obs).val (prescribed (cubic obs) cons1 vars1 (store 2)) = f at hv
  have h0 : (0 : ℕ) < 1 := by norm_num
  have ha : ∃ n, [1][0]? = some n ∧ 0 < n := ⟨1, rfl, h0⟩
  have e1 : (fun k => f (.a0 0 k)) = ![3, 3, 3] := by
    funext k
    rw [hv (.a0 0 k) h0]
    fin_cases k <;> rfl
  have e2 : (fun k => f (.win 0 k)) = ![90, 90, 90] := by
    funext k
    rw [hv (.win 0 k) h0]
    fin_cases k <;> rfl
  have e3 : (fun k => f (.pos 0 0 k)) = ![0, 0, 0] := by
    funext k
    rw [hv (.pos 0 0 k) ha]
    fin_cases k <;> rfl
  have e4 : (fun k => f (.u 0 0 k)) = ![1 / 200, 1 / 200, 1 / 200, 0, 0, 0] := by
    funext k
    rw [hv (.u 0 0 k) ha]
    fin_cases k <;> simp [val1]
  have e5 : atomFrom f 0 0 ⟨![0, 0, 0], 1, ![1 / 200, 1 / 200, 1 / 200, 0, 0, 0], 1⟩ =
      ⟨![0, 0, 0], 1, ![1 / 200, 1 / 200, 1 / 200, 0, 0, 0], 1⟩ := by
    unfold atomFrom
    rw [e3, e4, hv (.occ 0 0) ha]
    rfl
  show (⟨⟨fun k => f (.a0 0 k), fun k => f (.win 0 k)⟩, ![1, 1, 1],
    [atomFrom f 0 0 ⟨![0, 0, 0], 1, ![1 / 200, 1 / 200, 1 / 200, 0, 0, 0], 1⟩], f (.delta2 0), f (.delta1 0), 0, f (.sratio 0), 0,
    f (.spdiameter 0), f (.pscale 0)⟩ : PPhase) = _
  rw [e1, e2, e5, hv (.delta2 0) h0, hv (.delta1 0) h0, hv (.sratio 0) h0, hv (.spdiameter 0) h0, hv (.pscale 0) h0]
  rfl

noncomputable def set1 (obs : List ℝ) : SetIn :=
  ⟨⟨C68.span C68.isoD 1 3, 3, 5, obs, [1, 1, 1, 1, 1]⟩, [some C60.noSel], fun _ _ => 1⟩

theorem cubic_sel (obs : List ℝ) (h : obs.length = 5) :
    (cubic obs).sel (prescribed (cubic obs) cons1 vars1 (store 2)) (set1 obs) = [some (C68.iso (1 / 200), C60.noSel)] := by
  have e : Input.sel (cubic obs) (prescribed (cubic obs) cons1 vars1 (store 2)) (set1 obs) =
      [some (phaseFrom ((cubic obs).val (prescribed (cubic obs) cons1 vars1 (store 2))) 0 (C68.iso (1 / 200)), C60.noSel)] := rfl
  rw [e, cubic_phase obs h]

theorem cubic_dat (obs : List ℝ) (h : obs.length = 5) :
    (cubic obs).dat (prescribed (cubic obs) cons1 vars1 (store 2)) 0 (set1 obs) = C68.span C68.isoD 1 3 := by
  have hv := cubic_val obs h
  have h0 : (0 : ℕ) < 1 := by norm_num
  unfold Input.dat dataFrom
  rw [hv (.dscale 0) h0, hv (.qdamp 0) h0, hv (.qbroad 0) h0]
  rfl

theorem cubic_set (obs : List ℝ) {is : ℕ} {s : SetIn} (hs : (cubic obs).sets[is]? = some s) : is = 0 ∧ s = set1 obs := by
  have h1 := (List.getElem?_eq_some_iff.1 hs).1
  have : is = 0 := by
    have : is < 1 := h1
    omega
  subst this
  exact ⟨rfl, (Option.some.inj hs).symm⟩

theorem cubic_num (obs : List ℝ) (h : obs.length = 5) : (cubic obs).Num (prescribed (cubic obs) cons1 vars1 (store 2)) := by
  refine ⟨?_, ?_⟩
  · intro ip hip
    have hip : ip = 0 := by
      have : ip < 1 := hip
      omega
    subst hip
    have := (C68.iso_fine (1 / 200)).acc
    have e := congrArg PPhase.cell (cubic_phase obs h)
    obtain ⟨m, hm⟩ := this
    exact ⟨m, by rw [← hm]; exact congrArg lattice e⟩
  · intro is s hs
    obtain ⟨rfl, rfl⟩ := cubic_set obs hs
    rw [cubic_dat obs h, cubic_sel obs h]
    obtain ⟨f, hf, -⟩ := C71.iso_base
    exact ⟨f, hf⟩

theorem same1 {x : ℝ} {par : ParStore ℝ} (h : C73.Same (store x) par) : par = store (par.p.getD 0 0) := by
  obtain ⟨p, ip, id⟩ := par
  obtain ⟨h1, h2, h3, -⟩ := h
  dsimp only at h1 h2 h3
  subst h1 h2
  match p, h3 with
  | [y], _ => rfl

theorem free1 (x : ℝ) : C73.free (store x) = {0} := by
  ext i
  unfold C73.free
  rw [Finset.mem_filter, Finset.mem_range, Finset.mem_singleton]
  constructor
  · rintro ⟨h, -⟩
    have : i < 1 := h
    omega
  · rintro rfl
    exact ⟨by show 0 < 1; norm_num, rfl⟩

theorem cubic_mix (obs : List ℝ) (h : obs.length = 5) : Mix (cubic obs) (store 2) cons1 vars1 where
  one := by simp [cons1]
  scale := by
    intro c hc
    simp only [cons1, List.mem_singleton] at hc
    subst hc
    exact ⟨0, by show 0 < 1; norm_num, rfl⟩
  lin := by
    intro c hc
    simp only [cons1, List.mem_singleton] at hc
    subst hc
    refine ⟨0, fun _ => 1, fun par hs => ⟨fun line hl => absurd hl (by simp), ?_⟩⟩
    rw [free1, Finset.sum_singleton, zero_add, one_mul, same1 hs]
    rfl
  num := cubic_num obs h
  weight := by
    intro s hs i _
    simp only [cubic, List.mem_singleton] at hs
    subst hs
    dsimp only
    rcases i.toNat with _ | _ | _ | _ | _ | n <;> simp

/-- The curve at a scale factor is the scale factor times the curve of the phase. -/
theorem cubic_curve (obs : List ℝ) (h : obs.length = 5) (x : ℝ) (i : ℤ) (hi : i ∈ grid (C68.span C68.isoD 1 3).nfmin (C68.span C68.isoD 1 3).nfmax) :
    (cubic obs).curveOf (prescribed (cubic obs) cons1 vars1 (store x)) 0 (set1 obs) i =
      x * (cubic obs).unit (prescribed (cubic obs) cons1 vars1 (store 2)) 0 (set1 obs) 0 i := by
  have H := cubic_ok obs h
  have hoff := (cubic_mix obs h).off H (store x)
  rw [Input.mix H (hoff.num H (cubic_num obs h)) (is := 0) (s := set1 obs) rfl i hi]
  show ∑ ip ∈ Finset.range 1, _ = _
  rw [Finset.sum_range_one, hoff.unit (is := 0) (s := set1 obs) rfl]
  congr 1

theorem zero_mem : (0 : ℤ) ∈ grid (C68.span C68.isoD 1 3).nfmin (C68.span C68.isoD 1 3).nfmax := by
  have nf := C68.isoD_nf (lo := 1) (hi := 3)
  rw [mem_grid, nf.1, nf.2, show ((1 : ℝ) - 1) * 2 = ((0 : ℤ) : ℝ) by norm_num, nint_int,
    show ((3 : ℝ) - 1) * 2 = ((4 : ℤ) : ℝ) by norm_num, nint_int]
  norm_num

theorem cubic_unit (obs : List ℝ) (h : obs.length = 5) :
    (cubic obs).unit (prescribed (cubic obs) cons1 vars1 (store 2)) 0 (set1 obs) 0 0 ≠ 0 := by
  obtain ⟨f, hf, h0⟩ := C71.iso_base
  have h1 := cubic_curve obs h 2 0 zero_mem
  have h2 : (cubic obs).curveOf (prescribed (cubic obs) cons1 vars1 (store 2)) 0 (set1 obs) = f := by
    unfold Input.curveOf
    rw [cubic_dat obs h, cubic_sel obs h, hf]
  rw [h2, h0] at h1
  intro hu
  rw [hu, mul_zero] at h1
  have := Real.pi_pos
  linarith

theorem cubic_ident (obs : List ℝ) (h : obs.length = 5) : Identified (cubic obs) (store 2) cons1 vars1 := by
  intro par hs he i hi
  rw [free1, Finset.mem_singleton] at hi
  subst hi
  have h1 := he 0 (set1 obs) rfl 0 zero_mem (by show (1 : ℝ) ≠ 0; norm_num)
  rw [same1 hs, cubic_curve obs h _ 0 zero_mem, cubic_curve obs h _ 0 zero_mem] at h1
  exact mul_right_cancel₀ (cubic_unit obs h) h1

/-- Data calculated with the scale factor 5. -/
noncomputable def data5 : List ℝ := (List.range 5).map fun n : ℕ =>
  (cubic (List.replicate 5 0)).curveOf (prescribed (cubic (List.replicate 5 0)) cons1 vars1 (store 5)) 0 (set1 (List.replicate 5 0)) n

theorem data5_get (obs : List ℝ) (n : ℕ) (h : n < 5) : data5.getD n 0 =
    (cubic obs).curveOf (prescribed (cubic obs) cons1 vars1 (store 5)) 0 (set1 obs) n := by
  rw [List.getD_eq_getElem _ _ (by simpa [data5] using h)]
  unfold data5
  rw [List.getElem_map, List.getElem_range]
  rfl

noncomputable def world1 (dv : Mat ℝ) : CWorld (List Char) ℝ (List Out) := ⟨vars1, cons1, dv, [], []⟩

noncomputable def eng1 (dv : Mat ℝ) : Eng ℝ (CWorld (List Char) ℝ (List Out)) :=
  ⟨store 2, world1 dv, 0, 0, 0, 0, 0, fun _ _ => 0, fun _ _ => 0, [], 0⟩

/-- `setpar(1, 2)`, `constrain(pscale, 1)`, `refine()`: the parameter is 5 up to `3 / 10 ^ 18`. -/
theorem cubic_refined : ∃ dv, CState.run (fparse builtinTab) {} [.setpar 1 2, .int ((setup [1] 1).slots.idxOf (.pscale 0)) 1 .ident] =
      ⟨store 2, cons1, dv⟩ ∧
    let r := refineLoop (constrTheory ((cubic data5).static 1000000)) (1 / 1000) 101 ({}, eng1 dv)
    r.2.1 = .done ∧ |r.1.2.par.p.getD 0 0 - 5| ≤ 3 / 10 ^ 18 := by
  have h5 : data5.length = 5 := by simp [data5]
  refine ⟨_, rfl, ?_⟩
  set dv := (CState.run (fparse builtinTab) {} [.setpar 1 2, .int ((setup [1] 1).slots.idxOf (.pscale 0)) 1 .ident]).dvdp
  have hzero : chi (cubic data5) (prescribed (cubic data5) cons1 vars1 (store 5)) = 0 := by
    unfold chi over
    refine List.sum_eq_zero fun x hx => ?_
    obtain ⟨is, his, rfl⟩ := List.mem_mapIdx.1 hx
    obtain ⟨rfl, e⟩ := cubic_set data5 (List.getElem?_eq_getElem his)
    rw [e]
    refine List.sum_eq_zero fun y hy => ?_
    obtain ⟨i, hi, rfl⟩ := List.mem_map.1 hy
    have nf := C68.isoD_nf (lo := 1) (hi := 3)
    have hi2 := hi
    rw [mem_grid] at hi2
    change (C68.span C68.isoD 1 3).nfmin ≤ i ∧ i ≤ (C68.span C68.isoD 1 3).nfmax at hi2
    rw [nf.1, nf.2, show ((1 : ℝ) - 1) * 2 = ((0 : ℤ) : ℝ) by norm_num, nint_int,
      show ((3 : ℝ) - 1) * 2 = ((4 : ℤ) : ℝ) by norm_num, nint_int] at hi2
    have : data5.getD i.toNat 0 = (cubic data5).curveOf (prescribed (cubic data5) cons1 vars1 (store 5)) 0 (set1 data5) i := by
      rw [data5_get data5 i.toNat (by omega), Int.toNat_of_nonneg hi2.1]
    dsimp only
    rw [show (set1 data5).d.obs = data5 from rfl, this]
    ring
  have hnn : ∀ v, 0 ≤ chi (cubic data5) v := by
    intro v
    unfold chi over
    refine List.sum_nonneg fun x hx => ?_
    obtain ⟨is, his, rfl⟩ := List.mem_mapIdx.1 hx
    refine List.sum_nonneg fun y hy => ?_
    obtain ⟨i, hi, rfl⟩ := List.mem_map.1 hy
    exact mul_nonneg ((cubic_mix data5 h5).weight _ (List.getElem_mem _) i hi) (sq_nonneg _)
  obtain ⟨h1, h2⟩ := C74_one_parameter (cubic data5) (cubic_ok _ h5) 1000000 (1 / 1000)
    [.setpar 1 2, .int ((setup [1] 1).slots.idxOf (.pscale 0)) 1 .ident] (by simp [C08.NoRepl]; rfl) {} (eng1 dv) rfl
    (fun x hx => absurd hx List.not_mem_nil) (by simp) (cubic_mix _ h5) (cubic_ident _ h5) 0 (free1 2) 101 le_rfl _ rfl (store 5)
    ⟨rfl, rfl, rfl, fun i hi hf => by
      have hi : i < 1 := hi
      have : i = 0 := by omega
      subst this
      cases hf⟩ (fun par _ => by
      show chi (cubic data5) (prescribed (cubic data5) cons1 vars1 (store 5)) ≤ _
      rw [hzero]
      exact hnn _)
  refine ⟨h1, ?_⟩
  have e : |(eng1 dv).par.p.getD 0 0 - (store 5).p.getD 0 0| = 3 := by
    show |(2 : ℝ) - 5| = 3
    norm_num
  rw [e] at h2
  exact h2

end Pdffit.C74
