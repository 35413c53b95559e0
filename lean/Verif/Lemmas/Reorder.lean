import Verif.Lemmas.FullRun
import Verif.Lemmas.RefineEqui
import Verif.Props.C75

/-!
# The same data sets in another order
-/

namespace Pdffit.Full
open Geom Det Deriv Layout Conf DMat C47 _root_.Pdffit.Parser

/-- The variable after the renumbering `σ` of the data sets. -/
def ren (σ : Equiv.Perm ℕ) : RVar → RVar
  | .dscale is => .dscale (σ is)
  | .qdamp is => .qdamp (σ is)
  | .qbroad is => .qbroad (σ is)
  | x => x

/-- `I'` is `I` with its data sets in another order: data set `k` of `I` is number `σ k` of `I'`. A variable stays where it is. -/
structure Reorder (I I' : Input) (σ : Equiv.Perm ℕ) : Prop where
  addr : ∀ x, I'.addr (ren σ x) = I.addr x
  phases : I'.phases = I.phases
  count : I'.sets.length = I.sets.length
  sets : ∀ k, I'.sets[σ k]? = I.sets[k]?

theorem ren_inj (σ : Equiv.Perm ℕ) : Function.Injective (ren σ) := by
  intro x y h
  cases x <;> cases y <;> simp_all [ren]

theorem ren_symm (σ : Equiv.Perm ℕ) (x : RVar) : ren σ (ren σ.symm x) = x := by
  cases x <;> simp [ren]

theorem ren_symm' (σ : Equiv.Perm ℕ) (x : RVar) : ren σ.symm (ren σ x) = x := by
  cases x <;> simp [ren]

/-! ### Columns of the derivatives -/

theorem runOn_ren (σ : Equiv.Perm ℕ) (v : RVar) (l : List (RVar × (ℝ → ℝ))) (x : ℝ) :
    runOn (ren σ v) (l.map fun st => (ren σ st.1, st.2)) x = runOn v l x := by
  unfold runOn
  rw [List.foldl_map]
  simp only [(ren_inj σ).eq_iff]

theorem valOf_ren (σ : Equiv.Perm ℕ) (v : RVar) (l : List (RVar × ℝ)) :
    valOf (ren σ v) (l.map fun st => (ren σ st.1, st.2)) = valOf v l := by
  unfold valOf
  rw [List.map_map]
  simp only [Function.comp_def, (ren_inj σ).eq_iff]

theorem adds_ren (σ : Equiv.Perm ℕ) (p : Pk) (is ip ia ja : ℕ) :
    p.adds (σ is) ip ia ja = (p.adds is ip ia ja).map fun st => (ren σ st.1, st.2) := rfl

theorem phaseStmts_ren (σ : Equiv.Perm ℕ) (D : Data) (ph : PPhase) (s : Sel) (ip : ℕ) (r c : ℝ) :
    (phaseStmts D ph s ip r c).map (fun st => (ren σ st.1, st.2)) = phaseStmts D ph s ip r c := by
  unfold phaseStmts
  dsimp only
  rw [List.map_append, List.map_flatMap]
  congr 1

theorem phasesStmts_ren (σ : Equiv.Perm ℕ) (D : Data) (i : ℤ) (l : List (Option Calced)) : ∀ ip,
    (phasesStmts D i l ip).map (fun st => (ren σ st.1, st.2)) = phasesStmts D i l ip := by
  induction l with
  | nil => intro ip; rfl
  | cons x l ih =>
    intro ip
    cases x with
    | none => exact ih _
    | some x =>
      unfold phasesStmts
      rw [List.map_append, phaseStmts_ren, ih]

theorem stmts_ren (σ : Equiv.Perm ℕ) (D : Data) (is : ℕ) (i : ℤ) (l : List (Option Calced)) :
    stmts D (σ is) i l = (stmts D is i l).map fun st => (ren σ st.1, st.2) := by
  unfold stmts
  rw [List.map_append, phasesStmts_ren]
  rfl

theorem rawIncs_ren (σ : Equiv.Perm ℕ) (D : Data) (is : ℕ) (v : RVar) (psel : List (Option (PPhase × Sel))) : ∀ ip,
    rawIncs D (σ is) (ren σ v) psel ip = rawIncs D is v psel ip := by
  induction psel with
  | nil => intro ip; rfl
  | cons x l ih =>
    intro ip
    cases x with
    | none => exact ih _
    | some x =>
      unfold rawIncs
      rw [ih]
      congr 1
      refine List.flatMap_congr fun y _ => ?_
      unfold dincs
      simp only [adds_ren, valOf_ren]

theorem column_ren (σ : Equiv.Perm ℕ) (D : Data) (is : ℕ) (v : RVar) (psel : List (Option (PPhase × Sel))) :
    column D (σ is) (ren σ v) psel = column D is v psel := by
  funext i
  unfold column
  rw [stmts_ren, runOn_ren, rawIncs_ren]

theorem div0_ren (σ : Equiv.Perm ℕ) (D : Data) (is : ℕ) (v : RVar) (psel : List (Option (PPhase × Sel))) :
    Div0 D (σ is) (ren σ v) psel ↔ Div0 D is v psel := by
  unfold Div0
  have e1 : ren σ v = .dscale (σ is) ↔ v = .dscale is := by
    rw [show RVar.dscale (σ is) = ren σ (.dscale is) from rfl, (ren_inj σ).eq_iff]
  have e2 : ∀ ip ia, ren σ v = .occ ip ia ↔ v = .occ ip ia := fun ip ia => by
    rw [show RVar.occ ip ia = ren σ (.occ ip ia) from rfl, (ren_inj σ).eq_iff]
    rfl
  simp only [e1, e2]

theorem exists_ren {σ : Equiv.Perm ℕ} {na : List ℕ} {n : ℕ} (h : ∀ k, σ k < n ↔ k < n) (x : RVar) : C47.Exists na n (ren σ x) ↔ C47.Exists na n x := by
  cases x <;> simp [ren, C47.Exists, h]

/-! ### The inputs -/

namespace Reorder
variable {I I' : Input} {σ : Equiv.Perm ℕ} (R : Reorder I I' σ)
include R

theorem symm : Reorder I' I σ.symm where
  addr x := by rw [← R.addr, ren_symm]
  phases := R.phases.symm
  count := R.count.symm
  sets k := by rw [← R.sets, Equiv.apply_symm_apply]

theorem natoms : I'.natoms = I.natoms := by unfold Input.natoms; rw [R.phases]
theorem nset : I'.nset = I.nset := R.count

theorem lt (k : ℕ) : σ k < I.nset ↔ k < I.nset := by
  have := R.sets k
  unfold Input.nset
  rw [← R.count]
  constructor
  · intro h
    rw [List.getElem?_eq_getElem h] at this
    rw [R.count]
    exact (List.getElem?_eq_some_iff.1 this.symm).1
  · intro h
    rw [R.count] at h
    rw [List.getElem?_eq_getElem h] at this
    exact (List.getElem?_eq_some_iff.1 this).1

theorem mem (s : SetIn) : s ∈ I'.sets ↔ s ∈ I.sets := by
  rw [List.mem_iff_getElem?, List.mem_iff_getElem?]
  constructor
  · rintro ⟨k, h⟩
    exact ⟨σ.symm k, by rw [← R.sets, Equiv.apply_symm_apply]; exact h⟩
  · rintro ⟨k, h⟩
    exact ⟨σ k, by rw [R.sets]; exact h⟩

theorem ok (H : I.Ok) : I'.Ok where
  sep := by
    intro x y hx hy he
    rw [R.natoms, R.nset, ← ren_symm σ x, exists_ren R.lt] at hx
    rw [R.natoms, R.nset, ← ren_symm σ y, exists_ren R.lt] at hy
    rw [← ren_symm σ x, ← ren_symm σ y, R.addr, R.addr] at he
    have := H.sep _ _ hx hy he
    rw [← ren_symm σ x, this, ren_symm]
  icc := by rw [R.phases]; exact H.icc
  data s hs := H.data s ((R.mem s).1 hs)

theorem fair {cons : List (Constr (List Char))} (h : C75.Fair I cons) : C75.Fair I' cons where
  one := h.one
  assigns := h.assigns
  target c hc := by
    obtain ⟨x, h1, h2⟩ := h.target c hc
    exact ⟨ren σ x, by rw [R.natoms, R.nset, exists_ren R.lt]; exact h1, by rw [R.addr]; exact h2⟩

theorem val (v : ℕ → ℝ) (x : RVar) : I'.val v (ren σ x) = I.val v x := by
  unfold Input.val
  rw [R.addr]

theorem dat (v : ℕ → ℝ) (is : ℕ) (s : SetIn) : I'.dat v (σ is) s = I.dat v is s := by
  have h1 := R.val v (.dscale is)
  have h2 := R.val v (.qdamp is)
  have h3 := R.val v (.qbroad is)
  simp only [ren] at h1 h2 h3
  unfold Input.dat dataFrom
  rw [h1, h2, h3]

theorem sel (v : ℕ → ℝ) (s : SetIn) : I'.sel v s = I.sel v s := by
  have e : I'.template s = I.template s := by
    unfold Input.template
    rw [R.phases]
  have a : ∀ ip ia, atomFrom (I'.val v) ip ia = atomFrom (I.val v) ip ia := fun ip ia => by
    funext x
    unfold atomFrom
    congr 1
    · exact funext fun k => R.val v (.pos ip ia k)
    · exact R.val v (.occ ip ia)
    · exact funext fun k => R.val v (.u ip ia k)
  have p : ∀ ip ph, phaseFrom (I'.val v) ip ph = phaseFrom (I.val v) ip ph := fun ip ph => by
    have e1 : (fun k => I'.val v (.a0 ip k)) = fun k => I.val v (.a0 ip k) := funext fun k => R.val v (.a0 ip k)
    have e2 : (fun k => I'.val v (.win ip k)) = fun k => I.val v (.win ip k) := funext fun k => R.val v (.win ip k)
    have e3 : I'.val v (.delta2 ip) = I.val v (.delta2 ip) := R.val v (.delta2 ip)
    have e4 : I'.val v (.delta1 ip) = I.val v (.delta1 ip) := R.val v (.delta1 ip)
    have e5 : I'.val v (.sratio ip) = I.val v (.sratio ip) := R.val v (.sratio ip)
    have e6 : I'.val v (.spdiameter ip) = I.val v (.spdiameter ip) := R.val v (.spdiameter ip)
    have e7 : I'.val v (.pscale ip) = I.val v (.pscale ip) := R.val v (.pscale ip)
    have e8 : atomFrom (I'.val v) ip = atomFrom (I.val v) ip := funext (a ip)
    unfold phaseFrom
    rw [e1, e2, e3, e4, e5, e6, e7, e8]
  unfold Input.sel selFrom
  rw [e]
  simp only [p]

theorem curveOf (v : ℕ → ℝ) (is : ℕ) (s : SetIn) : I'.curveOf v (σ is) s = I.curveOf v is s := by
  unfold Input.curveOf
  rw [R.dat, R.sel]

theorem slope (v : ℕ → ℝ) (is : ℕ) (s : SetIn) (n : ℕ) (tv : ℕ → RVar) (d : ℕ → ℕ → ℝ) :
    I'.slope v (σ is) s n (fun c => ren σ (tv c)) d = I.slope v is s n tv d := by
  funext i j
  unfold Input.slope
  simp only [R.dat, R.sel, column_ren]

theorem icc : I'.icc = I.icc := by
  funext a
  unfold Input.icc
  rw [R.natoms, R.nset, C47.slots_eq, List.find?_append, List.find?_append]
  have h1 : (I.natoms.zipIdx.flatMap phaseVars).find? (fun v => I'.addr v == a) =
      (I.natoms.zipIdx.flatMap phaseVars).find? (fun v => I.addr v == a) := by
    refine List.find?_congr fun x hx => ?_
    have : ren σ x = x := by
      rw [List.mem_flatMap] at hx
      obtain ⟨p, -, hp⟩ := hx
      unfold phaseVars globals atomVars at hp
      rw [List.mem_append, List.mem_flatMap] at hp
      rcases hp with hp | ⟨ia, -, hp⟩
      · fin_cases hp <;> rfl
      · fin_cases hp <;> rfl
    have h := R.addr x
    rw [this] at h
    rw [h]
  have h2 : ∀ J : Input, ∀ x, ((List.range I.nset).flatMap setVars).find? (fun v => J.addr v == a) = some x →
      ∀ ip ia k, x ≠ .pos ip ia k := by
    intro J x hx ip ia k he
    have := List.mem_of_find?_eq_some hx
    rw [List.mem_flatMap] at this
    obtain ⟨is, -, h⟩ := this
    subst he
    simp [setVars] at h
  rw [h1, R.phases]
  cases (I.natoms.zipIdx.flatMap phaseVars).find? (fun v => I.addr v == a) with
  | some x => rfl
  | none =>
    rw [Option.none_or, Option.none_or]
    have key : ∀ o : Option RVar, (∀ x, o = some x → ∀ ip ia k, x ≠ .pos ip ia k) → (match o with
        | some (.pos ip _ k) => (I.phases[ip]?).map fun ph => (ph.icc k : ℝ)
        | _ => none) = none := by
      intro o h
      split
      · exact absurd rfl (h _ rfl _ _ _)
      · rfl
    exact (key _ (h2 I')).trans (key _ (h2 I)).symm

theorem vars (cs : List (Constr (List Char))) (v0 : ℕ → ℝ) (par : ParStore ℝ) : I'.vars cs v0 par = I.vars cs v0 par := by
  unfold Input.vars
  rw [R.icc]

theorem num {v : ℕ → ℝ} (h : Input.Num I v) : Input.Num I' v where
  lat ip hip := by
    rw [R.phases] at hip
    obtain ⟨m, hm⟩ := h.lat ip hip
    refine ⟨m, ?_⟩
    rw [← hm]
    congr 1
    exact congrArg₂ _ (funext fun k => R.val v (.a0 ip k)) (funext fun k => R.val v (.win ip k))
  det is s hs := by
    have h1 : I.sets[σ.symm is]? = some s := by rw [← R.sets, Equiv.apply_symm_apply]; exact hs
    obtain ⟨f, hf⟩ := h.det _ s h1
    refine ⟨f, ?_⟩
    rw [← hf, ← R.dat, Equiv.apply_symm_apply, R.sel]

theorem works {p0 : ParStore ℝ} {cs : List (Constr (List Char))} {v0 : ℕ → ℝ} {tv : ℕ → RVar} {par : ParStore ℝ}
    (h : I.Works p0 cs v0 tv par) : I'.Works p0 cs v0 (fun c => ren σ (tv c)) par where
  con := h.con
  num := by rw [R.vars]; exact R.num h.num
  div is s hs c x hx hf := by
    have h1 : I.sets[σ.symm is]? = some s := by rw [← R.sets, Equiv.apply_symm_apply]; exact hs
    have := h.div _ s h1 c x hx hf
    rw [R.vars, R.sel]
    rwa [← div0_ren σ, ← R.dat, Equiv.apply_symm_apply] at this

/-- Sums over all points. -/
theorem sum (f f' : ℕ → SetIn → ℝ) (h : ∀ is s, I.sets[is]? = some s → f' (σ is) s = f is s) :
    (I'.sets.mapIdx f').sum = (I.sets.mapIdx f).sum := by
  have key : ∀ (l : List SetIn) (f : ℕ → SetIn → ℝ), (l.mapIdx f).sum = ∑ k ∈ Finset.range l.length, ((l[k]?).map (f k)).getD 0 := by
    intro l
    induction l with
    | nil => intro f; rfl
    | cons x l ih =>
      intro f
      rw [List.mapIdx_cons, List.sum_cons, ih, List.length_cons, Finset.sum_range_succ']
      simp [add_comm]
  rw [key, key]
  symm
  refine Finset.sum_bij (fun k _ => σ k) ?_ (fun _ _ _ _ h => σ.injective h) ?_ ?_
  · intro k hk
    rw [Finset.mem_range] at hk ⊢
    rw [R.count]
    exact (R.lt k).2 hk
  · intro k hk
    rw [Finset.mem_range, R.count] at hk
    exact ⟨σ.symm k, Finset.mem_range.2 ((R.lt _).1 (by rw [Equiv.apply_symm_apply]; exact hk)), Equiv.apply_symm_apply _ _⟩
  · intro k hk
    rw [R.sets]
    cases hs : I.sets[k]? with
    | none => rfl
    | some s => simp [h k s hs]

end Reorder
end Pdffit.Full
