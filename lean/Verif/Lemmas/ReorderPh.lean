import Verif.Lemmas.Reorder
import Mathlib.Data.List.Perm.Basic

/-!
# The same phases in another order
-/

namespace Pdffit.Full
open Geom Det Deriv Layout Conf DMat C47 _root_.Pdffit.Parser

/-- The variable after the renumbering `π` of the phases. -/
def renPh (π : Equiv.Perm ℕ) : RVar → RVar
  | .a0 ip k => .a0 (π ip) k
  | .win ip k => .win (π ip) k
  | .delta2 ip => .delta2 (π ip)
  | .delta1 ip => .delta1 (π ip)
  | .pscale ip => .pscale (π ip)
  | .spdiameter ip => .spdiameter (π ip)
  | .sratio ip => .sratio (π ip)
  | .pos ip ia k => .pos (π ip) ia k
  | .u ip ia k => .u (π ip) ia k
  | .occ ip ia => .occ (π ip) ia
  | x => x

/-- The same data set for the renumbered phases. -/
structure SameSet (π : Equiv.Perm ℕ) (s s' : SetIn) : Prop where
  d : s'.d = s.d
  sel : ∀ ip, s'.sel.getD (π ip) none = s.sel.getD ip none
  sf : ∀ ip ia, s'.sf (π ip) ia = s.sf ip ia

/-- `I'` is `I` with its phases in another order: phase `ip` of `I` is number `π ip` of `I'`. A variable stays where it is. -/
structure ReorderPh (I I' : Input) (π : Equiv.Perm ℕ) : Prop where
  addr : ∀ x, I'.addr (renPh π x) = I.addr x
  count : I'.phases.length = I.phases.length
  phases : ∀ ip, I'.phases[π ip]? = I.phases[ip]?
  sets_count : I'.sets.length = I.sets.length
  sets : ∀ (k : ℕ) s s', I.sets[k]? = some s → I'.sets[k]? = some s' → SameSet π s s'

theorem renPh_inj (π : Equiv.Perm ℕ) : Function.Injective (renPh π) := by
  intro x y h
  cases x <;> cases y <;> simp_all [renPh]

theorem renPh_symm (π : Equiv.Perm ℕ) (x : RVar) : renPh π (renPh π.symm x) = x := by
  cases x <;> simp [renPh]

theorem renPh_symm' (π : Equiv.Perm ℕ) (x : RVar) : renPh π.symm (renPh π x) = x := by
  cases x <;> simp [renPh]

theorem renPh_owner (π : Equiv.Perm ℕ) (x : RVar) : owner (renPh π x) = (owner x).map π := by
  cases x <;> rfl

/-! ### Lists in another order -/

theorem perm_of_get {α : Type} {l l' : List α} (π : Equiv.Perm ℕ) (hc : l'.length = l.length) (h : ∀ k, l'[π k]? = l[k]?) : l'.Perm l := by
  have hlt : ∀ k, π k < l.length ↔ k < l.length := by
    intro k
    have := h k
    constructor
    · intro hk
      rw [← hc] at hk
      rw [List.getElem?_eq_getElem hk] at this
      exact (List.getElem?_eq_some_iff.1 this.symm).1
    · intro hk
      rw [List.getElem?_eq_getElem hk] at this
      rw [← hc]
      exact (List.getElem?_eq_some_iff.1 this).1
  have hr : ((List.range l.length).map π).Perm (List.range l.length) := by
    rw [List.perm_ext_iff_of_nodup (List.nodup_range.map π.injective) List.nodup_range]
    intro a
    simp only [List.mem_map, List.mem_range]
    constructor
    · rintro ⟨k, hk, rfl⟩
      exact (hlt k).2 hk
    · intro ha
      exact ⟨π.symm a, (hlt _).1 (by rw [Equiv.apply_symm_apply]; exact ha), Equiv.apply_symm_apply _ _⟩
  have key : ∀ m : List α, m.map some = (List.range m.length).map fun k => m[k]? := by
    intro m
    refine List.ext_getElem (by simp) fun k h1 h2 => ?_
    rw [List.length_map] at h1
    simp [h1]
  have hs : (l'.map some).Perm (l.map some) := by
    rw [key l', key l, hc]
    refine (hr.map fun k => l'[k]?).symm.trans ?_
    rw [List.map_map]
    refine List.Perm.of_eq (List.map_congr_left fun k _ => h k)
  have := hs.filterMap id
  simpa [List.filterMap_map, Function.comp_def] using this

theorem one_used {α : Type} (l : List (Option α)) (h : ∀ (q q' : ℕ) x y, l[q]? = some (some x) → l[q']? = some (some y) → q = q') :
    (l.filterMap id).length ≤ 1 := by
  induction l with
  | nil => simp
  | cons a l ih =>
    have ih' := ih fun q q' x y h1 h2 => Nat.succ_injective (h (q + 1) (q' + 1) x y h1 h2)
    cases a with
    | none => simpa using ih'
    | some x =>
      have : l.filterMap id = [] := by
        rw [List.filterMap_eq_nil_iff]
        intro y hy
        cases y with
        | none => rfl
        | some y =>
          obtain ⟨q, hq⟩ := List.getElem?_of_mem hy
          exact absurd (h 0 (q + 1) x y rfl hq) (by omega)
      show (x :: l.filterMap id).length ≤ 1
      rw [this]
      simp

/-! ### Columns of the derivatives -/

theorem runOn_renPh (π : Equiv.Perm ℕ) (v : RVar) (l : List (RVar × (ℝ → ℝ))) (x : ℝ) :
    runOn (renPh π v) (l.map fun st => (renPh π st.1, st.2)) x = runOn v l x := by
  unfold runOn
  rw [List.foldl_map]
  simp only [(renPh_inj π).eq_iff]

theorem valOf_renPh (π : Equiv.Perm ℕ) (v : RVar) (l : List (RVar × ℝ)) :
    valOf (renPh π v) (l.map fun st => (renPh π st.1, st.2)) = valOf v l := by
  unfold valOf
  rw [List.map_map]
  simp only [Function.comp_def, (renPh_inj π).eq_iff]

theorem adds_renPh (π : Equiv.Perm ℕ) (p : Pk) (is ip ia ja : ℕ) :
    p.adds is (π ip) ia ja = (p.adds is ip ia ja).map fun st => (renPh π st.1, st.2) := rfl

theorem phaseStmts_renPh (π : Equiv.Perm ℕ) (D : Data) (ph : PPhase) (s : Sel) (ip : ℕ) (r c : ℝ) :
    phaseStmts D ph s (π ip) r c = (phaseStmts D ph s ip r c).map fun st => (renPh π st.1, st.2) := by
  unfold phaseStmts
  dsimp only
  rw [List.map_append, List.map_flatMap]
  congr 1

theorem dval_renPh (π : Equiv.Perm ℕ) (D : Data) (ph : PPhase) (is ip : ℕ) (v : RVar) :
    dval D ph is (π ip) (renPh π v) = dval D ph is ip v := by
  unfold dval
  simp only [adds_renPh, valOf_renPh]

theorem column_foreign {D : Data} {is : ℕ} {psel : List (Option (PPhase × Sel))} {v : RVar} (hv : C44.Foreign is psel v) (j : ℤ) :
    column D is v psel j = 0 := by
  unfold column
  rw [C44.foreign_raw is hv]
  refine runOn_skip _ _ _ fun st hst e => ?_
  unfold stmts at hst
  rw [List.mem_append] at hst
  unfold C44.Foreign at hv
  rcases hst with hst | hst
  · obtain ⟨q, y, hq, hy⟩ := C44.stmts_used D j _ 0 st hst
    rw [e, Nat.zero_add] at hq
    rw [hq] at hv
    unfold cal at hy
    rw [List.getElem?_map] at hy
    cases e' : psel[q]? with
    | none => rw [e'] at hy; cases hy
    | some z =>
      cases z with
      | none => rw [e'] at hy; cases hy
      | some z => exact hv z e'
  · simp only [List.mem_cons, List.not_mem_nil, or_false] at hst
    rcases hst with rfl | rfl | rfl
    · rw [← e] at hv; exact hv.1 rfl
    · rw [← e] at hv; exact hv.2.1 rfl
    · rw [← e] at hv; exact hv.2.2 rfl

theorem raw_qbroad (D : Data) (is : ℕ) (i : ℤ) (psel : List (Option (PPhase × Sel))) : ∀ k, sumAt (rawIncs D is (.qbroad is) psel k) i =
    ((psel.filterMap id).map fun x => decSum D x.1 x.2 (dval D x.1 is 0 (.qbroad is)) i).sum := by
  induction psel with
  | nil => intro k; rfl
  | cons a l ih =>
    intro k
    cases a with
    | none => exact ih (k + 1)
    | some x =>
      rw [rawIncs, sumAt_append, dincs_dec, ih]
      simp only [List.filterMap_cons_some (f := id) (a := some x) (b := x) rfl, List.map_cons, List.sum_cons]
      congr 2

theorem lastFac_used (D : Data) (i : ℤ) (psel : List (Option (PPhase × Sel))) :
    lastFac D i (cal D psel) = (psel.filterMap id).foldl (fun _ x => fac D x.1 (D.r i)) 0 := by
  unfold lastFac
  generalize (0 : ℝ) = f
  induction psel generalizing f with
  | nil => rfl
  | cons a l ih =>
    cases a with
    | none => exact ih f
    | some x => exact ih _

/-- The selected phases in another order. -/
structure PermSel (π : Equiv.Perm ℕ) (psel psel' : List (Option (PPhase × Sel))) : Prop where
  count : psel'.length = psel.length
  get : ∀ ip, psel'[π ip]? = psel[ip]?

namespace PermSel
variable {π : Equiv.Perm ℕ} {psel psel' : List (Option (PPhase × Sel))} (P : PermSel π psel psel')
include P

theorem perm : psel'.Perm psel := perm_of_get π P.count P.get

theorem used : (psel'.filterMap id).Perm (psel.filterMap id) := P.perm.filterMap id

theorem column (D : Data) (is : ℕ) (v : RVar) (hq : v = .qbroad is → ∀ (q q' : ℕ) x y, psel[q]? = some (some x) → psel[q']? = some (some y) → q = q') :
    column D is (renPh π v) psel' = column D is v psel := by
  funext i
  cases ho : owner v with
  | some q =>
    have ho' : owner (renPh π v) = some (π q) := by rw [renPh_owner, ho]; rfl
    by_cases hx : ∃ x, psel[q]? = some (some x)
    · obtain ⟨x, hx⟩ := hx
      rw [column_phase D is v psel q x hx ho i, column_phase D is (renPh π v) psel' (π q) x (by rw [P.get]; exact hx) ho' i,
        phaseStmts_renPh, runOn_renPh, dval_renPh]
    · have h1 : C44.Foreign is psel v := by
        unfold C44.Foreign
        rw [ho]
        exact fun x h => hx ⟨x, h⟩
      have h2 : C44.Foreign is psel' (renPh π v) := by
        unfold C44.Foreign
        rw [ho']
        intro x h
        rw [P.get] at h
        exact hx ⟨x, h⟩
      rw [column_foreign h1, column_foreign h2]
  | none =>
    have e : renPh π v = v := by cases v <;> first | rfl | cases ho
    rw [e]
    have ht : totAt D i (cal D psel') = totAt D i (cal D psel) := by
      rw [C44.tot_eq, C44.tot_eq]
      exact (P.used.map _).sum_eq
    by_cases h1 : v = .dscale is
    · subst h1
      rw [C44.column_dscale, C44.column_dscale, ht]
    by_cases h2 : v = .qdamp is
    · subst h2
      rw [C44.column_qdamp, C44.column_qdamp, ht]
    by_cases h3 : v = .qbroad is
    · have hl := one_used psel (hq h3)
      have he : psel'.filterMap id = psel.filterMap id := by
        have hu := P.used
        match hm : psel.filterMap id, hl with
        | [], _ => rw [hm] at hu; exact List.perm_nil.1 hu
        | [a], _ => rw [hm] at hu; exact List.perm_singleton.1 hu
      subst h3
      rw [C44.column_qbroad, C44.column_qbroad, raw_qbroad, raw_qbroad, lastFac_used, lastFac_used, he]
    · rw [column_foreign, column_foreign] <;> (unfold C44.Foreign; rw [ho]; exact ⟨h1, h2, h3⟩)

theorem div0 (D : Data) (is : ℕ) (v : RVar) (h : Div0 D is (renPh π v) psel') : Div0 D is v psel := by
  rcases h with ⟨h1, h2⟩ | ⟨ip, ia, ph, s, h1, h2, h3⟩
  · left
    refine ⟨?_, h2⟩
    cases v <;> simp_all [renPh]
  · right
    cases v <;> simp [renPh] at h1
    rename_i jp ja
    obtain ⟨rfl, rfl⟩ := h1
    exact ⟨jp, ja, ph, s, rfl, by rw [← P.get]; exact h2, h3⟩

end PermSel

/-! ### The inputs -/

theorem icc_exists {I : Input} (H : I.Ok) {x : RVar} (hx : C47.Exists I.natoms I.nset x) : I.icc (I.addr x) =
    match x with
    | .pos ip _ k => (I.phases[ip]?).map fun ph => (ph.icc k : ℝ)
    | _ => none := by
  unfold Input.icc
  cases hf : (setup I.natoms I.nset).slots.find? fun v => I.addr v == I.addr x with
  | none =>
    rw [List.find?_eq_none] at hf
    exact absurd (hf x ((C47.complete _ _ _).2 hx)) (by simp)
  | some y =>
    have h1 := (C47.complete _ _ _).1 (List.mem_of_find?_eq_some hf)
    have h2 : I.addr y = I.addr x := by simpa using List.find?_some hf
    rw [H.sep y x h1 hx h2]
    cases x <;> rfl

theorem icc_other {I : Input} {a : ℕ} (h : ∀ x, C47.Exists I.natoms I.nset x → I.addr x ≠ a) : I.icc a = none := by
  unfold Input.icc
  cases hf : (setup I.natoms I.nset).slots.find? fun v => I.addr v == a with
  | none => rfl
  | some y =>
    have h1 := (C47.complete _ _ _).1 (List.mem_of_find?_eq_some hf)
    exact absurd (by simpa using List.find?_some hf) (h y h1)

namespace ReorderPh
variable {I I' : Input} {π : Equiv.Perm ℕ} (R : ReorderPh I I' π)
include R

theorem symm : ReorderPh I' I π.symm where
  addr x := by rw [← R.addr, renPh_symm]
  count := R.count.symm
  phases k := by rw [← R.phases, Equiv.apply_symm_apply]
  sets_count := R.sets_count.symm
  sets k s s' h h' := by
    have S := R.sets k s' s h' h
    refine ⟨S.d.symm, fun ip => ?_, fun ip ia => ?_⟩
    · rw [← S.sel, Equiv.apply_symm_apply]
    · rw [← S.sf, Equiv.apply_symm_apply]

theorem nset : I'.nset = I.nset := R.sets_count

theorem natoms (ip : ℕ) : I'.natoms[π ip]? = I.natoms[ip]? := by
  unfold Input.natoms
  rw [List.getElem?_map, List.getElem?_map, R.phases]

theorem natoms_lt (ip : ℕ) : π ip < I'.natoms.length ↔ ip < I.natoms.length := by
  have := R.natoms ip
  constructor
  · intro h
    rw [List.getElem?_eq_getElem h] at this
    exact (List.getElem?_eq_some_iff.1 this.symm).1
  · intro h
    rw [List.getElem?_eq_getElem h] at this
    exact (List.getElem?_eq_some_iff.1 this).1

theorem exist (x : RVar) : C47.Exists I'.natoms I'.nset (renPh π x) ↔ C47.Exists I.natoms I.nset x := by
  cases x <;> simp [renPh, C47.Exists, R.natoms, R.natoms_lt, R.nset]

theorem set {k : ℕ} {s : SetIn} (h : I.sets[k]? = some s) : ∃ s', I'.sets[k]? = some s' ∧ SameSet π s s' := by
  have hk := (List.getElem?_eq_some_iff.1 h).1
  have hk' : k < I'.sets.length := by rw [R.sets_count]; exact hk
  exact ⟨_, List.getElem?_eq_getElem hk', R.sets k s _ h (List.getElem?_eq_getElem hk')⟩

theorem ok (H : I.Ok) : I'.Ok where
  sep := by
    intro x y hx hy he
    rw [← renPh_symm π x, R.exist] at hx
    rw [← renPh_symm π y, R.exist] at hy
    rw [← renPh_symm π x, ← renPh_symm π y, R.addr, R.addr] at he
    have := H.sep _ _ hx hy he
    rw [← renPh_symm π x, this, renPh_symm]
  icc ph hp := H.icc ph ((perm_of_get π R.count R.phases).mem_iff.1 hp)
  data s hs := by
    obtain ⟨k, hk⟩ := List.getElem?_of_mem hs
    obtain ⟨s', h1, h2⟩ := R.symm.set hk
    rw [← h2.d]
    exact H.data s' (List.mem_of_getElem? h1)

theorem fair {cons : List (Constr (List Char))} (h : C75.Fair I cons) : C75.Fair I' cons where
  one := h.one
  assigns := h.assigns
  target c hc := by
    obtain ⟨x, h1, h2⟩ := h.target c hc
    exact ⟨renPh π x, by rw [R.exist]; exact h1, by rw [R.addr]; exact h2⟩

theorem val (v : ℕ → ℝ) (x : RVar) : I'.val v (renPh π x) = I.val v x := by
  unfold Input.val
  rw [R.addr]

theorem dat (v : ℕ → ℝ) (is : ℕ) {s s' : SetIn} (S : SameSet π s s') : I'.dat v is s' = I.dat v is s := by
  have h1 := R.val v (.dscale is)
  have h2 := R.val v (.qdamp is)
  have h3 := R.val v (.qbroad is)
  simp only [renPh] at h1 h2 h3
  unfold Input.dat dataFrom
  rw [h1, h2, h3, S.d]

theorem phaseFrom (v : ℕ → ℝ) (ip : ℕ) (ph : PPhase) : phaseFrom (I'.val v) (π ip) ph = phaseFrom (I.val v) ip ph := by
  have e1 : (fun k => I'.val v (.a0 (π ip) k)) = fun k => I.val v (.a0 ip k) := funext fun k => R.val v (.a0 ip k)
  have e2 : (fun k => I'.val v (.win (π ip) k)) = fun k => I.val v (.win ip k) := funext fun k => R.val v (.win ip k)
  have e3 : I'.val v (.delta2 (π ip)) = I.val v (.delta2 ip) := R.val v (.delta2 ip)
  have e4 : I'.val v (.delta1 (π ip)) = I.val v (.delta1 ip) := R.val v (.delta1 ip)
  have e5 : I'.val v (.sratio (π ip)) = I.val v (.sratio ip) := R.val v (.sratio ip)
  have e6 : I'.val v (.spdiameter (π ip)) = I.val v (.spdiameter ip) := R.val v (.spdiameter ip)
  have e7 : I'.val v (.pscale (π ip)) = I.val v (.pscale ip) := R.val v (.pscale ip)
  have e8 : atomFrom (I'.val v) (π ip) = atomFrom (I.val v) ip := by
    funext ia x
    unfold atomFrom
    congr 1
    · exact funext fun k => R.val v (.pos ip ia k)
    · exact R.val v (.occ ip ia)
    · exact funext fun k => R.val v (.u ip ia k)
  unfold Conf.phaseFrom
  rw [e1, e2, e3, e4, e5, e6, e7, e8]

theorem sel (v : ℕ → ℝ) {s s' : SetIn} (S : SameSet π s s') : PermSel π (I.sel v s) (I'.sel v s') where
  count := by
    unfold Input.sel selFrom Input.template
    simp only [List.length_mapIdx, R.count]
  get ip := by
    unfold Input.sel selFrom Input.template
    simp only [List.getElem?_mapIdx, R.phases, S.sel, S.sf]
    cases I.phases[ip]? with
    | none => rfl
    | some ph =>
      cases s.sel.getD ip none with
      | none => rfl
      | some σ => simp [R.phaseFrom]

theorem icc (H : I.Ok) : I'.icc = I.icc := by
  funext a
  by_cases h : ∃ x, C47.Exists I.natoms I.nset x ∧ I.addr x = a
  · obtain ⟨x, hx, rfl⟩ := h
    rw [icc_exists H hx]
    have := icc_exists (R.ok H) ((R.exist x).2 hx)
    rw [R.addr] at this
    rw [this]
    cases x <;> simp [renPh, R.phases]
  · push Not at h
    rw [icc_other h, icc_other]
    intro x hx
    rw [← renPh_symm π x, R.exist] at hx
    rw [← renPh_symm π x, R.addr]
    exact h _ hx

theorem vars (H : I.Ok) (cs : List (Constr (List Char))) (v0 : ℕ → ℝ) (par : ParStore ℝ) : I'.vars cs v0 par = I.vars cs v0 par := by
  unfold Input.vars
  rw [R.icc H]

theorem det (H : I.Ok) (v : ℕ → ℝ) {is : ℕ} {s s' : SetIn} (hs : I.sets[is]? = some s) (S : SameSet π s s') {f : ℤ → ℝ}
    (hf : determine (I.dat v is s) (I.sel v s) = .ok (some f)) : ∃ f', determine (I'.dat v is s') (I'.sel v s') = .ok (some f') ∧
      ∀ i ∈ grid s.d.D.nfmin s.d.D.nfmax, f' i = f i := by
  have hok := Input.dat_ok H (List.mem_of_getElem? hs) v is
  have P := R.sel v S
  obtain ⟨h1, h2⟩ := determine_some hok hf
  rw [R.dat v is S]
  obtain ⟨f', e1, e2⟩ := determine_of hok (psel := I'.sel v s') fun x hx => h1 x (P.perm.mem_iff.1 hx)
  refine ⟨f', e1, fun i hi => ?_⟩
  rw [mem_grid] at hi
  have a1 : (I.dat v is s).ncmin ≤ i := (ncmin_le_nfmin hok).trans hi.1
  have a3 := nfmax_le_ncmax hok
  have a2 : i ≤ (I.dat v is s).ncmax := le_trans hi.2 a3
  rw [e2 i a1 a2, h2 i a1 a2]
  exact (P.used.map _).sum_eq

theorem num (H : I.Ok) {v : ℕ → ℝ} (h : Input.Num I v) : Input.Num I' v where
  lat ip hip := by
    have h1 : π.symm ip < I.phases.length := by
      have := R.natoms_lt (π.symm ip)
      unfold Input.natoms at this
      rw [List.length_map, List.length_map, Equiv.apply_symm_apply] at this
      exact this.1 hip
    obtain ⟨m, hm⟩ := h.lat _ h1
    refine ⟨m, ?_⟩
    rw [← hm]
    congr 1
    refine congrArg₂ _ (funext fun k => ?_) (funext fun k => ?_)
    · rw [← R.val]; simp [renPh]
    · rw [← R.val]; simp [renPh]
  det is s' hs' := by
    obtain ⟨s, hs, S⟩ := R.symm.set hs'
    obtain ⟨f, hf⟩ := h.det _ s hs
    obtain ⟨f', hf', -⟩ := R.det H v hs (R.sets is s s' hs hs') hf
    exact ⟨f', hf'⟩

theorem works (H : I.Ok) {p0 : ParStore ℝ} {cs : List (Constr (List Char))} {v0 : ℕ → ℝ} {tv : ℕ → RVar} {par : ParStore ℝ}
    (h : I.Works p0 cs v0 tv par) : I'.Works p0 cs v0 (fun c => renPh π (tv c)) par where
  con := h.con
  num := by rw [R.vars H]; exact R.num H h.num
  div is s' hs' c x hx hf hd := by
    obtain ⟨s, hs, -⟩ := R.symm.set hs'
    have S := R.sets is s s' hs hs'
    rw [R.vars H, R.dat _ _ S] at hd
    exact h.div _ s hs c x hx hf ((R.sel _ S).div0 _ _ _ hd)

end ReorderPh
end Pdffit.Full
