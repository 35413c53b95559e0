import Verif.Props.C09
import Mathlib.Analysis.Calculus.Deriv.Inv
import Mathlib.Analysis.Calculus.Deriv.Mul
import Mathlib.Analysis.Calculus.Deriv.Add
import Mathlib.Analysis.Calculus.Deriv.Comp

/-!
# C10 Formula derivatives are the true partial derivatives
-/

namespace Pdffit.C10
open Parser Formula C09 Topology

/-- The partial function `F` is defined around `x` and has the derivative `d` at `x`. -/
def HasPDeriv (F : ℝ → Option ℝ) (d x : ℝ) : Prop :=
  ∃ g : ℝ → ℝ, (∀ᶠ t in 𝓝 x, F t = some (g t)) ∧ HasDerivAt g d x

/-- The point `v` is inside the open domains of all functions and operators of the formula. -/
def Inside (v : Nat → Option ℝ) : Ex → Prop
  | .num _ => True
  | .par n => ∃ x, v n = some x
  | .neg e => Inside v e
  | .bin o a b => Inside v a ∧ Inside v b ∧ (o = .div → b.val v mathPartial ≠ some 0)
  | .fn name e => Inside v e ∧ String.ofList name ∈ C12.names ∧
      ∃ y, e.val v mathPartial = some y ∧ C12.Dom (String.ofList name) y

/-- The open domains are open and lie in the domains. -/
theorem dom_open {s : String} (hs : s ∈ C12.names) {y : ℝ} (h : C12.Dom s y) : ∀ᶠ t in 𝓝 y, ClosedDom s t := by
  unfold C12.names at hs
  simp only [List.mem_cons, List.not_mem_nil, or_false] at hs
  have triv : ∀ᶠ _ in 𝓝 y, True := Filter.Eventually.of_forall fun _ => trivial
  have unit : -1 < y ∧ y < 1 → ∀ᶠ t in 𝓝 y, -1 ≤ t ∧ t ≤ 1 := fun h => by
    filter_upwards [eventually_gt_nhds h.1, eventually_lt_nhds h.2] with t h1 h2
    exact ⟨h1.le, h2.le⟩
  have pos : 0 < y → ∀ᶠ t in 𝓝 y, 0 < t := fun h => eventually_gt_nhds h
  rcases hs with rfl | rfl | rfl | rfl | rfl | rfl | rfl | rfl | rfl | rfl | rfl | rfl | rfl | rfl | rfl | rfl |
    rfl | rfl
  · exact triv
  · exact triv
  · exact triv
  · exact Real.continuous_cos.continuousAt.eventually_ne h
  · exact triv
  · exact triv
  · have hc : ContinuousAt (fun t => Real.cos (Real.pi * t / 180)) y := by fun_prop
    exact hc.eventually_ne h
  · exact unit h
  · exact unit h
  · exact triv
  · exact unit h
  · exact unit h
  · exact triv
  · exact triv
  · exact pos h
  · exact triv
  · exact triv
  · exact (pos h).mono fun t ht => le_of_lt ht

theorem unitVec_getD {n i k : Nat} (hi : i < n) : (unitVec n k : List ℝ).getD i 0 = if i = k then 1 else 0 := by
  simp [unitVec, List.getD_eq_getElem?_getD, hi]

/-- Derivative with respect to the free parameter at position `k` of `used`. -/
theorem dual_der (par : ParStore ℝ) (hw : par.Wf) {used : List Nat} (hnd : used.Nodup) {k n : Nat}
    (hk : k < used.length) (hn : par.parfind n = some used[k]) (hfree : par.ip.getD used[k] false = true)
    {x0 : ℝ} (hx0 : parVal par n = some x0) (e : Ex) : Inside (parVal par) e →
    ∃ g : ℝ → ℝ, (∀ᶠ t in 𝓝 x0, e.val (Function.update (parVal par) n (some t)) mathPartial = some (g t)) ∧
      HasDerivAt g ((dual (envOf builtinTab par used) (lookup par used) e).2.getD k 0) x0 ∧
      g x0 = (dual (envOf builtinTab par used) (lookup par used) e).1 := by
  have hself : Function.update (parVal par) n (some x0) = parVal par := by
    rw [← hx0, Function.update_eq_self]
  have hok : ∀ e, OKv (envOf builtinTab par used) (dual (envOf builtinTab par used) (lookup par used) e) :=
    fun e => dual_ok (fun m => lookup_ok builtinTab par used m) e
  have hany : (used.any fun j => par.ip.getD j false) = true := by
    rw [List.any_eq_true]
    exact ⟨_, List.getElem_mem hk, hfree⟩
  induction e with
  | num l =>
    intro _
    refine ⟨fun _ => l.val, Filter.Eventually.of_forall fun t => rfl, ?_, rfl⟩
    simpa [dual] using hasDerivAt_const x0 (l.val : ℝ)
  | par m =>
    intro hin
    obtain ⟨y, hy⟩ := hin
    by_cases hm : m = n
    · subst hm
      refine ⟨fun t => t, Filter.Eventually.of_forall fun t => by simp [Ex.val], ?_, ?_⟩
      · have e1 : (dual (envOf builtinTab par used) (lookup par used) (.par m)).2.getD k 0 = 1 := by
          have hidx : used.idxOf used[k] = k := List.Nodup.idxOf_getElem hnd k hk
          simp only [dual, lookup, hn, hany, hfree, Bool.and_self, if_true, hidx]
          rw [unitVec_getD hk, if_pos rfl]
        rw [e1]
        exact hasDerivAt_id x0
      · obtain ⟨-, -, h⟩ := parVal_some hx0 used
        exact h.symm
    · obtain ⟨i, hi, hv⟩ := parVal_some hy used
      refine ⟨fun _ => y, Filter.Eventually.of_forall fun t => by simp [Ex.val, hm, hy], ?_, hv.symm⟩
      have hne : i ≠ used[k] := by
        intro hik
        obtain ⟨_, h1⟩ := ParStore.parfind_some hi
        obtain ⟨_, h2⟩ := ParStore.parfind_some hn
        subst hik
        exact hm (h1.symm.trans h2)
      have e1 : (dual (envOf builtinTab par used) (lookup par used) (.par m)).2.getD k 0 = 0 := by
        simp only [dual, lookup, hi]
        split
        · rw [unitVec_getD hk, if_neg]
          intro hk2
          apply hne
          have hmem : used.idxOf i < used.length := by omega
          have := List.getElem_idxOf hmem
          rw [← this]
          congr 1
          exact hk2.symm
        · rfl
      rw [e1]
      exact hasDerivAt_const x0 y
  | neg e ih =>
    intro hin
    obtain ⟨g, h1, h2, h3⟩ := ih hin
    refine ⟨fun t => -g t, ?_, ?_, ?_⟩
    · filter_upwards [h1] with t ht
      simp [Ex.val, ht]
    · have : (dual (envOf builtinTab par used) (lookup par used) (.neg e)).2.getD k 0 =
        -(dual (envOf builtinTab par used) (lookup par used) e).2.getD k 0 := numNeg_der _ k
      rw [this]
      exact h2.neg
    · simp [dual, numNeg, h3]
  | bin o a b i1 i2 =>
    intro hin
    obtain ⟨ha, hb, hdiv⟩ := hin
    obtain ⟨g1, p1, p2, p3⟩ := i1 ha
    obtain ⟨g2, q1, q2, q3⟩ := i2 hb
    have hder : (dual (envOf builtinTab par used) (lookup par used) (.bin o a b)).2.getD k 0 =
        dop o (g1 x0) (g2 x0) ((dual (envOf builtinTab par used) (lookup par used) a).2.getD k 0)
          ((dual (envOf builtinTab par used) (lookup par used) b).2.getD k 0) := by
      rw [p3, q3]
      exact apply_der (hok a) (hok b) o hk
    rw [hder]
    cases o with
    | add =>
      refine ⟨fun t => g1 t + g2 t, ?_, p2.add q2, ?_⟩
      · filter_upwards [p1, q1] with t h1 h2
        simp [Ex.val, h1, h2, Ex.opVal]
      · simp only [p3, q3]; rfl
    | sub =>
      refine ⟨fun t => g1 t - g2 t, ?_, p2.sub q2, ?_⟩
      · filter_upwards [p1, q1] with t h1 h2
        simp [Ex.val, h1, h2, Ex.opVal]
      · simp only [p3, q3]; rfl
    | mul =>
      refine ⟨fun t => g1 t * g2 t, ?_, p2.mul q2, ?_⟩
      · filter_upwards [p1, q1] with t h1 h2
        simp [Ex.val, h1, h2, Ex.opVal]
      · simp only [p3, q3]; rfl
    | div =>
      have hne : g2 x0 ≠ 0 := by
        intro h0
        have := q1.self_of_nhds
        rw [hself, h0] at this
        exact hdiv rfl this
      refine ⟨fun t => g1 t / g2 t, ?_, ?_, ?_⟩
      · filter_upwards [p1, q1, q2.continuousAt.eventually_ne hne] with t h1 h2 h3
        simp [Ex.val, h1, h2, Ex.opVal, h3]
      · have := p2.div q2 hne
        have e2 : ∀ da db : ℝ, dop .div (g1 x0) (g2 x0) da db = (da * g2 x0 - g1 x0 * db) / g2 x0 ^ 2 := by
          intro da db
          change da / g2 x0 - g1 x0 * db / (g2 x0 * g2 x0) = _
          field_simp
        rw [e2]
        exact this
      · simp only [p3, q3]; rfl
  | fn name e ih =>
    intro hin
    obtain ⟨hin, hname, y, hy, hdom⟩ := hin
    obtain ⟨g, h1, h2, h3⟩ := ih hin
    obtain ⟨f, df, t1, t2, t3⟩ := C12.table _ hname
    have hgy : g x0 = y := by
      have := h1.self_of_nhds
      rw [hself, hy] at this
      exact (Option.some.inj this).symm
    have ht : (envOf builtinTab par used).tab name = some (f, df) := by simpa [envOf] using t1
    have hdual : dual (envOf builtinTab par used) (lookup par used) (.fn name e) =
        numFn (envOf builtinTab par used) f df (dual (envOf builtinTab par used) (lookup par used) e) := by
      simp only [dual, ht]
    refine ⟨fun t => f (g t), ?_, ?_, ?_⟩
    · have hev := h2.continuousAt.tendsto.eventually (hgy ▸ dom_open hname hdom)
      filter_upwards [h1, hev] with t a1 a2
      simp only [Ex.val, mathPartial, t2, a1, Option.map_some, Option.bind_some]
      rw [if_pos a2]
    · rw [hdual, numFn_der (hok e) f df k, ← h3]
      exact (t3 (g x0) (hgy ▸ hdom)).comp x0 h2
    · rw [hdual]
      show f (g x0) = f _
      rw [h3]

/-- Components of fixed parameters are zero. -/
theorem dual_fixed (par : ParStore ℝ) {used : List Nat} {k : Nat}
    (hk : k < used.length) (hfix : par.ip.getD used[k] false = false) (e : Ex) :
    (dual (envOf builtinTab par used) (lookup par used) e).2.getD k 0 = 0 := by
  have hok : ∀ e, OKv (envOf builtinTab par used) (dual (envOf builtinTab par used) (lookup par used) e) :=
    fun e => dual_ok (fun m => lookup_ok builtinTab par used m) e
  induction e with
  | num l => rfl
  | par m =>
    simp only [dual, lookup]
    split
    · rfl
    · rename_i i hi
      dsimp only
      split
      · rename_i h
        rw [unitVec_getD hk, if_neg]
        intro hk2
        have hmem : used.idxOf i < used.length := by omega
        have := List.getElem_idxOf hmem
        have h3 : used[k] = i := by
          rw [← this]; congr 1
        rw [h3] at hfix
        rw [hfix] at h
        simp at h
      · rfl
  | neg e ih =>
    have : (dual (envOf builtinTab par used) (lookup par used) (.neg e)).2.getD k 0 =
        -(dual (envOf builtinTab par used) (lookup par used) e).2.getD k 0 := numNeg_der _ k
    rw [this, ih, neg_zero]
  | bin o a b i1 i2 =>
    have := apply_der (hok a) (hok b) o (i := k) hk
    change (apply _ _ _ _).2.getD k 0 = 0
    rw [this, i1, i2]
    cases o <;> simp [dop]
  | fn name e ih =>
    simp only [dual]
    split
    · rw [numFn_der (hok e), ih, mul_zero]
    · rfl

theorem apply_ne {E : Env ℝ} {a b : Num ℝ} (ha : OKv E a) (hb : OKv E b) (hnu : 0 < E.nu) (o : Op)
    (h : a.2.length = E.nu ∨ b.2.length = E.nu) : (apply E o.char a b).2.length = E.nu := by
  have ha' : a.2 = [] ∨ a.2.length = E.nu := ha.imp id And.right
  have hb' : b.2 = [] ∨ b.2.length = E.nu := hb.imp id And.right
  have hbase : (base E a.2 b.2).length = E.nu := by
    unfold base
    rw [if_neg]
    · simp
    · intro hc
      simp only [Bool.and_eq_true, List.isEmpty_iff] at hc
      rw [hc.1, hc.2] at h
      simp at h
      omega
  have h1 : (if a.2.isEmpty then base E a.2 b.2 else a.2).length = E.nu := by
    split
    · exact hbase
    · rename_i h
      rcases ha' with h' | h'
      · simp [h'] at h
      · exact h'
  cases o with
  | add => exact accum_length h1 hb'
  | sub => exact accum_length h1 hb'
  | mul => exact accum_length (accum_length hbase ha') hb'
  | div => exact accum_length (accum_length hbase ha') hb'

/-- A formula with a free parameter has a derivative vector. -/
theorem dual_length (par : ParStore ℝ) {used : List Nat} (hpos : 0 < used.length)
    (hany : (used.any fun j => par.ip.getD j false) = true) (e : Ex) :
    (∀ nm ∈ e.names, ∃ f, builtinTab nm = some f) →
    (∃ n ∈ e.pars, ∃ i, par.parfind n = some i ∧ par.ip.getD i false = true) →
    (dual (envOf builtinTab par used) (lookup par used) e).2.length = used.length := by
  have hok : ∀ e, OKv (envOf builtinTab par used) (dual (envOf builtinTab par used) (lookup par used) e) :=
    fun e => dual_ok (fun m => lookup_ok builtinTab par used m) e
  induction e with
  | num l => intro _ ⟨n, hn, _⟩; simp [Ex.pars] at hn
  | par m =>
    intro _ ⟨n, hn, i, hi, hf⟩
    simp only [Ex.pars, List.mem_singleton] at hn
    subst hn
    simp only [dual, lookup, hi, hany, hf, Bool.and_self, if_true]
    simp [unitVec]
  | neg e ih =>
    intro hn h
    have := ih hn h
    simpa [dual, numNeg] using this
  | bin o a b i1 i2 =>
    intro hn ⟨n, hm, h⟩
    simp only [Ex.names, List.mem_append] at hn
    simp only [Ex.pars, List.mem_append] at hm
    refine apply_ne (hok a) (hok b) hpos o ?_
    rcases hm with hm | hm
    · exact Or.inl (i1 (fun nm h => hn nm (Or.inl h)) ⟨n, hm, h⟩)
    · exact Or.inr (i2 (fun nm h => hn nm (Or.inr h)) ⟨n, hm, h⟩)
  | fn name e ih =>
    intro hn h
    have h1 := ih (fun nm h => hn nm (by simp [Ex.names, h])) h
    obtain ⟨⟨f, df⟩, hf⟩ := hn name (by simp [Ex.names])
    have ht : (envOf builtinTab par used).tab name = some (f, df) := hf
    simp only [dual, ht, numFn]
    have hne : (dual (envOf builtinTab par used) (lookup par used) e).2 ≠ [] := by
      intro h0
      rw [h0] at h1
      simp at h1
      omega
    have hd : (envOf builtinTab par used).deriv = true := hany
    simp only [hd, isEmpty_false hne, Bool.not_false, Bool.and_self, if_true, List.length_map]
    exact h1

theorem inside_val {v : Nat → Option ℝ} (e : Ex) : Inside v e → ∃ x, e.val v mathPartial = some x := by
  induction e with
  | num l => intro _; exact ⟨_, rfl⟩
  | par n => intro h; exact h
  | neg e ih => intro h; obtain ⟨x, hx⟩ := ih h; exact ⟨-x, by simp [Ex.val, hx]⟩
  | bin o a b i1 i2 =>
    intro ⟨ha, hb, hd⟩
    obtain ⟨x, hx⟩ := i1 ha
    obtain ⟨y, hy⟩ := i2 hb
    cases o with
    | add => exact ⟨x + y, by simp [Ex.val, hx, hy, Ex.opVal]⟩
    | sub => exact ⟨x - y, by simp [Ex.val, hx, hy, Ex.opVal]⟩
    | mul => exact ⟨x * y, by simp [Ex.val, hx, hy, Ex.opVal]⟩
    | div =>
      have : y ≠ 0 := fun h => hd rfl (by rw [hy, h])
      exact ⟨x / y, by simp [Ex.val, hx, hy, Ex.opVal, this]⟩
  | fn name e ih =>
    intro ⟨hin, hname, y, hy, hdom⟩
    obtain ⟨f, df, t1, t2, t3⟩ := C12.table _ hname
    refine ⟨f y, ?_⟩
    simp only [Ex.val, mathPartial, t2, hy, Option.map_some, Option.bind_some]
    rw [if_pos (dom_open hname hdom).self_of_nhds]

/-- For every formula and every point inside the domains: the evaluation succeeds; `used` lists the positions of exactly
the parameters of the formula, each once; for a free parameter there is a component of the derivative vector and it is
the partial derivative of the formula with respect to it; for a fixed parameter it is zero. -/
theorem gradient (par : ParStore ℝ) (hw : par.Wf) (e : Ex) (line : List Char) (hline : IsFormula e line)
    (hin : Inside (parVal par) e) :
    ∃ x d used, parse builtinTab par line = some (.ok ((x, d), used)) ∧
      used.Nodup ∧ (∀ j, j ∈ used ↔ ∃ n ∈ e.pars, par.id[j]? = some n) ∧
      ∀ (k : Nat) (hk : k < used.length) (n : Nat) (p : ℝ), par.id[used[k]]? = some n → par.p[used[k]]? = some p →
        (par.ip[used[k]]? = some true → k < d.length ∧
          HasPDeriv (fun t => e.val (Function.update (parVal par) n (some t)) mathPartial) (d.getD k 0) p) ∧
        (par.ip[used[k]]? = some false → d.getD k 0 = 0) := by
  obtain ⟨x, hx⟩ := inside_val e hin
  obtain ⟨hp, hn⟩ := known_of_val hx
  have hn' : ∀ nm ∈ e.names, ∃ f, builtinTab nm = some f := fun nm h => by
    obtain ⟨g, hg⟩ := hn nm h
    obtain ⟨f, df, ht, -⟩ := mathPartial_agrees nm g hg
    exact ⟨_, ht⟩
  obtain ⟨used, h1, hnd, hmem⟩ := parse_formula builtinTab par (fun n i h => by
      obtain ⟨hi, -⟩ := ParStore.parfind_some h
      rw [hw.lp]; exact hi) e line hline
    (fun n h => by
      obtain ⟨y, hy⟩ := hp n h
      obtain ⟨i, hi, -⟩ := parVal_some hy []
      exact ⟨i, hi⟩) hn'
  have hfind : ∀ j n, par.parfind n = some j ↔ par.id[j]? = some n := by
    intro j n
    constructor
    · intro h
      obtain ⟨hj, h⟩ := ParStore.parfind_some h
      rw [List.getElem?_eq_getElem hj, h]
    · intro h
      obtain ⟨hj, h⟩ := List.getElem?_eq_some_iff.1 h
      rw [← h]
      exact ParStore.parfind_of_getElem hw hj
  refine ⟨_, (dual (envOf builtinTab par used) (lookup par used) e).2, used, h1, hnd, fun j => ?_, ?_⟩
  · rw [hmem]
    exact exists_congr fun n => and_congr_right fun _ => hfind j n
  · intro k hk n p hidn hpn
    have hfn := (hfind _ _).2 hidn
    have hx0 : parVal par n = some p := by
      simp [parVal, ParStore.getpar, hfn, Res.at?, hpn]
    constructor
    · intro hfree
      have hfree' : par.ip.getD used[k] false = true := by
        rw [List.getD_eq_getElem?_getD, hfree]; rfl
      obtain ⟨g, g1, g2, -⟩ := dual_der par hw hnd hk hfn hfree' hx0 e hin
      refine ⟨?_, g, g1, g2⟩
      rw [dual_length par (by omega) ?_ e hn' ?_]
      · exact hk
      · rw [List.any_eq_true]
        exact ⟨_, List.getElem_mem hk, hfree'⟩
      · obtain ⟨m, hm, hm2⟩ := (hmem _).1 (List.getElem_mem hk)
        exact ⟨m, hm, _, hm2, hfree'⟩
    · intro hfix
      refine dual_fixed par hk ?_ e
      rw [List.getD_eq_getElem?_getD, hfix]; rfl

/-- A point for which the hypotheses hold: `sqrt(@1)/@2` at `@1 = 4` (free), `@2 = 3` (fixed). -/
noncomputable def demoPar : ParStore ℝ := ⟨[4, 3], [true, false], [1, 2]⟩

example : demoPar.Wf ∧ Inside (parVal demoPar) (.bin .div (.fn "sqrt".toList (.par 1)) (.par 2)) := by
  refine ⟨⟨rfl, rfl, by decide +kernel⟩, ⟨⟨4, rfl⟩, ?_, 4, rfl, ?_⟩, ⟨3, rfl⟩, fun _ => ?_⟩
  · decide
  · show (0 : ℝ) < 4; norm_num
  · show (some (3 : ℝ)) ≠ some 0
    simp

/-- Its text is a formula. -/
example : IsFormula (.bin .div (.fn "sqrt".toList (.par 1)) (.par 2)) "sqrt(@1)/@2".toList := by
  refine ⟨_, [], (List.append_nil _).symm, ?_, by simp⟩
  have sp0 : ∀ c ∈ ([] : List Char), Blank c := by simp
  have p1 : Txt .fac (.par 1) "@1".toList := Txt.par (ds := [1]) (by simp) (by decide)
  have p2 : Txt .fac (.par 2) "@2".toList := Txt.par (ds := [2]) (by simp) (by decide)
  exact .expr (Txt.mul (o := .div) (Or.inr rfl)
    (.term (Txt.fn (name := "sqrt".toList) (by simp) (by decide) (.expr (.term p1)) sp0)) sp0 p2)

end Pdffit.C10
