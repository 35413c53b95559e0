import Verif.Lemmas.ParserSubst
import Verif.Lemmas.Params
import Mathlib.Tactic.Ring

/-! Values and derivative components of formulas. -/

namespace Pdffit.Parser
open Formula

section
variable {K : Type} [Field K]

/-- The value part of an operation. -/
theorem apply_val [DecidableEq K] (E : Env K) (o : Op) (a b : Num K) {z : K}
    (h : Ex.opVal o a.1 b.1 = some z) : (apply E o.char a b).1 = z := by
  cases o with
  | add => simp [Ex.opVal] at h; simp [apply, Op.char, h]
  | sub => simp [Ex.opVal] at h; simp [apply, Op.char, h]
  | mul => simp [Ex.opVal] at h; simp [apply, Op.char, h]
  | div =>
    simp only [Ex.opVal] at h
    split at h
    · cases h
    · simp at h; simp [apply, Op.char, h]

theorem getD_map_zero {d : List K} {g : K → K} (hg : g 0 = 0) (i : Nat) :
    (d.map g).getD i 0 = g (d.getD i 0) := by
  by_cases h : i < d.length
  · simp [List.getD_eq_getElem?_getD, h]
  · rw [List.getD_eq_getElem?_getD, List.getD_eq_getElem?_getD, List.getElem?_eq_none (by simpa using h),
      List.getElem?_eq_none (by simpa using h)]
    simp [hg]

theorem accum_getD {n i : Nat} {d0 d : List K} {g : K → K} (h0 : d0.length = n) (h : d = [] ∨ d.length = n)
    (hi : i < n) (hg : g 0 = 0) : (accum d0 d g).getD i 0 = d0.getD i 0 + g (d.getD i 0) := by
  unfold accum
  split
  · rename_i he
    have : d = [] := by simpa using he
    subst this
    simp [hg]
  · rename_i he
    rcases h with h | h
    · simp [h] at he
    · rw [List.getD_eq_getElem?_getD, List.getElem?_zipWith, List.getD_eq_getElem?_getD, List.getD_eq_getElem?_getD,
        List.getElem?_eq_getElem (by omega), List.getElem?_eq_getElem (by omega)]
      rfl

theorem base_getD {E : Env K} {d1 d2 : List K} {i : Nat} : (base E d1 d2).getD i 0 = 0 := by
  unfold base
  split
  · rfl
  · rw [List.getD_eq_getElem?_getD, List.getElem?_replicate]
    split <;> rfl

/-- Derivative of an operation. -/
def dop (o : Op) (x y dx dy : K) : K :=
  match o with
  | .add => dx + dy
  | .sub => dx - dy
  | .mul => dx * y + x * dy
  | .div => dx / y - x * dy / (y * y)

theorem apply_der {E : Env K} {a b : Num K} (ha : OKv E a) (hb : OKv E b) (o : Op) {i : Nat} (hi : i < E.nu) :
    (apply E o.char a b).2.getD i 0 = dop o a.1 b.1 (a.2.getD i 0) (b.2.getD i 0) := by
  by_cases hemp : a.2 = [] ∧ b.2 = []
  · cases o <;> simp [apply, Op.char, hemp.1, hemp.2, accum, base, dop]
  · have ha' : a.2 = [] ∨ a.2.length = E.nu := ha.imp id And.right
    have hb' : b.2 = [] ∨ b.2.length = E.nu := hb.imp id And.right
    have hbase : (base E a.2 b.2).length = E.nu := by
      unfold base
      rw [if_neg]
      · simp
      · intro h
        simp only [Bool.and_eq_true, List.isEmpty_iff] at h
        exact hemp h
    have h1 : (if a.2.isEmpty then base E a.2 b.2 else a.2).length = E.nu ∧
        (if a.2.isEmpty then base E a.2 b.2 else a.2).getD i 0 = a.2.getD i 0 := by
      split
      · rename_i h
        have : a.2 = [] := by simpa using h
        refine ⟨hbase, ?_⟩
        rw [base_getD, this]; rfl
      · rename_i h
        rcases ha' with h' | h'
        · simp [h'] at h
        · exact ⟨h', rfl⟩
    cases o with
    | add =>
      have := accum_getD (g := id) h1.1 hb' hi rfl
      rw [h1.2] at this
      simpa [apply, Op.char, dop] using this
    | sub =>
      have := accum_getD (g := (- ·)) h1.1 hb' hi (by simp)
      rw [h1.2] at this
      change (accum _ _ _).getD i 0 = _
      rw [this, ← sub_eq_add_neg]
      rfl
    | mul =>
      have h2 := accum_getD (g := (· * b.1)) hbase ha' hi (by simp)
      have h3 := accum_getD (g := (a.1 * ·)) (accum_length (g := (· * b.1)) hbase ha') hb' hi (by simp)
      rw [h2, base_getD] at h3
      change (accum _ _ _).getD i 0 = _
      rw [h3, zero_add]
      rfl
    | div =>
      have h2 := accum_getD (g := (· / b.1)) hbase ha' hi (by simp)
      have h3 := accum_getD (g := (fun x => -(a.1 * x / (b.1 * b.1)))) (accum_length (g := (· / b.1)) hbase ha') hb' hi
        (by simp)
      rw [h2, base_getD] at h3
      change (accum _ _ _).getD i 0 = _
      rw [h3, zero_add, ← sub_eq_add_neg]
      rfl

theorem numFn_der {E : Env K} {v : Num K} (hv : OKv E v) (f df : K → K) (i : Nat) :
    (numFn E f df v).2.getD i 0 = df v.1 * v.2.getD i 0 := by
  unfold numFn
  rcases hv with h | ⟨h, -⟩
  · simp [h]
  · by_cases he : v.2 = []
    · simp [he]
    · simp only [h, isEmpty_false he, Bool.not_false, Bool.and_self, if_true]
      exact getD_map_zero (by simp) i

theorem numNeg_der (v : Num K) (i : Nat) : (numNeg v).2.getD i 0 = -v.2.getD i 0 :=
  getD_map_zero (by simp) i

theorem dual_ok {E : Env K} {lk : Nat → Num K} (h : ∀ n, OKv E (lk n)) (e : Ex) : OKv E (dual E lk e) := by
  induction e with
  | num l => exact Or.inl rfl
  | par n => exact h n
  | neg e ih => exact ih.numNeg
  | bin o a b i1 i2 => exact i1.apply i2 _
  | fn name e ih =>
    unfold dual
    split
    · exact ih.numFn _ _
    · exact Or.inl rfl

/-- Values of the parameters. -/
def parVal (par : ParStore K) (n : Nat) : Option K :=
  match par.getpar n with
  | .ok v => some v
  | _ => none

theorem parVal_some {par : ParStore K} {n : Nat} {x : K} (h : parVal par n = some x) (used : List Nat) :
    ∃ i, par.parfind n = some i ∧ (lookup par used n).1 = x := by
  unfold parVal ParStore.getpar at h
  cases hf : par.parfind n with
  | none => rw [hf] at h; cases h
  | some i =>
    rw [hf] at h
    refine ⟨i, rfl, ?_⟩
    unfold lookup
    rw [hf]
    simp only [Res.at?] at h
    cases hi : par.p[i]? with
    | none => rw [hi] at h; cases h
    | some y =>
      rw [hi] at h
      cases h
      simp [List.getD_eq_getElem?_getD, hi]

variable [DecidableEq K]

/-- A formula with a value uses known parameters and known functions. -/
theorem known_of_val {par : Nat → Option K} {fns : List Char → Option (K → Option K)} {e : Ex} :
    ∀ {x : K}, e.val par fns = some x → (∀ n ∈ e.pars, ∃ y, par n = some y) ∧
      ∀ nm ∈ e.names, ∃ g, fns nm = some g := by
  induction e with
  | num l => intro x _; simp [Ex.pars, Ex.names]
  | par n => intro x h; simp only [Ex.val] at h; simp [Ex.pars, Ex.names, h]
  | neg e ih =>
    intro x h
    simp only [Ex.val, Option.map_eq_some_iff] at h
    obtain ⟨y, h, -⟩ := h
    exact ih h
  | bin o a b i1 i2 =>
    intro x h
    simp only [Ex.val, Option.bind_eq_some_iff] at h
    obtain ⟨y, h1, z, h2, -⟩ := h
    obtain ⟨a1, a2⟩ := i1 h1
    obtain ⟨b1, b2⟩ := i2 h2
    simp only [Ex.pars, Ex.names, List.mem_append]
    exact ⟨fun n hn => hn.elim (a1 n) (b1 n), fun n hn => hn.elim (a2 n) (b2 n)⟩
  | fn name e ih =>
    intro x h
    simp only [Ex.val, Option.bind_eq_some_iff] at h
    obtain ⟨g, h1, y, h2, -⟩ := h
    obtain ⟨a1, a2⟩ := ih h2
    simp only [Ex.pars, Ex.names, List.mem_cons]
    exact ⟨a1, fun n hn => hn.elim (fun e => e ▸ ⟨g, h1⟩) (a2 n)⟩

/-- The registered functions are (extensions of) the mathematical ones. -/
def Agrees (tab : BTab K) (fns : List Char → Option (K → Option K)) : Prop :=
  ∀ name g, fns name = some g → ∃ f df, tab name = some (f, df) ∧ ∀ x y, g x = some y → f x = y

theorem dual_val {tab : BTab K} {par : ParStore K} {fns : List Char → Option (K → Option K)} (hag : Agrees tab fns)
    (used : List Nat) (e : Ex) : ∀ {x : K}, e.val (parVal par) fns = some x →
      (dual (envOf tab par used) (lookup par used) e).1 = x := by
  induction e with
  | num l => intro x h; simp only [Ex.val, Option.some.injEq] at h; exact h
  | par n => intro x h; obtain ⟨-, -, h⟩ := parVal_some h used; exact h
  | neg e ih =>
    intro x h
    simp only [Ex.val, Option.map_eq_some_iff] at h
    obtain ⟨y, h, rfl⟩ := h
    simp [dual, numNeg, ih h]
  | bin o a b i1 i2 =>
    intro x h
    simp only [Ex.val, Option.bind_eq_some_iff] at h
    obtain ⟨y, h1, z, h2, h3⟩ := h
    rw [← i1 h1, ← i2 h2] at h3
    exact apply_val _ o _ _ h3
  | fn name e ih =>
    intro x h
    simp only [Ex.val, Option.bind_eq_some_iff] at h
    obtain ⟨g, h1, y, h2, h3⟩ := h
    obtain ⟨f, df, ht, hf⟩ := hag name g h1
    have ht' : (envOf tab par used).tab name = some (f, df) := ht
    simp only [dual, ht', numFn]
    rw [ih h2]
    exact hf y x h3

end
end Pdffit.Parser
