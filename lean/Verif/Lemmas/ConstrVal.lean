import Verif.Model.Constr
import Verif.Lemmas.Refine
import Mathlib.Tactic.Linarith
import Mathlib.Tactic.FieldSimp
import Mathlib.Algebra.Order.Floor.Semiring

/-! Values assigned by `fill_variables`, wrapping of coordinates, last evaluation of `refine`. -/

namespace Pdffit
set_option linter.unusedSectionVars false

section
variable {F K : Type} [Ring K]

/-- The value a constraint gives to its variable for the parameters `par`, if it is defined:
the formula's value, or the parameter, its complement or its square. -/
def Constr.value (parse : FParser F K) (par : ParStore K) (c : Constr F) : Option K :=
  match c.form with
  | some f => match parse f par with
    | .ok r => some r.1
    | .error _ => none
  | none =>
    match par.getpar (toUnsigned c.idef) with
    | .ok x => match c.ctype with
      | .ident => some x
      | .fcomp => some (1 - x)
      | .fsqr => some (x * x)
      | .user => none
    | _ => none

/-- A constraint without the flag that `fill_variables` sets. -/
def Constr.core (c : Constr F) : Nat × Option F × Int × FCon := (c.addr, c.form, c.idef, c.ctype)

theorem Constr.value_core {parse : FParser F K} {par : ParStore K} {c c' : Constr F}
    (h : c.core = c'.core) : c.value parse par = c'.value parse par := by
  obtain ⟨a, f, i, t, v⟩ := c
  obtain ⟨a', f', i', t', v'⟩ := c'
  simp only [Constr.core, Prod.mk.injEq] at h
  obtain ⟨rfl, rfl, rfl, rfl⟩ := h
  rfl

/-- Can assign something (not the `USER` type without formula). -/
def Constr.assigns (c : Constr F) : Prop := c.form.isSome = true ∨ c.ctype ≠ .user

theorem fillOne_value {parse : FParser F K} {par : ParStore K} {i : Nat} {c c' : Constr F}
    {v v' : Nat → K} {m m' : Mat K} (h : fillOne parse par i c v m = (c', v', m', none)) :
    c'.core = c.core ∧ v' = (c.value parse par).elim v (upd v c.addr) ∧
      (c.assigns → ∃ x, c.value parse par = some x) := by
  obtain ⟨a, f, idf, t, vr⟩ := c
  unfold fillOne at h
  cases f with
  | some f =>
    dsimp only at h
    cases hp : parse f par with
    | error x => rw [hp] at h; simp at h
    | ok r =>
      obtain ⟨x, ders⟩ := r
      rw [hp] at h
      simp only [Prod.mk.injEq] at h
      obtain ⟨rfl, rfl, -, -⟩ := h
      refine ⟨rfl, ?_, fun _ => ⟨x, ?_⟩⟩ <;> simp [Constr.value, hp]
  | none =>
    dsimp only at h
    cases hp : par.parfind (toUnsigned idf) with
    | none => rw [hp] at h; simp at h
    | some j =>
      rw [hp] at h
      dsimp only at h
      cases h1 : par.ip[j]? with
      | none => rw [h1] at h; simp at h
      | some fr =>
        cases h2 : par.p[j]? with
        | none => rw [h1, h2] at h; simp at h
        | some x =>
          rw [h1, h2] at h
          have hg : par.getpar (toUnsigned idf) = .ok x := by
            simp [ParStore.getpar, hp, Res.at?, h2]
          cases t with
          | user =>
            simp only [Prod.mk.injEq] at h
            obtain ⟨rfl, rfl, -, -⟩ := h
            exact ⟨rfl, by simp [Constr.value, hg], fun hh => by simp [Constr.assigns] at hh⟩
          | ident =>
            dsimp only at h
            split at h
            · simp only [Prod.mk.injEq] at h
              obtain ⟨rfl, rfl, -, -⟩ := h
              exact ⟨rfl, by simp [Constr.value, hg], fun _ => ⟨x, by simp [Constr.value, hg]⟩⟩
            · simp at h
          | fcomp =>
            dsimp only at h
            split at h
            · simp only [Prod.mk.injEq] at h
              obtain ⟨rfl, rfl, -, -⟩ := h
              exact ⟨rfl, by simp [Constr.value, hg], fun _ => ⟨_, by simp [Constr.value, hg]; rfl⟩⟩
            · simp at h
          | fsqr =>
            dsimp only at h
            split at h
            · simp only [Prod.mk.injEq] at h
              obtain ⟨rfl, rfl, -, -⟩ := h
              exact ⟨rfl, by simp [Constr.value, hg], fun _ => ⟨_, by simp [Constr.value, hg]; rfl⟩⟩
            · simp at h

theorem fillLoop_value {parse : FParser F K} {par : ParStore K} (cs : List (Constr F)) :
    ∀ {i : Nat} {cs' : List (Constr F)} {v v' : Nat → K} {m m' : Mat K},
    fillLoop parse par i cs v m = (cs', v', m', none) →
    cs'.map Constr.core = cs.map Constr.core ∧
    v' = cs.foldl (fun v c => (c.value parse par).elim v (upd v c.addr)) v ∧
    ∀ c ∈ cs, c.assigns → ∃ x, c.value parse par = some x := by
  induction cs with
  | nil =>
    intro i cs' v v' m m' h
    simp only [fillLoop, Prod.mk.injEq] at h
    obtain ⟨rfl, rfl, -, -⟩ := h
    exact ⟨rfl, rfl, by simp⟩
  | cons c cs ih =>
    intro i cs' v v' m m' h
    rw [fillLoop] at h
    generalize hr : fillOne parse par i c v m = r at h
    obtain ⟨c1, v1, m1, s1⟩ := r
    cases s1 with
    | some s => simp at h
    | none =>
      dsimp only at h
      generalize hr2 : fillLoop parse par (i + 1) cs v1 m1 = r2 at h
      obtain ⟨c2, v2, m2, s2⟩ := r2
      simp only [Prod.mk.injEq] at h
      obtain ⟨rfl, rfl, rfl, rfl⟩ := h
      obtain ⟨a1, a2, a3⟩ := fillOne_value hr
      obtain ⟨b1, b2, b3⟩ := ih hr2
      refine ⟨by simp [a1, b1], by rw [b2, a2]; rfl, ?_⟩
      intro c' hc'
      rcases List.mem_cons.1 hc' with rfl | hm
      · exact a3
      · exact b3 c' hm

theorem fillVariables_value {parse : FParser F K} {par : ParStore K} {cs cs' : List (Constr F)}
    {v v' : Nat → K} {m m' : Mat K} (h : fillVariables parse par cs v m = (cs', v', m', none)) :
    cs'.map Constr.core = cs.map Constr.core ∧
    v' = cs.foldl (fun v c => (c.value parse par).elim v (upd v c.addr)) v ∧
    ∀ c ∈ cs, c.assigns → ∃ x, c.value parse par = some x := by
  unfold fillVariables at h
  split at h
  · exact fillLoop_value cs h
  · simp at h

theorem foldl_value_other {parse : FParser F K} {par : ParStore K} (cs : List (Constr F)) (a : Nat)
    (h : ∀ c ∈ cs, c.addr ≠ a) : ∀ v : Nat → K,
    (cs.foldl (fun v c => (c.value parse par).elim v (upd v c.addr)) v) a = v a := by
  induction cs with
  | nil => intro v; rfl
  | cons c cs ih =>
    intro v
    rw [List.foldl_cons, ih (fun c' hc' => h c' (List.mem_cons_of_mem _ hc'))]
    cases c.value parse par with
    | none => rfl
    | some x => simp [upd, (h c (by simp)).symm]

theorem foldl_value_last {parse : FParser F K} {par : ParStore K} (l r : List (Constr F))
    (c : Constr F) (h : ∀ c' ∈ r, c'.addr ≠ c.addr) {x : K} (hx : c.value parse par = some x)
    (v : Nat → K) :
    ((l ++ c :: r).foldl (fun v c => (c.value parse par).elim v (upd v c.addr)) v) c.addr = x := by
  rw [List.foldl_append, List.foldl_cons, foldl_value_other r c.addr h, hx]
  simp [upd]

end

section
variable {K : Type} [Field K] [LinearOrder K] [IsStrictOrderedRing K] [FloorRing K]

/-- `fmod` does nothing inside the cell. -/
theorem fmodK_small {x n : K} (hn : 0 < n) (hx : |x| < n) : fmodK x n = x := by
  obtain ⟨h1, h2⟩ := abs_lt.1 hx
  unfold fmodK
  split
  · rename_i h0
    have : ⌊x / n⌋ = 0 := by
      rw [Int.floor_eq_zero_iff]
      exact ⟨h0, (div_lt_one hn).2 h2⟩
    rw [this]; simp
  · rename_i h0
    have : ⌈x / n⌉ = 0 := by
      rw [Int.ceil_eq_zero_iff]
      refine ⟨?_, le_of_lt (not_le.1 h0)⟩
      rw [lt_div_iff₀ hn]; linarith
    rw [this]; simp

/-- `fmod` gives an equivalent coordinate inside the cell. -/
theorem fmodK_spec (x : K) {n : K} (hn : 0 < n) : |fmodK x n| < n ∧ ∃ k : ℤ, fmodK x n = x - n * k := by
  unfold fmodK
  have hx : x / n * n = x := div_mul_cancel₀ x hn.ne'
  split
  · rename_i h0
    refine ⟨?_, _, rfl⟩
    have h1 := Int.floor_le (x / n)
    have h2 := Int.lt_floor_add_one (x / n)
    rw [abs_lt]
    constructor <;> nlinarith
  · rename_i h0
    refine ⟨?_, _, rfl⟩
    have h1 := Int.le_ceil (x / n)
    have h2 := Int.ceil_lt_add_one (x / n)
    rw [abs_lt]
    constructor <;> nlinarith

theorem fmodK_idem (x : K) {n : K} (hn : 0 < n) : fmodK (fmodK x n) n = fmodK x n :=
  fmodK_small hn (fmodK_spec x hn).1

end

section
variable {K W : Type} [Field K] [LinearOrder K]

theorem refineBody_evaluated {th : Theory K W} {toler : K} {wk : Option (Work K)} {e : Eng K W}
    (h : (refineBody th toler wk e).2.2 = .done) :
    ∃ w, th.eval (refineBody th toler wk e).2.1.par w = ((refineBody th toler wk e).2.1.world, none) := by
  unfold refineBody at h ⊢
  split at h
  · rename_i hc
    rw [if_pos hc]
    split at h
    · cases h
    · rename_i wk1 e1 o hne heq
      dsimp only at h
      subst h
      -- `mrqmin` never reports `done`
      exfalso
      exact mrqmin_ne_done _ _ _ (by rw [heq])
  · rename_i hc
    rw [if_neg hc]
    split at h
    · rename_i wk1 e1 heq
      dsimp only at h ⊢
      split at h
      · cases h
      · rename_i w heq2
        exact ⟨_, heq2⟩
    · rename_i wk1 e1 o hne heq
      dsimp only at h
      subst h
      exfalso
      exact mrqmin_ne_done _ _ _ (by rw [heq])

theorem refineStep_evaluated {th : Theory K W} {toler : K} {s : Statics K} {e : Eng K W}
    (h : (refineStep th toler s e).2.2 = .done) :
    ∃ w, th.eval (refineStep th toler s e).2.1.par w = ((refineStep th toler s e).2.1.world, none) := by
  unfold refineStep at h ⊢
  split at h
  · rename_i hc
    rw [if_pos hc]
    exact refineBody_evaluated h
  · rename_i hc
    rw [if_neg hc]
    dsimp only at h ⊢
    split at h
    · cases h
    · exact refineBody_evaluated h

/-- A normal return of `refine` is preceded by an evaluation with the final parameters. -/
theorem refineLoop_evaluated {th : Theory K W} {toler : K} (n : Nat) : ∀ {se : Statics K × Eng K W},
    (refineLoop th toler n se).2.1 = .done →
    ∃ w, th.eval (refineLoop th toler n se).1.2.par w = ((refineLoop th toler n se).1.2.world, none) := by
  induction n with
  | zero => intro se h; cases h
  | succ n ih =>
    intro se h
    rw [refineLoop] at h ⊢
    dsimp only at h ⊢
    split at h
    · rename_i ho
      exact ih h
    · rename_i hne
      dsimp only at h
      have := refineStep_evaluated h
      rw [h]
      exact this

end
end Pdffit
