/-!
# Outcomes of modelled functions

Every modelled C++ function that can fail returns a `Res`: a value, an exception
(`/repo/src/extensions/libpdffit2/exceptions.h`) or undefined behaviour
(out-of-range index, null or dangling pointer).
-/

namespace Pdffit

/-- Exception classes of `exceptions.h` plus `std::runtime_error` and Python's
`OverflowError` raised by argument parsing; `other` is any other C++ exception
(for instance the `const char*` thrown in matrix.h). -/
inductive Exc where
  | value | unassigned | io | data | structure | constraint | calculation | parse
  | vget | runtime | overflow | other
  deriving DecidableEq, Repr

/-- Outcome of a modelled function. -/
inductive Res (α : Type _) where
  | ok (a : α)
  | err (e : Exc)
  | ub
  deriving DecidableEq, Repr

namespace Res

variable {α β γ : Type _}

/-- Sequencing: an exception or undefined behaviour stops the computation. -/
@[inline] def bind (x : Res α) (f : α → Res β) : Res β :=
  match x with
  | ok a => f a
  | err e => err e
  | ub => ub

instance : Monad Res where
  pure := ok
  bind := bind

@[simp] theorem bind_ok (a : α) (f : α → Res β) : (ok a >>= f) = f a := rfl
@[simp] theorem bind_err (e : Exc) (f : α → Res β) : ((err e : Res α) >>= f) = err e := rfl
@[simp] theorem bind_ub (f : α → Res β) : ((ub : Res α) >>= f) = ub := rfl
@[simp] theorem pure_eq (a : α) : (pure a : Res α) = ok a := rfl
@[simp] theorem map_ok (f : α → β) (a : α) : (f <$> (ok a : Res α)) = ok (f a) := rfl
@[simp] theorem map_err (f : α → β) (e : Exc) : (f <$> (err e : Res α)) = err e := rfl
@[simp] theorem map_ub (f : α → β) : (f <$> (ub : Res α)) = ub := rfl

instance : LawfulMonad Res := LawfulMonad.mk'
  (id_map := by intro α x; cases x <;> rfl)
  (pure_bind := by intros; rfl)
  (bind_assoc := by intro α β γ x f g; cases x <;> rfl)

theorem bind_eq_ok {x : Res α} {f : α → Res β} {b : β} :
    (x >>= f) = ok b ↔ ∃ a, x = ok a ∧ f a = ok b := by
  cases x <;> simp

/-- Read of a vector element; out of range is undefined behaviour. -/
def at? (l : List α) (i : Nat) : Res α :=
  match l[i]? with
  | some a => ok a
  | none => ub

/-- Write of a vector element; out of range is undefined behaviour. -/
def wr (l : List α) (i : Nat) (v : α) : Res (List α) :=
  if i < l.length then ok (l.set i v) else ub

/-- `for (i = 0; i < n; ++i)` with a body that may fail. -/
def forN {σ : Type _} (n : Nat) (f : Nat → σ → Res σ) (s : σ) : Res σ :=
  match n with
  | 0 => ok s
  | n + 1 => forN n f s >>= f n

/-- Loop rule. -/
theorem forN_inv {σ : Type _} (I : Nat → σ → Prop) (n : Nat) (f : Nat → σ → Res σ) (s : σ)
    (h0 : I 0 s) (hs : ∀ i s, i < n → I i s → ∃ s', f i s = ok s' ∧ I (i + 1) s') :
    ∃ s', forN n f s = ok s' ∧ I n s' := by
  induction n with
  | zero => exact ⟨s, rfl, h0⟩
  | succ n ih =>
    obtain ⟨s1, h1, h2⟩ := ih (fun i s hi => hs i s (Nat.lt_succ_of_lt hi))
    obtain ⟨s2, h3, h4⟩ := hs n s1 (Nat.lt_succ_self n) h2
    refine ⟨s2, ?_, h4⟩
    rw [forN, h1]
    exact h3

/-- `true` when the outcome is not undefined behaviour. -/
def defined : Res α → Bool
  | ub => false
  | _ => true

theorem at?_of_lt {l : List α} {i : Nat} (h : i < l.length) : at? l i = ok l[i] := by
  simp [at?, List.getElem?_eq_getElem h]

end Res
end Pdffit
