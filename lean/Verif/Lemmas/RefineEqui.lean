import Verif.Lemmas.RefineSim
import Verif.Lemmas.Gaussj
import Verif.Props.C13
import Mathlib.LinearAlgebra.Matrix.NonsingularInverse
import Mathlib.Tactic.LinearCombination

/-!
Two runs of the refinement machine whose descriptions differ by a permutation of the parameters, by units and zero points of the
parameters, and by a common factor of chi-square.
-/

namespace Pdffit
set_option linter.unusedSectionVars false

variable {K W W' : Type} [Field K] [LinearOrder K] [IsStrictOrderedRing K]

/-- Change of description: parameter `l` of the first run is parameter `ρ l` of the second run, where its value is `s l * value + t l`;
chi-square is `κ` times as large. -/
structure Redescr (K : Type) [Field K] [LinearOrder K] where
  n : ℕ
  ρ : Equiv.Perm ℕ
  hρ : ∀ l, ρ l < n ↔ l < n
  s : ℕ → K
  t : ℕ → K
  hs : ∀ l, s l ≠ 0
  κ : K
  hκ : 0 < κ

/-- The two parameter stores describe the same. -/
structure ParRel (E : Redescr K) (par par' : ParStore K) : Prop where
  len : par.p.length = E.n
  len' : par'.p.length = E.n
  ip : ∀ l, l < E.n → par'.ip.getD (E.ρ l) false = par.ip.getD l false
  val : ∀ l, l < E.n → par'.p.getD (E.ρ l) 0 = E.s l * par.p.getD l 0 + E.t l

/-- The fitted points of the two runs give the same least-squares problem. -/
structure PtsRel (E : Redescr K) (ia : ℕ → Bool) (dss dss' : List (List (Pt K))) : Prop where
  chi : chisqOf dss' = E.κ * chisqOf dss
  norm : wnormOf dss' = E.κ * wnormOf dss
  curv : ∀ l m, l < E.n → m < E.n → ia l = true → ia m = true →
    (dss'.flatten.map fun pt => pt.w * pt.d (E.ρ l) * pt.d (E.ρ m)).sum * (E.s l * E.s m) =
      E.κ * (dss.flatten.map fun pt => pt.w * pt.d l * pt.d m).sum
  grad : ∀ l, l < E.n → ia l = true →
    (dss'.flatten.map fun pt => pt.w * (pt.obs - pt.mod) * pt.d (E.ρ l)).sum * E.s l =
      E.κ * (dss.flatten.map fun pt => pt.w * (pt.obs - pt.mod) * pt.d l).sum

/-- The two theories calculate the same from stores with these flags and numbers. `R0` relates the worlds before, `R1` after a
successful evaluation. -/
structure TheoryRel (E : Redescr K) (th : Theory K W) (th' : Theory K W') (q q' : ParStore K) (R0 R1 : W → W' → Prop) : Prop where
  weaken : ∀ w w', R1 w w' → R0 w w'
  setup : ∀ par par' w w', par.ip = q.ip → par.id = q.id → par'.ip = q'.ip → par'.id = q'.id → ParRel E par par' → R0 w w' →
    (th.setup par w).2 = (th'.setup par' w').2 ∧ R0 (th.setup par w).1 (th'.setup par' w').1
  eval : ∀ par par' w w', par.ip = q.ip → par.id = q.id → par'.ip = q'.ip → par'.id = q'.id → ParRel E par par' → R0 w w' →
    (th.eval par w).2 = (th'.eval par' w').2 ∧ R0 (th.eval par w).1 (th'.eval par' w').1 ∧
      ((th.eval par w).2 = none → R1 (th.eval par w).1 (th'.eval par' w').1)
  pts : ∀ w w', R1 w w' → PtsRel E (fun l => q.ip.getD l false) (th.pts w) (th'.pts w')

/-! ### Packing -/

theorem nfree_card (ia : ℕ → Bool) (n : ℕ) : nfree ia n = ((Finset.range n).filter fun l => ia l = true).card := by
  induction n with
  | zero => rfl
  | succ n ih =>
    rw [Finset.range_add_one, Finset.filter_insert]
    simp only [nfree]
    split
    · rw [Finset.card_insert_of_notMem (by simp), ih]
    · exact ih

section
variable {E : Redescr K} {ia ia' : ℕ → Bool}

theorem packing (h : ∀ l, l < E.n → ia' (E.ρ l) = ia l) :
    nfree ia E.n = nfree ia' E.n ∧
    ∃ φ : Fin (nfree ia E.n) ≃ Fin (nfree ia' E.n), ∃ δ : Fin (nfree ia E.n) → K, (∀ i, δ i ≠ 0) ∧
      ∀ i : Fin (nfree ia E.n), ∃ l, l < E.n ∧ ia l = true ∧ (i : ℕ) = nfree ia l ∧ (φ i : ℕ) = nfree ia' (E.ρ l) ∧ δ i = E.s l := by
  have hn : nfree ia E.n = nfree ia' E.n := by
    rw [nfree_card, nfree_card]
    refine Finset.card_bij (fun l _ => E.ρ l) ?_ ?_ ?_
    · intro l hl
      simp only [Finset.mem_filter, Finset.mem_range] at hl ⊢
      exact ⟨(E.hρ l).2 hl.1, by rw [h l hl.1]; exact hl.2⟩
    · intro l _ m _ e; exact E.ρ.injective e
    · intro m hm
      simp only [Finset.mem_filter, Finset.mem_range] at hm ⊢
      have h1 : E.ρ.symm m < E.n := (E.hρ _).1 (by rw [Equiv.apply_symm_apply]; exact hm.1)
      refine ⟨E.ρ.symm m, ⟨h1, ?_⟩, E.ρ.apply_symm_apply m⟩
      rw [← h _ h1, Equiv.apply_symm_apply]; exact hm.2
  refine ⟨hn, ?_⟩
  have hx : ∀ i : Fin (nfree ia E.n), ∃ l, l < E.n ∧ ia l = true ∧ nfree ia l = i := fun i => nfree_surj ia i.2
  choose x x1 x2 x3 using hx
  have hx' : ∀ i : Fin (nfree ia E.n), ia' (E.ρ (x i)) = true := fun i => by rw [h _ (x1 i)]; exact x2 i
  let f : Fin (nfree ia E.n) → Fin (nfree ia' E.n) := fun i => ⟨nfree ia' (E.ρ (x i)), nfree_lt ia' ((E.hρ _).2 (x1 i)) (hx' i)⟩
  have hf : Function.Injective f := by
    intro i j e
    have e1 : nfree ia' (E.ρ (x i)) = nfree ia' (E.ρ (x j)) := congrArg Fin.val e
    have e2 := E.ρ.injective (nfree_inj ia' (hx' i) (hx' j) e1)
    apply Fin.ext
    rw [← x3 i, ← x3 j, e2]
  have hb : Function.Bijective f := by
    refine (Fintype.bijective_iff_injective_and_card f).2 ⟨hf, ?_⟩
    simp [hn]
  exact ⟨Equiv.ofBijective f hb, fun i => E.s (x i), fun i => E.hs _, fun i => ⟨x i, x1 i, x2 i, (x3 i).symm, rfl, rfl⟩⟩

/-! ### The linear system -/

theorem inv_rel {n n' : ℕ} (φ : Fin n ≃ Fin n') (δ : Fin n → K) (hδ : ∀ i, δ i ≠ 0) (κ : K) (hκ : κ ≠ 0)
    (M A : Matrix (Fin n) (Fin n) K) (M' : Matrix (Fin n') (Fin n') K)
    (hM : ∀ i j, M' (φ i) (φ j) * (δ i * δ j) = κ * M i j) (hA : M * A = 1) :
    M' * (Matrix.of fun i j => δ (φ.symm i) * δ (φ.symm j) / κ * A (φ.symm i) (φ.symm j)) = 1 := by
  ext i j
  obtain ⟨i, rfl⟩ := φ.surjective i
  obtain ⟨j, rfl⟩ := φ.surjective j
  rw [Matrix.mul_apply, ← φ.sum_comp]
  have h1 := congrFun (congrFun hA i) j
  rw [Matrix.mul_apply] at h1
  have : ∀ k, M' (φ i) (φ k) * (δ (φ.symm (φ k)) * δ (φ.symm (φ j)) / κ * A (φ.symm (φ k)) (φ.symm (φ j))) =
      δ j / δ i * (M i k * A k j) := by
    intro k
    simp only [Equiv.symm_apply_apply]
    have hi := hδ i
    have hk := hδ k
    have := hM i k
    have hMk : M' (φ i) (φ k) = κ * M i k / (δ i * δ k) := by
      rw [← this]; field_simp
    rw [hMk]
    field_simp
  simp only [Matrix.of_apply]
  rw [Finset.sum_congr rfl (fun k _ => this k), ← Finset.mul_sum, h1, Matrix.one_apply, Matrix.one_apply]
  by_cases hij : i = j
  · subst hij; simp [hδ i]
  · rw [if_neg hij, if_neg (fun e => hij (φ.injective e)), mul_zero]

theorem gaussj_rel {n n' : ℕ} (φ : Fin n ≃ Fin n') (δ : Fin n → K) (hδ : ∀ i, δ i ≠ 0) (κ : K) (hκ : κ ≠ 0)
    (M : Matrix (Fin n) (Fin n) K) (M' : Matrix (Fin n') (Fin n') K) (B : Matrix (Fin n) (Fin 1) K) (B' : Matrix (Fin n') (Fin 1) K)
    (hM : ∀ i j, M' (φ i) (φ j) * (δ i * δ j) = κ * M i j) (hB : ∀ i, B' (φ i) 0 * δ i = κ * B i 0) :
    (gaussj M B = .err .calculation ∧ gaussj M' B' = .err .calculation) ∨
    ∃ A X A' X', gaussj M B = .ok (A, X) ∧ gaussj M' B' = .ok (A', X') ∧
      (∀ i j, A' (φ i) (φ j) * κ = δ i * δ j * A i j) ∧ (∀ i, X' (φ i) 0 = δ i * X i 0) := by
  rcases C13.C13_gaussj_inverts_or_reports_singular M B with ⟨h, e⟩ | ⟨h, A, X, e, hA, hA2, hX⟩
  · left
    refine ⟨e, (C13.C13_gaussj_raises_iff_singular M' B').2 ?_⟩
    by_contra hne
    rcases C13.C13_gaussj_inverts_or_reports_singular M' B' with ⟨h', -⟩ | ⟨-, A', -, -, hA', -, -⟩
    · exact hne h'
    · have := inv_rel φ.symm (fun i => (δ (φ.symm i))⁻¹) (fun i => inv_ne_zero (hδ _)) κ⁻¹ (inv_ne_zero hκ) M' A' M ?_ hA'
      · have h2 := congrArg Matrix.det this
        rw [Matrix.det_mul, h, zero_mul, Matrix.det_one] at h2
        exact zero_ne_one h2
      · intro i j
        have := hM (φ.symm i) (φ.symm j)
        simp only [Equiv.apply_symm_apply] at this
        have hi := hδ (φ.symm i)
        have hj := hδ (φ.symm j)
        have e : M (φ.symm i) (φ.symm j) = M' i j * (δ (φ.symm i) * δ (φ.symm j)) / κ := by
          rw [this]; field_simp
        rw [e]; field_simp
  · right
    have hi := inv_rel φ δ hδ κ hκ M A M' hM hA
    rcases C13.C13_gaussj_inverts_or_reports_singular M' B' with ⟨h', -⟩ | ⟨-, A', X', e', hA', hA2', hX'⟩
    · have h2 := congrArg Matrix.det hi
      rw [Matrix.det_mul, h', zero_mul, Matrix.det_one] at h2
      exact absurd h2 zero_ne_one
    · refine ⟨A, X, A', X', e, e', ?_, ?_⟩
      · have hu : A' = (Matrix.of fun i j => δ (φ.symm i) * δ (φ.symm j) / κ * A (φ.symm i) (φ.symm j)) := by
          rw [← Matrix.mul_one A', ← hi, ← Matrix.mul_assoc, hA2', Matrix.one_mul]
        intro i j
        rw [hu]
        simp only [Matrix.of_apply, Equiv.symm_apply_apply]
        field_simp
      · -- the solution
        let Y : Matrix (Fin n') (Fin 1) K := fun i _ => δ (φ.symm i) * X (φ.symm i) 0
        have hY : M' * Y = B' := by
          ext i k
          obtain rfl : k = 0 := Subsingleton.elim _ _
          obtain ⟨i, rfl⟩ := φ.surjective i
          rw [Matrix.mul_apply, ← φ.sum_comp]
          have h1 := congrFun (congrFun hX i) 0
          rw [Matrix.mul_apply] at h1
          have : ∀ k, M' (φ i) (φ k) * Y (φ k) 0 = κ / δ i * (M i k * X k 0) := by
            intro k
            show M' (φ i) (φ k) * (δ (φ.symm (φ k)) * X (φ.symm (φ k)) 0) = _
            rw [Equiv.symm_apply_apply]
            have hi := hδ i
            have hk := hδ k
            have hMk : M' (φ i) (φ k) = κ * M i k / (δ i * δ k) := by
              rw [← hM i k]; field_simp
            rw [hMk]; field_simp
          rw [Finset.sum_congr rfl (fun k _ => this k), ← Finset.mul_sum, h1]
          have hi := hδ i
          have := hB i
          field_simp
          linarith
        have hu : X' = Y := by
          have : A' * (M' * X') = A' * (M' * Y) := by rw [hX', hY]
          rwa [← Matrix.mul_assoc, ← Matrix.mul_assoc, hA2', Matrix.one_mul, Matrix.one_mul] at this
        intro i
        rw [hu]
        show δ (φ.symm (φ i)) * X (φ.symm (φ i)) 0 = _
        rw [Equiv.symm_apply_apply]

/-- Packed matrices of the two runs. -/
def CurvRel (E : Redescr K) (ia ia' : ℕ → Bool) (a a' : ℕ → ℕ → K) : Prop :=
  ∀ l m, l < E.n → m < E.n → ia l = true → ia m = true →
    a' (nfree ia' (E.ρ l)) (nfree ia' (E.ρ m)) * (E.s l * E.s m) = E.κ * a (nfree ia l) (nfree ia m)

/-- Packed gradients of the two runs. -/
def GradRel (E : Redescr K) (ia ia' : ℕ → Bool) (b b' : ℕ → K) : Prop :=
  ∀ l, l < E.n → ia l = true → b' (nfree ia' (E.ρ l)) * E.s l = E.κ * b (nfree ia l)

theorem solve_rel (h : ∀ l, l < E.n → ia' (E.ρ l) = ia l) (m m' : ℕ → ℕ → K) (b b' : ℕ → K) (c c' : ℕ → ℕ → K) (d d' : ℕ → K)
    (hm : CurvRel E ia ia' m m') (hb : GradRel E ia ia' b b') :
    (solveNormal (nfree ia E.n) m b c d = .err .calculation ∧ solveNormal (nfree ia' E.n) m' b' c' d' = .err .calculation) ∨
    ∃ r r', solveNormal (nfree ia E.n) m b c d = .ok r ∧ solveNormal (nfree ia' E.n) m' b' c' d' = .ok r' ∧
      (∀ l k, l < E.n → k < E.n → ia l = true → ia k = true →
        r'.1 (nfree ia' (E.ρ l)) (nfree ia' (E.ρ k)) * E.κ = E.s l * E.s k * r.1 (nfree ia l) (nfree ia k)) ∧
      (∀ l, l < E.n → ia l = true → r'.2 (nfree ia' (E.ρ l)) = E.s l * r.2 (nfree ia l)) := by
  obtain ⟨hn, φ, δ, hδ, hφ⟩ := packing h
  have key : ∀ l (hl : l < E.n) (fl : ia l = true),
      (φ ⟨nfree ia l, nfree_lt ia hl fl⟩ : ℕ) = nfree ia' (E.ρ l) ∧ δ ⟨nfree ia l, nfree_lt ia hl fl⟩ = E.s l := by
    intro l hl fl
    obtain ⟨l', h1, h2, h3, h4, h5⟩ := hφ ⟨nfree ia l, nfree_lt ia hl fl⟩
    have : l = l' := nfree_inj ia fl h2 h3
    subst this
    exact ⟨h4, h5⟩
  have lt' : ∀ l, l < E.n → ia l = true → nfree ia' (E.ρ l) < nfree ia' E.n := by
    intro l hl fl
    exact nfree_lt ia' ((E.hρ l).2 hl) (by rw [h l hl]; exact fl)
  have hM : ∀ i j : Fin (nfree ia E.n), m' (φ i) (φ j) * (δ i * δ j) = E.κ * m i j := by
    intro i j
    obtain ⟨l, l1, l2, l3, l4, l5⟩ := hφ i
    obtain ⟨k, k1, k2, k3, k4, k5⟩ := hφ j
    rw [l3, k3, l4, k4, l5, k5]
    exact hm l k l1 k1 l2 k2
  have hB : ∀ i : Fin (nfree ia E.n), b' (φ i) * δ i = E.κ * b i := by
    intro i
    obtain ⟨l, l1, l2, l3, l4, l5⟩ := hφ i
    rw [l3, l4, l5]
    exact hb l l1 l2
  rcases gaussj_rel φ δ hδ E.κ E.hκ.ne' (fun i j => m i j) (fun i j => m' i j) (fun i _ => b i) (fun i _ => b' i) hM hB with
    ⟨h1, h2⟩ | ⟨A, X, A', X', h1, h2, hA, hX⟩
  · left
    unfold solveNormal
    rw [h1, h2]
    exact ⟨rfl, rfl⟩
  · right
    unfold solveNormal
    rw [h1, h2]
    refine ⟨_, _, rfl, rfl, fun l k hl hk fl fk => ?_, fun l hl fl => ?_⟩
    · dsimp only
      rw [dif_pos (show nfree ia l < nfree ia E.n ∧ nfree ia k < nfree ia E.n from ⟨nfree_lt ia hl fl, nfree_lt ia hk fk⟩),
        dif_pos (show nfree ia' (E.ρ l) < nfree ia' E.n ∧ nfree ia' (E.ρ k) < nfree ia' E.n from ⟨lt' l hl fl, lt' k hk fk⟩)]
      have := hA ⟨nfree ia l, nfree_lt ia hl fl⟩ ⟨nfree ia k, nfree_lt ia hk fk⟩
      rw [(key l hl fl).2, (key k hk fk).2] at this
      rw [← this]
      congr 2
      · exact Fin.ext (key l hl fl).1.symm
      · exact Fin.ext (key k hk fk).1.symm
    · dsimp only
      rw [dif_pos (nfree_lt ia hl fl), dif_pos (lt' l hl fl)]
      have := hX ⟨nfree ia l, nfree_lt ia hl fl⟩
      rw [(key l hl fl).2] at this
      rw [← this]
      congr 1
      exact Fin.ext (key l hl fl).1.symm

end

/-! ### The machine -/

section
variable {E : Redescr K} {th : Theory K W} {th' : Theory K W'} {q q' : ParStore K} {R0 R1 : W → W' → Prop}

/-- Flags and numbers of both stores, and their values. -/
structure KeyRel (E : Redescr K) (q q' par par' : ParStore K) : Prop where
  ip : par.ip = q.ip
  id : par.id = q.id
  ip' : par'.ip = q'.ip
  id' : par'.id = q'.id
  par : ParRel E par par'

/-- Array of all parameters of both runs. -/
def ArrRel (E : Redescr K) (a a' : ℕ → K) : Prop := ∀ l, l < E.n → a' (E.ρ l) = E.s l * a l + E.t l

theorem KeyRel.ma {e : Eng K W} {e' : Eng K W'} (h : KeyRel E q q' e.par e'.par) : e.ma = E.n ∧ e'.ma = E.n :=
  ⟨h.par.len, h.par.len'⟩

theorem KeyRel.ia {e : Eng K W} {e' : Eng K W'} (h : KeyRel E q q' e.par e'.par) : ∀ l, l < E.n → e'.ia (E.ρ l) = e.ia l :=
  h.par.ip

theorem KeyRel.a {e : Eng K W} {e' : Eng K W'} (h : KeyRel E q q' e.par e'.par) : ArrRel E e.a e'.a := h.par.val

theorem KeyRel.setP {e : Eng K W} {e' : Eng K W'} (h : KeyRel E q q' e.par e'.par) {a a' : ℕ → K} (ha : ArrRel E a a') :
    KeyRel E q q' (e.setP a).par (e'.setP a').par := by
  refine ⟨h.ip, h.id, h.ip', h.id', ?_, ?_, h.par.ip, ?_⟩
  · have := (Frame.setP e a).ma; exact this.trans h.par.len
  · have := (Frame.setP e' a').ma; exact this.trans h.par.len'
  · intro l hl
    have h1 := Eng.setP_a e a l (by rw [h.ma.1]; exact hl)
    have h2 := Eng.setP_a e' a' (E.ρ l) (by rw [h.ma.2]; exact (E.hρ l).2 hl)
    unfold Eng.a at h1 h2
    rw [h1, h2]
    exact ha l hl

theorem cof_rel (T : TheoryRel E th th' q q' R0 R1) {e : Eng K W} {e' : Eng K W'} (h : KeyRel E q q' e.par e'.par)
    (hw : R0 e.world e'.world) {a a' : ℕ → K} (ha : ArrRel E a a') (al al' be be') :
    (∃ x w w', mrqcof th e a al be = ({ e.setP a with world := w }, .error x) ∧
      mrqcof th' e' a' al' be' = ({ e'.setP a' with world := w' }, .error x) ∧ R0 w w') ∨
    (∃ w w' c c' cum cum' m m' b b', mrqcof th e a al be = ({ e.setP a with world := w, chisq := c, cum := cum }, .ok (m, b)) ∧
      mrqcof th' e' a' al' be' = ({ e'.setP a' with world := w', chisq := c', cum := cum' }, .ok (m', b')) ∧
      R1 w w' ∧ c' = E.κ * c ∧ CurvRel E e.ia e'.ia m m' ∧ GradRel E e.ia e'.ia b b') := by
  have hk := h.setP ha
  obtain ⟨h1, h2, h3⟩ := T.eval _ _ e.world e'.world hk.ip hk.id hk.ip' hk.id' hk.par hw
  have f1 := Frame.setP e a
  have f2 := Frame.setP e' a'
  unfold mrqcof
  dsimp only
  rw [f1.ia, f1.ma, f2.ia, f2.ma, h.ma.1, h.ma.2]
  change (th.eval (e.setP a).par (e.setP a).world).2 = (th'.eval (e'.setP a').par (e'.setP a').world).2 at h1
  change R0 (th.eval (e.setP a).par (e.setP a).world).1 (th'.eval (e'.setP a').par (e'.setP a').world).1 at h2
  change (th.eval (e.setP a).par (e.setP a).world).2 = none →
    R1 (th.eval (e.setP a).par (e.setP a).world).1 (th'.eval (e'.setP a').par (e'.setP a').world).1 at h3
  generalize th.eval (e.setP a).par (e.setP a).world = r at h1 h2 h3 ⊢
  generalize th'.eval (e'.setP a').par (e'.setP a').world = r' at h1 h2 h3 ⊢
  obtain ⟨w, o⟩ := r
  obtain ⟨w', o'⟩ := r'
  dsimp only at h1 h2 h3
  subst h1
  cases o with
  | some x => left; exact ⟨x, w, w', rfl, rfl, h2⟩
  | none =>
    right
    have hp := T.pts w w' (h3 rfl)
    have hia : ∀ l, e.ia l = q.ip.getD l false := fun l => by unfold Eng.ia; rw [h.ip]
    refine ⟨w, w', _, _, _, _, _, _, _, _, rfl, rfl, h3 rfl, ?_, ?_, ?_⟩
    · rw [chisq_eq, chisq_eq]; exact hp.chi
    · intro l m hl hm fl fm
      rw [mrqAcc_alpha e.ia E.n _ _ _ l m hl hm fl fm, mrqAcc_alpha e'.ia E.n _ _ _ (E.ρ l) (E.ρ m) ((E.hρ l).2 hl) ((E.hρ m).2 hm)
        (by rw [h.ia l hl]; exact fl) (by rw [h.ia m hm]; exact fm)]
      exact hp.curv l m hl hm (by rw [← hia]; exact fl) (by rw [← hia]; exact fm)
    · intro l hl fl
      rw [mrqAcc_beta e.ia E.n _ _ _ l hl fl, mrqAcc_beta e'.ia E.n _ _ _ (E.ρ l) ((E.hρ l).2 hl) (by rw [h.ia l hl]; exact fl)]
      exact hp.grad l hl (by rw [← hia]; exact fl)

/-- Engines of two running refinements. -/
structure EngRel (E : Redescr K) (q q' : ParStore K) (R1 : W → W' → Prop) (e : Eng K W) (e' : Eng K W') : Prop where
  key : KeyRel E q q' e.par e'.par
  world : R1 e.world e'.world
  iter : e'.iter = e.iter
  stag : e'.stagnating = e.stagnating
  lam : e'.alambda = e.alambda
  chisq : e'.chisq = E.κ * e.chisq
  alpha : CurvRel E e.ia e'.ia e.alpha e'.alpha

/-- Their work arrays. -/
structure WorkRel (E : Redescr K) (ia ia' : ℕ → Bool) (wk wk' : Work K) : Prop where
  ma : wk.ma = E.n
  ma' : wk'.ma = E.n
  mfit : wk.mfit = nfree ia E.n
  mfit' : wk'.mfit = nfree ia' E.n
  och : wk'.ochisq = E.κ * wk.ochisq
  atry : ArrRel E wk.atry wk'.atry
  beta : GradRel E ia ia' wk.beta wk'.beta

theorem augmented_rel {e : Eng K W} {e' : Eng K W'} (h : EngRel E q q' R1 e e') :
    CurvRel E e.ia e'.ia (augmented e) (augmented e') := by
  intro l m hl hm fl fm
  have h1 := h.alpha l m hl hm fl fm
  have fl' : e'.ia (E.ρ l) = true := by rw [h.key.ia l hl]; exact fl
  have fm' : e'.ia (E.ρ m) = true := by rw [h.key.ia m hm]; exact fm
  unfold augmented
  rw [h.lam]
  by_cases e1 : l = m
  · subst e1
    rw [if_pos rfl, if_pos rfl]
    linear_combination (1 + e.alambda) * h1
  · rw [if_neg (fun h2 => e1 (E.ρ.injective (nfree_inj _ fl' fm' h2))), if_neg (fun h2 => e1 (nfree_inj _ fl fm h2))]
    exact h1

/-- The covariance matrices of the two runs. -/
def CovarRel (E : Redescr K) (c c' : ℕ → ℕ → K) : Prop :=
  ∀ l k, l < E.n → k < E.n → c' (E.ρ l) (E.ρ k) * E.κ = E.s l * E.s k * c l k

/-- The last call of `mrqmin`. -/
theorem try_final {e : Eng K W} {e' : Eng K W'} (h : EngRel E q q' R1 e e') {wk wk' : Work K}
    (hw : WorkRel E e.ia e'.ia wk wk') (h0 : e.alambda = 0) :
    (mrqTry th wk e = (some wk, e, .exc .calculation) ∧ mrqTry th' wk' e' = (some wk', e', .exc .calculation)) ∨
    ∃ c al c' al', mrqTry th wk e = (none, { e with covar := c, alpha := al }, .more) ∧
      mrqTry th' wk' e' = (none, { e' with covar := c', alpha := al' }, .more) ∧ CovarRel E c c' := by
  have h0' : e'.alambda = 0 := by rw [h.lam]; exact h0
  unfold mrqTry
  rw [hw.mfit, hw.mfit', h.key.ma.1, h.key.ma.2]
  rcases solve_rel h.key.ia (augmented e) (augmented e') wk.beta wk'.beta e.covar e'.covar wk.da wk'.da (augmented_rel h) hw.beta with
    ⟨h1, h2⟩ | ⟨⟨cov, da⟩, ⟨cov', da'⟩, h1, h2, hcov, hda⟩
  · left
    rw [h1, h2]; exact ⟨rfl, rfl⟩
  · right
    rw [h1, h2]
    dsimp only at hcov ⊢
    rw [if_pos h0, if_pos h0']
    obtain ⟨c1, hc1, hs1⟩ := covsrt_spec e.ia E.n cov
    obtain ⟨c2, hc2, -⟩ := covsrt_spec e.ia E.n e.alpha
    obtain ⟨c3, hc3, hs3⟩ := covsrt_spec e'.ia E.n cov'
    obtain ⟨c4, hc4, -⟩ := covsrt_spec e'.ia E.n e'.alpha
    rw [hc1, hc2, hc3, hc4]
    refine ⟨c1, c2, c3, c4, rfl, rfl, fun l k hl hk => ?_⟩
    rw [hs1 l k hl hk, hs3 _ _ ((E.hρ l).2 hl) ((E.hρ k).2 hk), h.key.ia l hl, h.key.ia k hk]
    split
    · rename_i hf
      exact hcov l k hl hk hf.1 hf.2
    · simp

/-- A trial step. -/
theorem try_step (T : TheoryRel E th th' q q' R0 R1) {e : Eng K W} {e' : Eng K W'} (h : EngRel E q q' R1 e e') {wk wk' : Work K}
    (hw : WorkRel E e.ia e'.ia wk wk') (h0 : e.alambda ≠ 0) :
    (∃ x, (mrqTry th wk e).2.2 = .exc x ∧ (mrqTry th' wk' e').2.2 = .exc x ∧
      KeyRel E q q' (mrqTry th wk e).2.1.par (mrqTry th' wk' e').2.1.par ∧
      R0 (mrqTry th wk e).2.1.world (mrqTry th' wk' e').2.1.world) ∨
    ∃ wk1 wk1', (mrqTry th wk e).1 = some wk1 ∧ (mrqTry th' wk' e').1 = some wk1' ∧ (mrqTry th wk e).2.2 = .more ∧
      (mrqTry th' wk' e').2.2 = .more ∧ EngRel E q q' R1 (mrqTry th wk e).2.1 (mrqTry th' wk' e').2.1 ∧
      WorkRel E e.ia e'.ia wk1 wk1' ∧ (mrqTry th wk e).2.1.ia = e.ia ∧ (mrqTry th' wk' e').2.1.ia = e'.ia := by
  have h0' : ¬ e'.alambda = 0 := by rw [h.lam]; exact h0
  unfold mrqTry
  rw [hw.mfit, hw.mfit']
  rcases solve_rel h.key.ia (augmented e) (augmented e') wk.beta wk'.beta e.covar e'.covar wk.da wk'.da (augmented_rel h) hw.beta with
    ⟨h1, h2⟩ | ⟨⟨cov, da⟩, ⟨cov', da'⟩, h1, h2, hcov, hda⟩
  · left
    rw [h1, h2]
    exact ⟨_, rfl, rfl, h.key, T.weaken _ _ h.world⟩
  · rw [h1, h2]
    dsimp only at hcov hda ⊢
    rw [if_neg h0, if_neg h0', h.key.ma.1, h.key.ma.2]
    have hatry : ArrRel E (fun l => if l < E.n ∧ e.ia l = true then e.a l + da (nfree e.ia l) else wk.atry l)
        (fun l => if l < E.n ∧ e'.ia l = true then e'.a l + da' (nfree e'.ia l) else wk'.atry l) := by
      intro l hl
      dsimp only
      have := (E.hρ l).2 hl
      rw [h.key.ia l hl]
      by_cases fl : e.ia l = true
      · rw [if_pos ⟨this, fl⟩, if_pos ⟨hl, fl⟩, hda l hl fl, h.key.a l hl]
        ring
      · rw [if_neg (fun x => fl x.2), if_neg (fun x => fl x.2)]
        exact hw.atry l hl
    generalize (fun l => if l < E.n ∧ e.ia l = true then e.a l + da (nfree e.ia l) else wk.atry l) = A at hatry ⊢
    generalize (fun l => if l < E.n ∧ e'.ia l = true then e'.a l + da' (nfree e'.ia l) else wk'.atry l) = A' at hatry ⊢
    have hkA : KeyRel E q q' (Eng.setP { e with covar := cov } A).par (Eng.setP { e' with covar := cov' } A').par :=
      KeyRel.setP (e := { e with covar := cov }) (e' := { e' with covar := cov' }) h.key hatry
    rcases cof_rel (e := { e with covar := cov }) (e' := { e' with covar := cov' }) T h.key (T.weaken _ _ h.world) hatry cov cov' da da' with
      ⟨x, w, w', g1, g2, gw⟩ | ⟨w, w', c, c', cum, cum', m, m', b, b', g1, g2, gw, gc, gm, gb⟩
    · left
      rw [g1, g2]
      exact ⟨x, rfl, rfl, hkA, gw⟩
    · right
      rw [g1, g2]
      dsimp only
      have hlt : c' < wk'.ochisq ↔ c < wk.ochisq := by
        rw [gc, hw.och]
        exact mul_lt_mul_iff_right₀ E.hκ
      by_cases hc : c < wk.ochisq
      · rw [if_pos hc, if_pos (hlt.2 hc)]
        have hkA2 := KeyRel.setP
          (e := { (Eng.setP { e with covar := cov } A) with world := w, chisq := c, cum := cum, covar := m })
          (e' := { (Eng.setP { e' with covar := cov' } A') with world := w', chisq := c', cum := cum', covar := m' }) hkA hatry
        refine ⟨_, _, rfl, rfl, rfl, rfl, ⟨hkA2, gw, h.iter, h.stag, ?_, gc, gm⟩,
          ⟨hw.ma, hw.ma', ?_, ?_, gc, hatry, gb⟩, rfl, rfl⟩
        · show e'.alambda / 10 = e.alambda / 10
          rw [h.lam]
        · first | rfl | exact hw.mfit
        · first | rfl | exact hw.mfit'
      · rw [if_neg hc, if_neg (fun x => hc (hlt.1 x))]
        have hkA2 := KeyRel.setP
          (e := { (Eng.setP { e with covar := cov } A) with world := w, chisq := c, cum := cum, covar := m })
          (e' := { (Eng.setP { e' with covar := cov' } A') with world := w', chisq := c', cum := cum', covar := m' }) hkA h.key.a
        refine ⟨_, _, rfl, rfl, rfl, rfl, ⟨hkA2, gw, h.iter, h.stag, ?_, hw.och, h.alpha⟩,
          ⟨hw.ma, hw.ma', ?_, ?_, hw.och, hatry, hw.beta⟩, rfl, rfl⟩
        · show e'.alambda * 10 = e.alambda * 10
          rw [h.lam]
        · first | rfl | exact hw.mfit
        · first | rfl | exact hw.mfit'

/-- The first call of `mrqmin`. -/
theorem init_rel (T : TheoryRel E th th' q q' R0 R1) {e : Eng K W} {e' : Eng K W'} (h : KeyRel E q q' e.par e'.par)
    (hw : R0 e.world e'.world) (hi : e'.iter = e.iter) (hs : e'.stagnating = e.stagnating) (o o' : Option (Work K)) :
    (∃ x wk wk' e1 e1', mrqInit th o e = (wk, e1, some x) ∧ mrqInit th' o' e' = (wk', e1', some x) ∧
      KeyRel E q q' e1.par e1'.par ∧ R0 e1.world e1'.world) ∨
    ∃ wk wk' e1 e1', mrqInit th o e = (wk, e1, none) ∧ mrqInit th' o' e' = (wk', e1', none) ∧
      EngRel E q q' R1 e1 e1' ∧ WorkRel E e1.ia e1'.ia wk wk' ∧ e1.alambda = 1 / 1000 := by
  have hk : KeyRel E q q' (Eng.setP { e with alambda := 1 / 1000 } e.a).par (Eng.setP { e' with alambda := 1 / 1000 } e'.a).par :=
    KeyRel.setP (e := { e with alambda := 1 / 1000 }) (e' := { e' with alambda := 1 / 1000 }) h h.a
  unfold mrqInit
  dsimp only
  rcases cof_rel (e := { e with alambda := 1 / 1000 }) (e' := { e' with alambda := 1 / 1000 }) T h hw
    (a := Eng.a { e with alambda := 1 / 1000 }) (a' := Eng.a { e' with alambda := 1 / 1000 }) h.a e.alpha e'.alpha
    (fun _ => 0) (fun _ => 0) with
      ⟨x, w, w', g1, g2, gw⟩ | ⟨w, w', c, c', cum, cum', m, m', b, b', g1, g2, gw, gc, gm, gb⟩
  · left
    rw [g1, g2]
    exact ⟨x, _, _, _, _, rfl, rfl, hk, gw⟩
  · right
    rw [g1, g2]
    refine ⟨_, _, _, _, rfl, rfl, ⟨hk, gw, hi, hs, rfl, gc, gm⟩, ⟨h.ma.1, h.ma.2, ?_, ?_, gc, hk.a, gb⟩, rfl⟩
    · show nfree e.ia e.ma = nfree e.ia E.n
      rw [h.ma.1]
    · show nfree e'.ia e'.ma = nfree e'.ia E.n
      rw [h.ma.2]

/-- Relation of the results of two calls of `refine_step`. -/
def StepRel (E : Redescr K) (q q' : ParStore K) (R0 R1 : W → W' → Prop) (r : Statics K × Eng K W × Outcome)
    (r' : Statics K × Eng K W' × Outcome) : Prop :=
  r'.2.2 = r.2.2 ∧ KeyRel E q q' r.2.1.par r'.2.1.par ∧ R0 r.2.1.world r'.2.1.world ∧
  (r.2.2 = .more → r.1.fitRunning = true ∧ r'.1.fitRunning = true ∧ EngRel E q q' R1 r.2.1 r'.2.1 ∧ r.2.1.iter ≠ 0 ∧ 0 < r.2.1.alambda ∧
    r'.2.1.rw2 = r.2.1.rw2 ∧ ∃ wk wk', r.1.work = some wk ∧ r'.1.work = some wk' ∧ WorkRel E r.2.1.ia r'.2.1.ia wk wk') ∧
  (r.2.2 = .done → R1 r.2.1.world r'.2.1.world ∧ r'.2.1.rw2 = r.2.1.rw2 ∧ r'.2.1.chisq = E.κ * r.2.1.chisq ∧
    CovarRel E r.2.1.covar r'.2.1.covar)

theorem rw_rel (T : TheoryRel E th th' q q' R0 R1) {w : W} {w' : W'} (h : R1 w w') {c c' : K} (hc : c' = E.κ * c) :
    c' / wnormOf (th'.pts w') = c / wnormOf (th.pts w) := by
  rw [hc, (T.pts w w' h).norm, mul_div_mul_left _ _ E.hκ.ne']

/-- The last part of `refine_step`: the first call. -/
theorem body_first (T : TheoryRel E th th' q q' R0 R1) {e : Eng K W} {e' : Eng K W'} (h : KeyRel E q q' e.par e'.par)
    (hw : R0 e.world e'.world) (hi : e.iter = 0) (hi' : e'.iter = 0) (hs : e'.stagnating = e.stagnating)
    (hl : e.alambda < 0) (hl' : e'.alambda < 0) (toler : K) (o o' : Option (Work K)) :
    StepRel E q q' R0 R1 (refineBody th toler o e) (refineBody th' toler o' e') := by
  unfold refineBody
  rw [if_pos (Or.inl (by omega)), if_pos (Or.inl (by omega))]
  unfold mrqmin
  rw [if_pos (show ({ e with ochisq := e.chisq } : Eng K W).alambda < 0 from hl),
    if_pos (show ({ e' with ochisq := e'.chisq } : Eng K W').alambda < 0 from hl')]
  have f1 := mrqInit_frame th o { e with ochisq := e.chisq }
  have f1' := mrqInit_frame th' o' { e' with ochisq := e'.chisq }
  rcases init_rel (e := { e with ochisq := e.chisq }) (e' := { e' with ochisq := e'.chisq }) T h hw (by rw [hi, hi']) hs o o' with
    ⟨x, wk, wk', e1, e1', g1, g2, gk, gw⟩ | ⟨wk, wk', e1, e1', g1, g2, ge, gwk, gl⟩
  · rw [g1, g2]
    exact ⟨rfl, gk, gw, by simp, by simp⟩
  · rw [g1] at f1
    rw [g2] at f1'
    rw [g1, g2]
    dsimp only at f1 f1' ⊢
    have hl1 : e1.alambda ≠ 0 := by rw [gl]; norm_num
    have hl2 := mrqTry_alambda_ne th wk e1 (by rw [gl]; norm_num)
    have f2 := mrqTry_frame th wk e1
    have f2' := mrqTry_frame th' wk' e1'
    rcases try_step T ge gwk hl1 with ⟨x, q1, q2, q3, q4⟩ | ⟨wk1, wk1', q1, q2, q3, q4, q5, q6, q7, q8⟩
    · generalize mrqTry th wk e1 = r at *
      generalize mrqTry th' wk' e1' = r' at *
      obtain ⟨a1, a2, a3⟩ := r
      obtain ⟨b1, b2, b3⟩ := r'
      dsimp only at q1 q2 q3 q4
      subst q1; subst q2
      exact ⟨rfl, q3, q4, by simp, by simp⟩
    · generalize mrqTry th wk e1 = r at *
      generalize mrqTry th' wk' e1' = r' at *
      obtain ⟨a1, a2, a3⟩ := r
      obtain ⟨b1, b2, b3⟩ := r'
      dsimp only at q1 q2 q3 q4 q5 q7 q8 hl2 f2 f2'
      subst q1; subst q2; subst q3; subst q4
      have ia0 : a2.iter = 0 := by rw [f2.iter, f1.iter]; exact hi
      have ib0 : b2.iter = 0 := by rw [f2'.iter, f1'.iter]; exact hi'
      refine ⟨rfl, q5.key, T.weaken _ _ q5.world, fun _ => ⟨rfl, rfl, ⟨q5.key, q5.world, ?_, ?_, q5.lam, q5.chisq, q5.alpha⟩, ?_, hl2, ?_,
        wk1, wk1', rfl, rfl, ?_⟩, by simp⟩
      · show b2.iter + 1 = a2.iter + 1
        rw [q5.iter]
      · dsimp only
        rw [if_neg (fun x => x.1 ib0), if_neg (fun x => x.1 ia0)]
      · exact Nat.succ_ne_zero _
      · exact rw_rel T q5.world q5.chisq
      · show WorkRel E a2.ia b2.ia wk1 wk1'
        rw [q7, q8]; exact q6

/-- `refine_step` of running refinements. -/
theorem body_run (T : TheoryRel E th th' q q' R0 R1) {e : Eng K W} {e' : Eng K W'} (h : EngRel E q q' R1 e e')
    {wk wk' : Work K} (hw : WorkRel E e.ia e'.ia wk wk') (hl : 0 < e.alambda) (toler : K) :
    StepRel E q q' R0 R1 (refineBody th toler (some wk) e) (refineBody th' toler (some wk') e') := by
  have hma := h.key.ma
  have hcond : wk.ma = e.ma ∧ wk.mfit = nfree e.ia e.ma := by rw [hma.1]; exact ⟨hw.ma, hw.mfit⟩
  have hcond' : wk'.ma = e'.ma ∧ wk'.mfit = nfree e'.ia e'.ma := by rw [hma.2]; exact ⟨hw.ma', hw.mfit'⟩
  unfold refineBody
  have hcc : (e'.iter < 3 ∨ (e'.stagnating < 3 ∧ e'.iter < 100)) ↔ (e.iter < 3 ∨ (e.stagnating < 3 ∧ e.iter < 100)) := by
    rw [h.iter, h.stag]
  by_cases hc : e.iter < 3 ∨ (e.stagnating < 3 ∧ e.iter < 100)
  · rw [if_pos hc, if_pos (hcc.2 hc)]
    unfold mrqmin
    rw [if_neg (show ¬ ({ e with ochisq := e.chisq } : Eng K W).alambda < 0 from not_lt.2 hl.le),
      if_neg (show ¬ ({ e' with ochisq := e'.chisq } : Eng K W').alambda < 0 from by
        show ¬ e'.alambda < 0
        rw [h.lam]; exact not_lt.2 hl.le)]
    dsimp only
    have c1 : wk.ma = ({ e with ochisq := e.chisq } : Eng K W).ma ∧
        wk.mfit = nfree ({ e with ochisq := e.chisq } : Eng K W).ia ({ e with ochisq := e.chisq } : Eng K W).ma := hcond
    have c2 : wk'.ma = ({ e' with ochisq := e'.chisq } : Eng K W').ma ∧
        wk'.mfit = nfree ({ e' with ochisq := e'.chisq } : Eng K W').ia ({ e' with ochisq := e'.chisq } : Eng K W').ma := hcond'
    rw [if_pos c1, if_pos c2]
    have h' : EngRel E q q' R1 { e with ochisq := e.chisq } { e' with ochisq := e'.chisq } :=
      ⟨h.key, h.world, h.iter, h.stag, h.lam, h.chisq, h.alpha⟩
    have hl2 := mrqTry_alambda_ne th wk { e with ochisq := e.chisq } hl
    have f2 := mrqTry_frame th wk { e with ochisq := e.chisq }
    have f2' := mrqTry_frame th' wk' { e' with ochisq := e'.chisq }
    rcases try_step T h' hw hl.ne' with ⟨x, q1, q2, q3, q4⟩ | ⟨wk1, wk1', q1, q2, q3, q4, q5, q6, q7, q8⟩
    · generalize mrqTry th wk { e with ochisq := e.chisq } = r at *
      generalize mrqTry th' wk' { e' with ochisq := e'.chisq } = r' at *
      obtain ⟨a1, a2, a3⟩ := r
      obtain ⟨b1, b2, b3⟩ := r'
      dsimp only at q1 q2 q3 q4
      subst q1; subst q2
      exact ⟨rfl, q3, q4, by simp, by simp⟩
    · generalize mrqTry th wk { e with ochisq := e.chisq } = r at *
      generalize mrqTry th' wk' { e' with ochisq := e'.chisq } = r' at *
      obtain ⟨a1, a2, a3⟩ := r
      obtain ⟨b1, b2, b3⟩ := r'
      dsimp only at q1 q2 q3 q4 q5 q7 q8 hl2 f2 f2'
      subst q1; subst q2; subst q3; subst q4
      have oa : a2.ochisq = e.chisq := f2.och
      have ob : b2.ochisq = E.κ * e.chisq := by rw [f2'.och]; exact h.chisq
      have hst : (b2.iter ≠ 0 ∧ b2.ochisq - b2.chisq ≤ toler * b2.ochisq) ↔ (a2.iter ≠ 0 ∧ a2.ochisq - a2.chisq ≤ toler * a2.ochisq) := by
        rw [q5.iter, oa, ob, q5.chisq]
        refine and_congr_right fun _ => ?_
        rw [← mul_sub, show toler * (E.κ * e.chisq) = E.κ * (toler * e.chisq) by ring]
        exact mul_le_mul_iff_right₀ E.hκ
      refine ⟨rfl, q5.key, T.weaken _ _ q5.world, fun _ => ⟨rfl, rfl, ⟨q5.key, q5.world, ?_, ?_, q5.lam, q5.chisq, q5.alpha⟩, ?_, hl2, ?_,
        wk1, wk1', rfl, rfl, ?_⟩, by simp⟩
      · show b2.iter + 1 = a2.iter + 1
        rw [q5.iter]
      · dsimp only
        rw [q5.stag]
        simp only [hst]
      · exact Nat.succ_ne_zero _
      · exact rw_rel T q5.world q5.chisq
      · show WorkRel E a2.ia b2.ia wk1 wk1'
        rw [q7, q8]; exact q6
  · rw [if_neg hc, if_neg (fun x => hc (hcc.1 x))]
    unfold mrqmin
    rw [if_neg (show ¬ ({ e with alambda := 0 } : Eng K W).alambda < 0 from lt_irrefl _),
      if_neg (show ¬ ({ e' with alambda := 0 } : Eng K W').alambda < 0 from lt_irrefl _)]
    dsimp only
    have c1 : wk.ma = ({ e with alambda := 0 } : Eng K W).ma ∧
        wk.mfit = nfree ({ e with alambda := 0 } : Eng K W).ia ({ e with alambda := 0 } : Eng K W).ma := hcond
    have c2 : wk'.ma = ({ e' with alambda := 0 } : Eng K W').ma ∧
        wk'.mfit = nfree ({ e' with alambda := 0 } : Eng K W').ia ({ e' with alambda := 0 } : Eng K W').ma := hcond'
    rw [if_pos c1, if_pos c2]
    have h' : EngRel E q q' R1 { e with alambda := 0 } { e' with alambda := 0 } :=
      ⟨h.key, h.world, h.iter, h.stag, rfl, h.chisq, h.alpha⟩
    rcases try_final (th := th) (th' := th') h' hw rfl with ⟨g1, g2⟩ | ⟨c, al, c', al', g1, g2, gc⟩
    · rw [g1, g2]
      exact ⟨rfl, h.key, T.weaken _ _ h.world, by simp, by simp⟩
    · rw [g1, g2]
      dsimp only
      obtain ⟨k1, k2, k3⟩ := T.eval e.par e'.par e.world e'.world h.key.ip h.key.id h.key.ip' h.key.id' h.key.par (T.weaken _ _ h.world)
      generalize th.eval e.par e.world = r at *
      generalize th'.eval e'.par e'.world = r' at *
      obtain ⟨w, x⟩ := r
      obtain ⟨w', x'⟩ := r'
      dsimp only at k1 k2 k3
      subst k1
      cases x with
      | some x => exact ⟨rfl, h.key, k2, by simp, by simp⟩
      | none =>
        exact ⟨rfl, h.key, k2, by simp, fun _ => ⟨k3 rfl, rw_rel T h.world h.chisq, h.chisq, gc⟩⟩

/-- `refine()`, from the start. -/
theorem loop_run (T : TheoryRel E th th' q q' R0 R1) (toler : K) (fuel : ℕ) : ∀ (t : Statics K) (t' : Statics K) (e : Eng K W) (e' : Eng K W'),
    (StepRel E q q' R0 R1 (t, e, .more) (t', e', .more)) →
    let r := refineLoop th toler fuel (t, e)
    let r' := refineLoop th' toler fuel (t', e')
    r'.2 = r.2 ∧ StepRel E q q' R0 R1 (r.1.1, r.1.2, r.2.1) (r'.1.1, r'.1.2, r'.2.1) := by
  induction fuel with
  | zero => intro t t' e e' h; exact ⟨rfl, h⟩
  | succ n ih =>
    intro t t' e e' h
    obtain ⟨h1, h2, h3, hm, -⟩ := h
    obtain ⟨m1, m2, m3, m4, m5, m6, wk, wk', m7, m8, m9⟩ := hm rfl
    dsimp only at m1 m2 m3 m4 m5 m7 m8 m9
    have hs := body_run T m3 m9 m5 toler
    have e1 : refineStep th toler t e = refineBody th toler (some wk) e := by
      unfold refineStep
      rw [if_pos ⟨m1, m4⟩, m7]
    have e2 : refineStep th' toler t' e' = refineBody th' toler (some wk') e' := by
      unfold refineStep
      rw [if_pos ⟨m2, by rw [m3.iter]; exact m4⟩, m8]
    rw [← e1, ← e2] at hs
    unfold refineLoop
    dsimp only
    generalize refineStep th toler t e = r at *
    generalize refineStep th' toler t' e' = r' at *
    obtain ⟨a1, a2, a3⟩ := r
    obtain ⟨b1, b2, b3⟩ := r'
    have ho : b3 = a3 := hs.1
    subst ho
    cases b3 with
    | more =>
      have := ih a1 b1 a2 b2 hs
      dsimp only at this ⊢
      exact ⟨by rw [this.1], this.2⟩
    | done => exact ⟨rfl, hs⟩
    | exc x => exact ⟨rfl, hs⟩
    | corrupt => exact ⟨rfl, hs⟩

theorem loop_rel (T : TheoryRel E th th' q q' R0 R1) (toler : K) (fuel : ℕ) (hf : 0 < fuel) (t t' : Statics K) (e : Eng K W) (e' : Eng K W')
    (hfresh : ¬ (t.fitRunning = true ∧ e.iter ≠ 0)) (hfresh' : ¬ (t'.fitRunning = true ∧ e'.iter ≠ 0))
    (hk : KeyRel E q q' e.par e'.par) (hw : R0 e.world e'.world) :
    let r := refineLoop th toler fuel (t, e)
    let r' := refineLoop th' toler fuel (t', e')
    r'.2 = r.2 ∧ StepRel E q q' R0 R1 (r.1.1, r.1.2, r.2.1) (r'.1.1, r'.1.2, r'.2.1) := by
  obtain ⟨n, rfl⟩ : ∃ n, fuel = n + 1 := ⟨fuel - 1, by omega⟩
  have hs : StepRel E q q' R0 R1 (refineStep th toler t e) (refineStep th' toler t' e') := by
    unfold refineStep
    rw [if_neg hfresh, if_neg hfresh']
    dsimp only
    obtain ⟨k1, k2⟩ := T.setup e.par e'.par e.world e'.world hk.ip hk.id hk.ip' hk.id' hk.par hw
    generalize th.setup e.par e.world = r at *
    generalize th'.setup e'.par e'.world = r' at *
    obtain ⟨w, x⟩ := r
    obtain ⟨w', x'⟩ := r'
    dsimp only at k1 k2
    subst k1
    cases x with
    | some x => exact ⟨rfl, hk, k2, by simp, by simp⟩
    | none =>
      exact body_first (e := { e with iter := 0, alambda := -1, stagnating := 0, chisq := th.dmax, world := w })
        (e' := { e' with iter := 0, alambda := -1, stagnating := 0, chisq := th'.dmax, world := w' }) T hk k2 rfl rfl rfl
        (neg_one_lt_zero) (neg_one_lt_zero) toler t.work t'.work
  unfold refineLoop
  dsimp only
  generalize refineStep th toler t e = r at *
  generalize refineStep th' toler t' e' = r' at *
  obtain ⟨a1, a2, a3⟩ := r
  obtain ⟨b1, b2, b3⟩ := r'
  have ho : b3 = a3 := hs.1
  subst ho
  cases b3 with
  | more =>
    have := loop_run T toler n a1 b1 a2 b2 hs
    dsimp only at this ⊢
    exact ⟨by rw [this.1], this.2⟩
  | done => exact ⟨rfl, hs⟩
  | exc x => exact ⟨rfl, hs⟩
  | corrupt => exact ⟨rfl, hs⟩

end

end Pdffit
