import Verif.Lemmas.DerivJoint

/-! # The curve as a function of all variables that move -/

namespace Pdffit.Deriv
open Geom Bonds Det Layout Filter Conf

variable {E : Type} [NormedAddCommGroup E] [NormedSpace ℝ E]

/-- No choice of the program is at a threshold for a selected phase, when the variables in `moves` change. -/
structure PhOk (moves : RVar → Prop) (D : Data) (ip : ℕ) (ph : PPhase) (s : Sel) : Prop where
  spd : ph.spdiameter ≠ 0 ∨ ¬moves (.spdiameter ip)
  cell : ((∀ k, ¬moves (.a0 ip k) ∧ ¬moves (.win ip k)) ∧ ∀ x ∈ visited D ph s, Steady D ph x) ∨
    ((∀ k, ¬moves (.win ip k)) ∧ Orth ph.cell ∧ C19.Fine ph.toPhs ∧
      (∀ i j, i < ph.atom.length → j < ph.atom.length → ∀ k, |(ph.atm i).pos k - (ph.atm j).pos k| < 1) ∧
      ph.stepcut ≤ 0 ∧ ∀ x ∈ selPairs s ph.atom.length, ∀ T, Steady D ph (x, T))

theorem PhOk.steady {moves : RVar → Prop} {D : Data} {ip : ℕ} {ph : PPhase} {s : Sel} (h : PhOk moves D ip ph s) :
    ∀ x ∈ visited D ph s, Steady D ph x := by
  rcases h.cell with h | ⟨-, -, -, -, -, h⟩
  · exact h.2
  · intro x hx
    unfold visited at hx
    rw [List.mem_flatMap] at hx
    obtain ⟨y, hy, hx⟩ := hx
    rw [List.mem_map] at hx
    obtain ⟨T, -, rfl⟩ := hx
    exact h y hy T

theorem atm_from (val : RVar → ℝ) (ip : ℕ) (ph : PPhase) (j : ℕ) :
    (phaseFrom val ip ph).atm j = if j < ph.atom.length then atomFrom val ip j (ph.atm j) else ph.atm j := by
  unfold PPhase.atm phaseFrom
  dsimp only
  split
  · rename_i h
    simp [List.getD, List.getElem?_mapIdx, List.getElem?_eq_getElem h]
  · rename_i h
    simp [List.getD, List.getElem?_mapIdx, List.getElem?_eq_none (not_lt.1 h)]

section
variable {val : E → RVar → ℝ} {w₀ : E} (hval : ∀ v, DifferentiableAt ℝ (fun w => val w v) w₀)
include hval

theorem fam_from (ip : ℕ) (ph : PPhase)
    (hm : (∀ i j, DifferentiableAt ℝ (fun w => (phaseFrom (val w) ip ph).toPhs.gten i j) w₀) ∧
      (∀ i, DifferentiableAt ℝ (fun w => recEdge (phaseFrom (val w) ip ph).cell i) w₀) ∧
      DifferentiableAt ℝ (fun w => vol (phaseFrom (val w) ip ph).cell) w₀) : Fam (fun w => phaseFrom (val w) ip ph) w₀ where
  len := fun w => by simp [phaseFrom]
  sf := fun w j => by
    rw [atm_from, atm_from]
    split <;> rfl
  icc := fun _ => rfl
  rcut := fun _ => rfl
  stepcut := fun _ => rfl
  pos := fun j k => by
    simp only [atm_from]
    split
    · exact hval _
    · exact differentiableAt_const _
  u := fun j k => by
    simp only [atm_from]
    split
    · exact hval _
    · exact differentiableAt_const _
  occ := fun j => by
    simp only [atm_from]
    split
    · exact hval _
    · exact differentiableAt_const _
  delta2 := hval _
  delta1 := hval _
  sratio := hval _
  pscale := hval _
  spd := hval _
  gten := hm.1
  ar := hm.2.1
  vol := hm.2.2

theorem dfam_from (is : ℕ) (D : Data) : DFam (fun w => dataFrom (val w) is D) w₀ where
  same := fun _ => rfl
  dscale := hval _
  qdamp := hval _
  qbroad := hval _

variable {moves : RVar → Prop} (hmov : ∀ v, ¬moves v → ∀ w, val w v = val w₀ v)
include hmov

/-- The curve of a phase is differentiable and stays usable. -/
theorem phase_joint (is : ℕ) (D : Data) (ip : ℕ) (ph : PPhase) (s : Sel)
    (hP : PhOk moves (dataFrom (val w₀) is D) ip (phaseFrom (val w₀) ip ph) s)
    (hb : ¬Bad (dataFrom (val w₀) is D) (phaseFrom (val w₀) ip ph) s) :
    (∀ i, DifferentiableAt ℝ (fun w => curve (dataFrom (val w) is D) (phaseFrom (val w) ip ph) s i) w₀) ∧
    (∀ᶠ w in nhds w₀, ¬Bad (dataFrom (val w) is D) (phaseFrom (val w) ip ph) s) ∧
    ((∃ m, lattice (phaseFrom (val w₀) ip ph).cell = .ok m) → ∀ w, ∃ m, lattice (phaseFrom (val w) ip ph).cell = .ok m) := by
  have hD := dfam_from hval is D
  have hwin : ∀ w, (phaseFrom (val w) ip ph).cell.win = (phaseFrom (val w₀) ip ph).cell.win := by
    intro w
    funext k
    rcases hP.cell with h | h
    · exact hmov _ (h.1 k).2 w
    · exact hmov _ (h.1 k) w
  have hlat : (∃ m, lattice (phaseFrom (val w₀) ip ph).cell = .ok m) → ∀ w, ∃ m, lattice (phaseFrom (val w) ip ph).cell = .ok m := by
    rintro ⟨m, hm⟩ w
    unfold lattice at hm ⊢
    have e : voll (phaseFrom (val w) ip ph).cell = voll (phaseFrom (val w₀) ip ph).cell := by
      unfold voll
      rw [hwin w]
    rw [e]
    split at hm
    · cases hm
    · rename_i hc
      rw [if_neg hc]
      exact ⟨_, rfl⟩
  have hspd : (phaseFrom (val w₀) ip ph).spdiameter ≠ 0 ∨
      ∀ w, (phaseFrom (val w) ip ph).spdiameter = (phaseFrom (val w₀) ip ph).spdiameter := by
    rcases hP.spd with h | h
    · exact .inl h
    · exact .inr fun w => hmov _ h w
  rcases hP.cell with ⟨h1, h2⟩ | ⟨h1, O, F, h3, h4, h5⟩
  · have hc : ∀ w, (phaseFrom (val w) ip ph).cell = (phaseFrom (val w₀) ip ph).cell := by
      intro w
      have : (phaseFrom (val w) ip ph).cell.a0 = (phaseFrom (val w₀) ip ph).cell.a0 := by
        funext k
        exact hmov _ (h1 k).1 w
      show (⟨_, _⟩ : Cell) = ⟨_, _⟩
      exact congrArg₂ Cell.mk this (hwin w)
    have hF := fam_from hval ip ph (metric_cell hc)
    have K := kept_cell hD hF s hc h2
    exact ⟨fun i => curve_diff hD hF s i (K.mono fun w h => h.1) hb hspd, good_near hD hF s (K.mono fun w h => h.2) hb, hlat⟩
  · have hF := fam_from hval ip ph (metric_orth (pt := fun w => phaseFrom (val w) ip ph) O hwin fun k => hval _)
    have K := kept_orth hD hF s O F hwin (fun k => (hval _).continuousAt) h3 h4 h5
    exact ⟨fun i => curve_diff hD hF s i (K.mono fun w h => h.1) hb hspd, good_near hD hF s (K.mono fun w h => h.2) hb, hlat⟩

end

/-- The selected phases with their numbers. -/
def numbered (psel : List (Option (PPhase × Sel))) : List (ℕ × PPhase × Sel) :=
  psel.zipIdx.filterMap fun p => p.1.map fun y => (p.2, y)

theorem mem_numbered {psel : List (Option (PPhase × Sel))} {q : ℕ × PPhase × Sel} (h : q ∈ numbered psel) :
    psel[q.1]? = some (some q.2) := by
  unfold numbered at h
  rw [List.mem_filterMap] at h
  obtain ⟨p, hp, e⟩ := h
  rw [List.mem_zipIdx_iff_getElem?] at hp
  cases e' : p.1 with
  | none => rw [e'] at e; cases e
  | some y =>
    rw [e'] at e hp
    simp only [Option.map_some, Option.some.injEq] at e
    subst e
    exact hp

theorem sel_numbered (val : RVar → ℝ) (psel : List (Option (PPhase × Sel))) :
    (selFrom val psel).filterMap id = (numbered psel).map fun q => (phaseFrom val q.1 q.2.1, q.2.2) := by
  have key : ∀ n, (psel.mapIdx fun ip x => x.map fun y => (phaseFrom val (ip + n) y.1, y.2)).filterMap id =
      (((psel.zipIdx n).filterMap fun p => p.1.map fun y => (p.2, y)).map fun q => (phaseFrom val q.1 q.2.1, q.2.2)) := by
    induction psel with
    | nil => intro n; rfl
    | cons a l ih =>
      intro n
      have := ih (n + 1)
      rw [List.mapIdx_cons, List.zipIdx_cons]
      have e : (fun i x => Option.map (fun y : PPhase × Sel => (phaseFrom val (i + 1 + n) y.1, y.2)) x) =
          fun i x => Option.map (fun y : PPhase × Sel => (phaseFrom val (i + (n + 1)) y.1, y.2)) x := by
        funext i x
        rw [Nat.add_right_comm, Nat.add_assoc]
      rw [e]
      cases a with
      | none => simpa using this
      | some y => simpa using this
  exact key 0

theorem mem_selFrom {val : RVar → ℝ} {psel : List (Option (PPhase × Sel))} {x : PPhase × Sel} (h : some x ∈ selFrom val psel) :
    ∃ ip y, psel[ip]? = some (some y) ∧ x = (phaseFrom val ip y.1, y.2) := by
  obtain ⟨ip, hi⟩ := List.getElem?_of_mem h
  unfold selFrom at hi
  rw [List.getElem?_mapIdx] at hi
  cases e : psel[ip]? with
  | none => rw [e] at hi; cases hi
  | some z =>
    rw [e] at hi
    cases z with
    | none => cases hi
    | some y =>
      simp only [Option.map_some, Option.some.injEq] at hi
      exact ⟨ip, y, e, hi.symm⟩

theorem selFrom_get {val : RVar → ℝ} {psel : List (Option (PPhase × Sel))} {ip : ℕ} {y : PPhase × Sel}
    (h : psel[ip]? = some (some y)) : (selFrom val psel)[ip]? = some (some (phaseFrom val ip y.1, y.2)) := by
  unfold selFrom
  rw [List.getElem?_mapIdx, h]
  rfl

theorem filt_diff {D : Data} (h : D.Ok) (g : E → ℤ → ℝ) (w₀ : E)
    (hg : ∀ i, D.ncmin ≤ i → i ≤ D.ncmax → DifferentiableAt ℝ (fun t => g t i) w₀) (i : ℤ) (h1 : D.ncmin ≤ i) (h2 : i ≤ D.ncmax) :
    DifferentiableAt ℝ (fun t => filt D (g t) i) w₀ := by
  have e : (fun t => filt D (g t) i) = fun t =>
      ((grid D.ncmin D.ncmax).map fun j => g t j * filt D (fun m => if m = j then 1 else 0) i).sum := by
    funext t
    exact filt_grid h i h1 h2 (g t)
  rw [e]
  refine diff_list _ (fun j t => g t j * filt D (fun m => if m = j then 1 else 0) i) _ ?_
  intro j hj
  rw [mem_grid] at hj
  exact (hg j hj.1 hj.2).mul_const _

/-- The calculated curve is differentiable in all variables together. -/
theorem joint {val : E → RVar → ℝ} {w₀ : E} (hval : ∀ v, DifferentiableAt ℝ (fun w => val w v) w₀)
    {moves : RVar → Prop} (hmov : ∀ v, ¬moves v → ∀ w, val w v = val w₀ v) (is : ℕ) (D : Data)
    (h : (dataFrom (val w₀) is D).Ok) (psel : List (Option (PPhase × Sel)))
    (hb : ∀ ip y, psel[ip]? = some (some y) → ¬Bad (dataFrom (val w₀) is D) (phaseFrom (val w₀) ip y.1) y.2)
    (hP : ∀ ip y, psel[ip]? = some (some y) → PhOk moves (dataFrom (val w₀) is D) ip (phaseFrom (val w₀) ip y.1) y.2) :
    ∃ F : E → ℤ → ℝ, (∀ᶠ w in nhds w₀, determine (dataFrom (val w) is D) (selFrom (val w) psel) = .ok (some (F w))) ∧
      ∀ i, D.ncmin ≤ i → i ≤ D.ncmax → DifferentiableAt ℝ (fun w => F w i) w₀ := by
  classical
  have hok : ∀ w, (dataFrom (val w) is D).Ok := fun w => ⟨h.step, h.lo, h.hi⟩
  have hgood : ∀ᶠ w in nhds w₀, ∀ x, some x ∈ selFrom (val w) psel → ¬Bad (dataFrom (val w) is D) x.1 x.2 := by
    have : ∀ᶠ w in nhds w₀, ∀ q ∈ (numbered psel).toFinset, ¬Bad (dataFrom (val w) is D) (phaseFrom (val w) q.1 q.2.1) q.2.2 := by
      rw [Filter.eventually_all_finset]
      intro q hq
      have hq' := mem_numbered (List.mem_toFinset.1 hq)
      exact (phase_joint hval hmov is D q.1 q.2.1 q.2.2 (hP _ _ hq') (hb _ _ hq')).2.1
    filter_upwards [this] with w hw x hx
    have hx' : x ∈ (selFrom (val w) psel).filterMap id := by
      rw [List.mem_filterMap]
      exact ⟨some x, hx, rfl⟩
    rw [sel_numbered, List.mem_map] at hx'
    obtain ⟨q, hq, rfl⟩ := hx'
    exact hw q (List.mem_toFinset.2 hq)
  have hex : ∀ᶠ w in nhds w₀, ∃ f, determine (dataFrom (val w) is D) (selFrom (val w) psel) = .ok (some f) := by
    filter_upwards [hgood] with w hw
    obtain ⟨f, hf, -⟩ := determine_of (hok w) hw
    exact ⟨f, hf⟩
  refine ⟨fun w => if e : ∃ f, determine (dataFrom (val w) is D) (selFrom (val w) psel) = .ok (some f) then e.choose else 0, ?_, ?_⟩
  · filter_upwards [hex] with w hw
    rw [dif_pos hw]
    exact hw.choose_spec
  · intro i h1 h2
    have hs : DifferentiableAt ℝ (fun w => ((numbered psel).map fun q => (dataFrom (val w) is D).dscale * (phaseFrom (val w) q.1 q.2.1).pscale *
        filt (dataFrom (val w₀) is D) (curve (dataFrom (val w) is D) (phaseFrom (val w) q.1 q.2.1) q.2.2) i).sum) w₀ := by
      refine diff_list _ (fun (q : ℕ × PPhase × Sel) w => (dataFrom (val w) is D).dscale * (phaseFrom (val w) q.1 q.2.1).pscale *
        filt (dataFrom (val w₀) is D) (curve (dataFrom (val w) is D) (phaseFrom (val w) q.1 q.2.1) q.2.2) i) _ ?_
      intro q hq
      have hq' := mem_numbered hq
      have hc := (phase_joint hval hmov is D q.1 q.2.1 q.2.2 (hP _ _ hq') (hb _ _ hq')).1
      exact ((hval _).mul (hval _)).mul (filt_diff h (fun w => curve (dataFrom (val w) is D) (phaseFrom (val w) q.1 q.2.1) q.2.2) w₀
        (fun j _ _ => hc j) i h1 h2)
    refine hs.congr_of_eventuallyEq ?_
    filter_upwards [hex] with w hw
    rw [dif_pos hw]
    have := (determine_some (hok w) hw.choose_spec).2 i h1 h2
    rw [this, sel_numbered, List.map_map]
    rfl

end Pdffit.Deriv
