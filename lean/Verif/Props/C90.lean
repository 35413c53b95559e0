import Verif.Lemmas.Axes
import Verif.Props.C20

/-!
# C90: the names and directions of the axes

The same structure can be described with its edges in another order and with some of them reversed (`Axes`).

* `C90_curve_partial`: the calculated curve is the same.
* `C90_lattice`: volume, metric tensors and reciprocal cell are those of the other description.
* `C90_table_partial`: so is the table of bond lengths between two elements, up to the order of equal lengths.
* `C90_length_partial`, `C90_angle_partial`: in a cell with right angles a bond length and a bond angle, with their standard
  deviations, are the same.

In an oblique cell the claim is false for single bonds: `naming_matters` (the bond length after the names of two axes are exchanged, because of
C20) and `direction_matters` (the standard deviation after an axis is reversed, because the elements of the tensor of deviations are
set to zero when they are negative).
-/

namespace Pdffit.C90
open Det Bonds Geom Pdffit.Parser C24
variable (A : Axes)

/-! ## The curve -/

/-- The curve of a data set, and whether there is one, does not depend on the choice of axes for any of its phases. Missing: structures in which
differences of positions are longer than the diagonal of the cell (C24). -/
theorem C90_curve_partial (D : Data) (h : D.Ok) (ph : PPhase) (F : C19.Fine ph.toPhs) (N : Near ph) (s : Sel)
    (l₁ l₂ : List (Option (PPhase × Sel))) :
    ((∃ f, determine D (l₁ ++ some (A.phase ph, s) :: l₂) = .ok (some f)) ↔ ∃ f, determine D (l₁ ++ some (ph, s) :: l₂) = .ok (some f)) ∧
    ∀ f f', determine D (l₁ ++ some (ph, s) :: l₂) = .ok (some f) → determine D (l₁ ++ some (A.phase ph, s) :: l₂) = .ok (some f') →
      ∀ i, D.ncmin ≤ i → i ≤ D.ncmax → f' i = f i := by
  have b : (∀ x, some x ∈ l₁ ++ some (A.phase ph, s) :: l₂ → ¬Bad D x.1 x.2) ↔ ∀ x, some x ∈ l₁ ++ some (ph, s) :: l₂ → ¬Bad D x.1 x.2 := by
    have e := A.bad_phase ph F N D s
    simp only [List.mem_append, List.mem_cons, Option.some.injEq]
    constructor
    · rintro H x (hx | rfl | hx)
      · exact H x (.inl hx)
      · exact fun hb => H (A.phase ph, s) (.inr (.inl rfl)) (e.2 hb)
      · exact H x (.inr (.inr hx))
    · rintro H x (hx | rfl | hx)
      · exact H x (.inl hx)
      · exact fun hb => H (ph, s) (.inr (.inl rfl)) (e.1 hb)
      · exact H x (.inr (.inr hx))
  constructor
  · constructor
    · rintro ⟨f, hf⟩
      obtain ⟨g, hg, -⟩ := determine_of h (b.1 (determine_some h hf).1)
      exact ⟨g, hg⟩
    · rintro ⟨f, hf⟩
      obtain ⟨g, hg, -⟩ := determine_of h (b.2 (determine_some h hf).1)
      exact ⟨g, hg⟩
  · intro f f' hf hf' i hi hi'
    rw [(determine_some h hf').2 i hi hi', (determine_some h hf).2 i hi hi']
    simp only [List.filterMap_append, List.filterMap_cons, id, List.map_append, List.map_cons, List.sum_append, List.sum_cons]
    rw [A.curve_phase ph F N]
    rfl

/-! ## Volume and reciprocal cell -/

/-- A cell is accepted in both descriptions or in neither; the volume is the same, and tensors and reciprocal cell are described with the new axes. -/
theorem C90_lattice (c : Cell) :
    ((∃ m, lattice (A.cell c) = .ok m) ↔ ∃ m, lattice c = .ok m) ∧
    ∀ m m', lattice c = .ok m → lattice (A.cell c) = .ok m' → m'.v = m.v ∧ (∀ i, m'.ar i = m.ar (A.σ i)) ∧ m'.wrez = A.win m.wrez ∧
      ∀ i j, m'.gten i j = A.sg i * A.sg j * m.gten (A.σ i) (A.σ j) ∧ m'.rten i j = A.sg i * A.sg j * m.rten (A.σ i) (A.σ j) := by
  unfold lattice
  rw [A.voll_rel]
  split_ifs with h
  · simp
  · simp only [Res.ok.injEq, exists_eq', true_and]
    rintro m m' rfl rfl
    refine ⟨A.vol_rel c, A.recEdge_rel c, funext (A.wrez_rel c), fun i j => ⟨A.tensor_rel _ _ i j, ?_⟩⟩
    dsimp only
    rw [show recEdge (A.cell c) = recEdge c ∘ A.σ from funext (A.recEdge_rel c),
      show (fun i => bacosd (recArg (A.cell c) i)) = A.win (fun k => bacosd (recArg c k)) from funext (A.wrez_rel c)]
    exact A.tensor_rel _ _ i j

/-! ## The table of bond lengths -/

section
variable (p : Phs)

theorem skal_phs (x y : Fin 3 → ℝ) : (A.phs p).skal (A.vec x) (A.vec y) = p.skal x y :=
  A.skalpro_rel (A.tensor_rel p.cell.a0 p.cell.win) x y

theorem circum_phs : circumDiameter (A.phs p) = circumDiameter p :=
  A.circum_rel (fun x => skal_phs A p x x) (by simp [Axes.phs])

theorem fine_phs (F : C19.Fine p) : C19.Fine (A.phs p) where
  acc := A.cell_fine F.acc
  edge := fun i => F.edge (A.σ i)
  angle := A.win_range F.angle
  small := A.noSmall_rel F.small
  icc := fun i => F.icc (A.σ i)

theorem get_phs (i : ℕ) : (A.phs p).atom[i]? = p.atom[i]?.map fun a => { a with pos := A.vec a.pos, dpos := a.dpos ∘ A.σ } := by
  simp [Axes.phs]

theorem diff_phs (a b : Atm) (T : ℤ × ℤ × ℤ) : diff (A.phs p) { a with pos := A.vec a.pos, dpos := a.dpos ∘ A.σ }
    { b with pos := A.vec b.pos, dpos := b.dpos ∘ A.σ } (A.shift T) = A.vec (diff p a b T) := by
  funext k
  show A.vec a.pos k - A.vec b.pos k - _ * ((p.icc (A.σ k) : ℕ) : ℝ) = A.sg k * (a.pos (A.σ k) - b.pos (A.σ k) - _ * _)
  rw [A.co_shift]
  unfold Axes.vec
  ring

theorem dist_phs (i j : ℕ) (T : ℤ × ℤ × ℤ) : C19.dist (A.phs p) i j (A.shift T) = C19.dist p i j T := by
  unfold C19.dist
  rw [get_phs, get_phs]
  cases p.atom[i]? with
  | none => rfl
  | some a =>
    cases p.atom[j]? with
    | none => rfl
    | some b =>
      dsimp only [Option.map_some]
      rw [diff_phs, skal_phs]

theorem isOf_phs (lookup : String → Option ℕ) (sym : String) (i : ℕ) : C19.IsOf lookup (A.phs p) sym i ↔ C19.IsOf lookup p sym i := by
  unfold C19.IsOf
  rw [get_phs]
  cases p.atom[i]? with
  | none => simp
  | some a => simp

theorem mem_phs (P : Atm → Prop) : (∀ a ∈ (A.phs p).atom, P a) ↔ ∀ a ∈ p.atom, P { a with pos := A.vec a.pos, dpos := a.dpos ∘ A.σ } := by
  simp [Axes.phs]

/-- The table has the same lengths for the same pairs of atoms. Missing: structures in which differences of positions are longer than the diagonal
of the cell (C19); standard deviations (`direction_matters`). -/
theorem C90_table_partial (lookup : String → Option ℕ) (F : C19.Fine p) (X Y : String) (lb ub : ℝ)
    (hc : ∀ ai ∈ p.atom, ∀ aj ∈ p.atom, √(p.skal (fun k => ai.pos k - aj.pos k) fun k => ai.pos k - aj.pos k) < circumDiameter p)
    (rv rv' : List PairDist) (h : bondLengthTypes lookup p X Y lb ub = .ok rv) (h' : bondLengthTypes lookup (A.phs p) X Y lb ub = .ok rv') :
    (rv'.map fun d => (d.dij, d.i, d.j)).Perm (rv.map fun d => (d.dij, d.i, d.j)) ∧ rv'.map PairDist.dij = rv.map PairDist.dij := by
  obtain ⟨o, L, n, hL, e⟩ := C19.exact_of_close lookup p F X Y lb ub hc rv h
  obtain ⟨o', L', n', hL', e'⟩ := C19.exact_of_close lookup (A.phs p) (fine_phs A p F) X Y lb ub (by
    rw [mem_phs]
    intro a ha
    rw [mem_phs]
    intro b hb
    dsimp only
    rw [A.vec_sub, skal_phs, circum_phs]
    exact hc a ha b hb) rv' h'
  have hp : L'.Perm (L.map fun x => (x.1, x.2.1, A.shift x.2.2)) := by
    rw [List.perm_ext_iff_of_nodup n' (n.map (by
      rintro ⟨i, j, T⟩ ⟨i', j', T'⟩ h
      simp only [Prod.mk.injEq] at h
      obtain ⟨rfl, rfl, h⟩ := h
      rw [A.shift_bij.1 h]))]
    rintro ⟨i, j, T⟩
    obtain ⟨T, rfl⟩ := A.shift_bij.2 T
    rw [hL', isOf_phs, isOf_phs, dist_phs, ← hL]
    simp only [List.mem_map, Prod.mk.injEq, Prod.exists]
    constructor
    · intro h
      exact ⟨i, j, T.1, T.2.1, T.2.2, h, rfl, rfl, rfl⟩
    · rintro ⟨i', j', a, b, c, h, rfl, rfl, h2⟩
      rwa [← A.shift_bij.1 h2]
  have key : (rv'.map fun d => (d.dij, d.i, d.j)).Perm (rv.map fun d => (d.dij, d.i, d.j)) := by
    refine e'.trans (((hp.map _).trans ?_).trans e.symm)
    rw [List.map_map]
    refine List.Perm.of_eq (List.map_congr_left fun x _ => ?_)
    simp only [Function.comp, dist_phs]
  refine ⟨key, ?_⟩
  have k2 := key.map Prod.fst
  rw [List.map_map, List.map_map] at k2
  exact k2.eq_of_pairwise (le := fun a b : ℝ => a ≤ b) (fun a b _ _ h1 h2 => le_antisymm h1 h2) (List.pairwise_map.2 o') (List.pairwise_map.2 o)

/-! ## Bonds in cells with right angles -/

variable (h90 : ∀ k, p.cell.win k = 90)
include h90

theorem win90 (k : Fin 3) : (A.phs p).cell.win k = 90 := by
  show A.win p.cell.win k = 90
  unfold Axes.win
  rw [h90]
  split_ifs <;> norm_num

theorem nearest90 (x : Fin 3 → ℝ) : makeNearest (A.phs p) (A.vec x) = A.vec (makeNearest p x) := by
  unfold makeNearest
  rw [if_pos (.inr (win90 A p h90)), if_pos (.inr h90)]
  funext k
  unfold wrap Axes.vec
  show fmodK (A.sg k * x (A.σ k)) (p.icc (A.σ k)) = _
  rcases A.sg_cases k with h | h <;> rw [h]
  · rw [one_mul, one_mul]
  · rw [neg_one_mul, neg_one_mul, fmodK_neg]

theorem dgten90 (i j : Fin 3) : (A.phs p).dgten i j = p.dgten (A.σ i) (A.σ j) := by
  unfold Phs.dgten dtensor
  by_cases h : i = j
  · subst h
    simp only [ne_eq, not_true_eq_false, if_false]
    rfl
  · rw [if_pos h, if_pos (A.σ.injective.ne h)]
    dsimp only
    rw [win90 A p h90, h90, C45.cosd90]
    have e : (A.phs p).dcell.win (third i j) = p.dcell.win (third (A.σ i) (A.σ j)) := by
      show p.dcell.win (A.σ _) = _
      rw [A.perm_third h]
    rw [e]
    rfl

omit h90 in
theorem abs_vec (k : Fin 3) (x : Fin 3 → ℝ) : |A.vec x k| = |x (A.σ k)| := by
  unfold Axes.vec
  rw [abs_mul]
  rcases A.sg_cases k with h | h <;> rw [h] <;> simp

theorem dskal90 (x y dx dy : Fin 3 → ℝ) : (A.phs p).dskal (A.vec x) (A.vec y) (dx ∘ A.σ) (dy ∘ A.σ) = p.dskal x y dx dy := by
  unfold Phs.dskal
  symm
  rw [← Equiv.sum_comp A.σ]
  refine Finset.sum_congr rfl fun i _ => ?_
  rw [← Equiv.sum_comp A.σ]
  refine Finset.sum_congr rfl fun j _ => ?_
  have g : |(A.phs p).gten i j| = |p.gten (A.σ i) (A.σ j)| := by
    show |tensor (p.cell.a0 ∘ A.σ) (A.win p.cell.win) i j| = _
    rw [A.tensor_rel, A.abs_sg]
    rfl
  simp only [abs_mul, abs_vec, g, dgten90 A p h90]
  rfl

theorem mkPair90 (d dd : Fin 3 → ℝ) (i j : ℕ) : mkPair (A.phs p) (A.vec d) (dd ∘ A.σ) i j = mkPair p d dd i j := by
  unfold mkPair
  rw [skal_phs, dskal90 A p h90]

omit h90 in
theorem at_phs (i : ℕ) : Res.at? (A.phs p).atom i = (do
    let a ← Res.at? p.atom i
    .ok { a with pos := A.vec a.pos, dpos := a.dpos ∘ A.σ }) := by
  unfold Res.at?
  rw [get_phs]
  cases p.atom[i]? <;> rfl

/-- Bond length and its standard deviation in a cell with right angles. Missing: oblique cells, where it is false. -/
theorem C90_length_partial (i j : ℤ) : bondLengthAtoms (A.phs p) i j = bondLengthAtoms p i j := by
  unfold bondLengthAtoms
  rw [show (A.phs p).atom.length = p.atom.length by simp [Axes.phs]]
  split_ifs
  · rfl
  · rw [at_phs, at_phs]
    generalize Res.at? p.atom (i - 1).toNat = x
    generalize Res.at? p.atom (j - 1).toNat = y
    cases x <;> cases y <;> simp only [Res.bind_ok, Res.bind_err, Res.bind_ub]
    rename_i a b
    rw [A.vec_sub, nearest90 A p h90]
    exact congrArg Res.ok (mkPair90 A p h90 _ (fun k => a.dpos k + b.dpos k) _ _)

theorem angle90 (x y dx dy : Fin 3 → ℝ) : angle (A.phs p) (A.vec x) (A.vec y) (dx ∘ A.σ) (dy ∘ A.σ) = angle p x y dx dy := by
  unfold angle
  simp only [skal_phs, dskal90 A p h90]

/-- Bond angle and its standard deviation in a cell with right angles. Missing: oblique cells. -/
theorem C90_angle_partial (i j k : ℤ) : bondAngle (A.phs p) i j k = bondAngle p i j k := by
  unfold bondAngle
  rw [show (A.phs p).atom.length = p.atom.length by simp [Axes.phs]]
  split_ifs
  · rfl
  · rfl
  · rw [at_phs, at_phs, at_phs]
    generalize Res.at? p.atom (i - 1).toNat = x
    generalize Res.at? p.atom (j - 1).toNat = y
    generalize Res.at? p.atom (k - 1).toNat = z
    cases x <;> cases y <;> cases z <;> simp only [Res.bind_ok, Res.bind_err, Res.bind_ub]
    rename_i a b c
    rw [A.vec_sub, A.vec_sub, nearest90 A p h90, nearest90 A p h90]
    exact congrArg Res.ok (angle90 A p h90 _ _ (fun k => b.dpos k + a.dpos k) fun k => b.dpos k + c.dpos k)

end

/-! ## Oblique cells -/

/-- Two atoms in a cell with edges 1 and angle gamma `g`; the standard deviation of `a` is `δ`. -/
noncomputable def tilt (g δ x y : ℝ) : Phs where
  cell := ⟨![1, 1, 1], ![90, 90, g]⟩
  dcell := ⟨![δ, 0, 0], 0⟩
  icc := fun _ => 1
  atom := [⟨![x, y, 0], 0, 0⟩, ⟨0, 0, 0⟩]

section
variable {g c : ℝ} (δ u v : ℝ) (hg : bcosd g = c) (hc : eps ≤ |c|)
include hg hc

theorem gten_tilt : (tilt g δ u v).gten = ![![1, c, 0], ![c, 1, 0], ![0, 0, 1]] := by
  have e : ¬|c| < eps := not_lt.2 hc
  funext i j
  fin_cases i <;> fin_cases j <;> simp [Phs.gten, tensor, tilt, C45.t01, C45.t02, C45.t12, C45.t10, C45.t20, C45.t21, hg, C45.cosd90, e]

theorem skal_tilt (x y : ℝ) : (tilt g δ u v).skal ![x, y, 0] ![x, y, 0] = x ^ 2 + y ^ 2 + 2 * (x * y * c) := by
  unfold Phs.skal
  rw [skalpro_exp, gten_tilt δ u v hg hc]
  simp
  ring

omit hg hc in
theorem near_tilt (x y : ℝ) (hx : -1 < x ∧ x < 0) (hy : -1 < y ∧ y < 0) :
    search (tilt g δ u v) ![x, y, 0] = ((([![x, y, 0], ![x, y + 1, 0], ![x + 1, y, 0], ![x + 1, y + 1, 0]] :
      List (Fin 3 → ℝ)).filter fun t => (tilt g δ u v).skal t t < (tilt g δ u v).skal ![x, y, 0] ![x, y, 0]).getLast?).getD
      ![x, y, 0] := by
  rw [search_eq]
  congr 3
  have e0 : loopVals x 1 = [x, x + 1] := by
    rw [loopVals_eq (by push_cast; linarith) (by linarith), if_pos hx.2]; push_cast; rfl
  have e1 : loopVals y 1 = [y, y + 1] := by
    rw [loopVals_eq (by push_cast; linarith) (by linarith), if_pos hy.2]; push_cast; rfl
  have e2 : loopVals (0 : ℝ) 1 = [0] := by
    rw [loopVals_eq (by push_cast; norm_num) le_rfl, if_neg (lt_irrefl _)]
  simp [tests, tilt, e0, e1, e2]

end

/-- The vector used for a bond, before the search. -/
theorem start_tilt {g δ x y : ℝ} (h : g ≠ 90) (hx : |x| < 1) (hy : |y| < 1) (h0 : x ≠ 0) :
    makeNearest (tilt g δ x y) (fun k => (![x, y, 0] : Fin 3 → ℝ) k - (0 : Fin 3 → ℝ) k) =
      search (tilt g δ x y) ![if 0 < x then x - 1 else x, if 0 < y then y - 1 else y, 0] := by
  have e : (fun k => (![x, y, 0] : Fin 3 → ℝ) k - (0 : Fin 3 → ℝ) k) = ![x, y, 0] := by funext k; simp
  have ew : wrap (tilt g δ x y).icc ![x, y, 0] = ![x, y, 0] := C20.wrap_small _ _ hx hy
  have eo : octant (tilt g δ x y).icc ![x, y, 0] = ![if 0 < x then x - 1 else x, if 0 < y then y - 1 else y, 0] := by
    funext k
    fin_cases k <;> simp [octant, tilt]
  rw [e]
  unfold makeNearest
  rw [ew, if_neg, eo]
  rintro (h' | h')
  · have := h' 0
    simp at this
    exact h0 this
  · have := h' 2
    simp [tilt] at this
    exact h this

/-- Exchange of the first two axes. -/
def swap01 : Axes := ⟨Equiv.swap 0 1, fun _ => 1⟩

/-- The second axis is reversed. -/
def flip1 : Axes := ⟨1, ![1, -1, 1]⟩

theorem swap_tilt (g x y : ℝ) : swap01.phs (tilt g 0 x y) = tilt g 0 y x := by
  have s0 : (Equiv.swap (0 : Fin 3) 1) 0 = 1 := by decide
  have s1 : (Equiv.swap (0 : Fin 3) 1) 1 = 0 := by decide
  have s2 : (Equiv.swap (0 : Fin 3) 1) 2 = 2 := by decide
  have v : ∀ f : Fin 3 → ℝ, f ∘ (Equiv.swap (0 : Fin 3) 1) = ![f 1, f 0, f 2] := by
    intro f
    funext k
    fin_cases k <;> simp [s0, s1, s2]
  have w : ∀ f : Fin 3 → ℝ, swap01.vec f = ![f 1, f 0, f 2] := by
    intro f
    funext k
    fin_cases k <;> simp [Axes.vec, Axes.sg, swap01, s0, s1, s2]
  have w' : ∀ f : Fin 3 → ℝ, swap01.win f = ![f 1, f 0, f 2] := by
    intro f
    funext k
    fin_cases k <;> simp [Axes.win, swap01, s0, s1, s2]
  unfold Axes.phs Axes.cell
  simp only [w, w', show swap01.σ = Equiv.swap 0 1 from rfl, v]
  have z : (![0, 0, 0] : Fin 3 → ℝ) = 0 := by funext k; fin_cases k <;> rfl
  simp [tilt, z]
  first | exact z | rfl

theorem flip_tilt (g δ x y : ℝ) : flip1.phs (tilt g δ x y) = tilt (180 - g) δ x (-y) := by
  have w : ∀ f : Fin 3 → ℝ, flip1.vec f = ![f 0, -f 1, f 2] := by
    intro f
    funext k
    fin_cases k <;> simp [Axes.vec, Axes.sg, flip1]
  have w' : ∀ f : Fin 3 → ℝ, flip1.win f = ![180 - f 0, f 1, 180 - f 2] := by
    intro f
    funext k
    fin_cases k <;> simp [Axes.win, flip1]
  have v : ∀ f : Fin 3 → ℝ, f ∘ flip1.σ = f := fun f => rfl
  have v' : ∀ f : Fin 3 → ℕ, f ∘ flip1.σ = f := fun f => rfl
  unfold Axes.phs Axes.cell
  simp only [w, w', v, v']
  have z : (![0, 0, 0] : Fin 3 → ℝ) = 0 := by funext k; fin_cases k <;> rfl
  simp [tilt, z]
  norm_num

/-- Distance in a cell with angle gamma of 60 degrees: exchanging the names of `a` and `b` changes the reported length. -/
theorem naming_matters : ∃ d d', bondLengthAtoms (tilt 60 0 (7 / 10) (4 / 10)) 1 2 = .ok d ∧
    bondLengthAtoms (swap01.phs (tilt 60 0 (7 / 10) (4 / 10))) 1 2 = .ok d' ∧ d.dij = √(43 / 100) ∧ d'.dij = √(13 / 100) := by
  have he : eps ≤ |(1 : ℝ) / 2| := by unfold eps; rw [abs_of_pos (by norm_num)]; norm_num
  rw [swap_tilt]
  refine ⟨_, _, rfl, rfl, ?_, ?_⟩
  · show √((tilt _ _ _ _).skal (makeNearest _ _) (makeNearest _ _)) = _
    have e : makeNearest (tilt 60 0 (7 / 10) (4 / 10)) (fun k => (![7 / 10, 4 / 10, 0] : Fin 3 → ℝ) k - (0 : Fin 3 → ℝ) k) = ![7 / 10, -6 / 10, 0] := by
      rw [start_tilt (by norm_num) (by rw [abs_of_pos] <;> norm_num) (by rw [abs_of_pos] <;> norm_num) (by norm_num), if_pos (by norm_num),
        if_pos (by norm_num), near_tilt _ _ _ _ _ (by norm_num) (by norm_num)]
      norm_num [List.filter, skal_tilt _ _ _ C20.cosd60 he]
    rw [e, skal_tilt _ _ _ C20.cosd60 he]
    norm_num
  · show √((tilt _ _ _ _).skal (makeNearest _ _) (makeNearest _ _)) = _
    have e : makeNearest (tilt 60 0 (4 / 10) (7 / 10)) (fun k => (![4 / 10, 7 / 10, 0] : Fin 3 → ℝ) k - (0 : Fin 3 → ℝ) k) = ![4 / 10, -3 / 10, 0] := by
      rw [start_tilt (by norm_num) (by rw [abs_of_pos] <;> norm_num) (by rw [abs_of_pos] <;> norm_num) (by norm_num), if_pos (by norm_num),
        if_pos (by norm_num), near_tilt _ _ _ _ _ (by norm_num) (by norm_num)]
      norm_num [List.filter, skal_tilt _ _ _ C20.cosd60 he]
    rw [e, skal_tilt _ _ _ C20.cosd60 he]
    norm_num

theorem dskal_tilt {g c δ u v : ℝ} (hg : bcosd g = c) (x y : ℝ) : (tilt g δ u v).dskal ![x, y, 0] ![x, y, 0] 0 0 =
    |x * x * (2 * δ)| + 2 * |x * y * (if δ * c < eps then 0 else δ * c)| := by
  unfold Phs.dskal
  simp [Fin.sum_univ_three, Phs.dgten, dtensor, tilt, C45.t01, C45.t10, C45.t20, C45.t21, hg, C45.cosd90]
  rw [show δ + δ = δ * 2 by ring, abs_mul δ 2, abs_two]
  ring_nf

/-- Reversing `b` leaves the reported length as it is but changes its standard deviation, here from 1/2 to 1/3 of the
length times the relative deviation of `a`. -/
theorem direction_matters : ∃ d d', bondLengthAtoms (tilt 60 (1 / 100) (1 / 10) (1 / 10)) 1 2 = .ok d ∧
    bondLengthAtoms (flip1.phs (tilt 60 (1 / 100) (1 / 10) (1 / 10))) 1 2 = .ok d' ∧ d.dij = d'.dij ∧ d.ddij = 3 / 2 * d'.ddij ∧ 0 < d'.ddij := by
  have he : eps ≤ |(1 : ℝ) / 2| := by unfold eps; rw [abs_of_pos (by norm_num)]; norm_num
  have he' : eps ≤ |-(1 : ℝ) / 2| := by unfold eps; rw [abs_of_neg (by norm_num)]; norm_num
  have c120 : bcosd 120 = -1 / 2 := by rw [show (120 : ℝ) = 180 - 60 by norm_num, Axes.cosd_supp, C20.cosd60]; norm_num
  rw [flip_tilt, show (180 : ℝ) - 60 = 120 by norm_num]
  refine ⟨_, _, rfl, rfl, ?_⟩
  have e : makeNearest (tilt 60 (1 / 100) (1 / 10) (1 / 10)) (fun k => (![1 / 10, 1 / 10, 0] : Fin 3 → ℝ) k - (0 : Fin 3 → ℝ) k) =
      ![1 / 10, 1 / 10, 0] := by
    rw [start_tilt (by norm_num) (by rw [abs_of_pos] <;> norm_num) (by rw [abs_of_pos] <;> norm_num) (by norm_num), if_pos (by norm_num),
      near_tilt _ _ _ _ _ (by norm_num) (by norm_num)]
    norm_num [List.filter, skal_tilt _ _ _ C20.cosd60 he]
  have e' : makeNearest (tilt 120 (1 / 100) (1 / 10) (-(1 / 10))) (fun k => (![1 / 10, -(1 / 10), 0] : Fin 3 → ℝ) k - (0 : Fin 3 → ℝ) k) =
      ![1 / 10, -(1 / 10), 0] := by
    rw [start_tilt (by norm_num) (by rw [abs_of_pos] <;> norm_num) (by rw [abs_of_neg] <;> norm_num) (by norm_num), if_pos (by norm_num),
      if_neg (by norm_num), near_tilt _ _ _ _ _ (by norm_num) (by norm_num)]
    norm_num [List.filter, skal_tilt _ _ _ c120 he']
  have z : (fun k => (0 : Fin 3 → ℝ) k + (0 : Fin 3 → ℝ) k) = 0 := by funext k; simp
  have s : (0 : ℝ) < √(3 / 100) := Real.sqrt_pos.2 (by norm_num)
  have h1 : (tilt 60 (1 / 100) (1 / 10) (1 / 10)).skal ![1 / 10, 1 / 10, 0] ![1 / 10, 1 / 10, 0] = 3 / 100 := by
    rw [skal_tilt _ _ _ C20.cosd60 he]; norm_num
  have h2 : (tilt 120 (1 / 100) (1 / 10) (-(1 / 10))).skal ![1 / 10, -(1 / 10), 0] ![1 / 10, -(1 / 10), 0] = 3 / 100 := by
    rw [skal_tilt _ _ _ c120 he']; norm_num
  have t1 : ¬(1 / 100 : ℝ) * (1 / 2) < eps := by unfold eps; norm_num
  have t2 : (1 / 100 : ℝ) * (-1 / 2) < eps := by unfold eps; norm_num
  have k1 : (tilt 60 (1 / 100) (1 / 10) (1 / 10)).dskal ![1 / 10, 1 / 10, 0] ![1 / 10, 1 / 10, 0] 0 0 = 3 / 10000 := by
    rw [dskal_tilt C20.cosd60, if_neg t1, abs_of_pos (by norm_num), abs_of_pos (by norm_num)]; norm_num
  have k2 : (tilt 120 (1 / 100) (1 / 10) (-(1 / 10))).dskal ![1 / 10, -(1 / 10), 0] ![1 / 10, -(1 / 10), 0] 0 0 = 2 / 10000 := by
    rw [dskal_tilt c120, if_pos t2, abs_of_pos (by norm_num)]; norm_num
  have m1 : mkPair (tilt 60 (1 / 100) (1 / 10) (1 / 10)) (makeNearest (tilt 60 (1 / 100) (1 / 10) (1 / 10))
      (fun k => (![1 / 10, 1 / 10, 0] : Fin 3 → ℝ) k - (0 : Fin 3 → ℝ) k)) (fun k => (0 : Fin 3 → ℝ) k + (0 : Fin 3 → ℝ) k) 1 2 =
      ⟨√(3 / 100), 1 / 2 / √(3 / 100) * (3 / 10000), 1, 2⟩ := by
    unfold mkPair
    rw [e, z, h1, k1, if_pos s]
  have m2 : mkPair (tilt 120 (1 / 100) (1 / 10) (-(1 / 10))) (makeNearest (tilt 120 (1 / 100) (1 / 10) (-(1 / 10)))
      (fun k => (![1 / 10, -(1 / 10), 0] : Fin 3 → ℝ) k - (0 : Fin 3 → ℝ) k)) (fun k => (0 : Fin 3 → ℝ) k + (0 : Fin 3 → ℝ) k) 1 2 =
      ⟨√(3 / 100), 1 / 2 / √(3 / 100) * (2 / 10000), 1, 2⟩ := by
    unfold mkPair
    rw [e', z, h2, k2, if_pos s]
  have r : ∀ {a b : PairDist}, a = ⟨√(3 / 100), 1 / 2 / √(3 / 100) * (3 / 10000), 1, 2⟩ → b = ⟨√(3 / 100), 1 / 2 / √(3 / 100) * (2 / 10000), 1, 2⟩ →
      a.dij = b.dij ∧ a.ddij = 3 / 2 * b.ddij ∧ 0 < b.ddij := by
    rintro a b rfl rfl
    refine ⟨rfl, ?_, by positivity⟩
    dsimp only
    ring
  exact r m1 m2

/-! ## Examples -/

/-- The structure of C24 with its axes in another order and one of them reversed: the curve of all data sets is the same. -/
example (D : Data) (h : D.Ok) (s : Sel) (f f' : ℤ → ℝ) (hf : determine D [some (demo, s)] = .ok (some f))
    (hf' : determine D [some (Axes.phase ⟨Equiv.swap 0 1, ![1, -1, 1]⟩ demo, s)] = .ok (some f')) :
    ∀ i, D.ncmin ≤ i → i ≤ D.ncmax → f' i = f i :=
  (C90_curve_partial ⟨Equiv.swap 0 1, ![1, -1, 1]⟩ D h demo demo_fine demo_near s [] []).2 f f' hf hf'

/-- A bond length in a cell with right angles. -/
example : bondLengthAtoms (flip1.phs C20.ortho) 1 2 = bondLengthAtoms C20.ortho 1 2 := C90_length_partial flip1 _ C20.ortho90 1 2

/-- Reversing an axis of a cell with an angle of 60 degrees gives one of 120 degrees. -/
example : (flip1.cell ⟨![1, 2, 3], ![90, 90, 60]⟩).win 2 = 120 := by
  simp [Axes.cell, Axes.win, flip1]
  norm_num

end Pdffit.C90
