import Verif.Lemmas.Bonds

/-!
# C20: bond_length_atoms(i, j) is the shortest periodic distance

The full statement is `∀ p i j, Shortest …` for every valid pair. It is false:
* `not_shortest_ortho`: in an orthogonal cell `make_nearest` stops after `fmod`, so coordinates differing
  by 0.8 of a cell give 0.8 and not 0.2;
* `not_shortest_oblique`: in an oblique cell the shortest vector found so far is forgotten
  (`dsquare = mindsquare` has its sides exchanged).

Proved: the result is always the length of a vector to an image (so never too short), invalid indices
raise `ValueError`, and in an orthogonal cell the exact condition under which it is the shortest.
-/

namespace Pdffit.C20
open Geom Parser Bonds

/-- `x` is the distance between `ai` and an image of `aj`. -/
def IsImageDist (p : Phs) (ai aj : Atm) (x : ℝ) : Prop :=
  ∃ k : Fin 3 → ℤ, x = √(p.skal (fun i => ai.pos i - aj.pos i + k i * p.icc i) (fun i => ai.pos i - aj.pos i + k i * p.icc i))

/-- `x` is the smallest distance between `ai` and the images of `aj`. -/
def Shortest (p : Phs) (ai aj : Atm) (x : ℝ) : Prop :=
  IsImageDist p ai aj x ∧ ∀ y, IsImageDist p ai aj y → x ≤ y

/-- Indices outside `1..natoms` raise `ValueError`; all others give a result. -/
theorem valid (p : Phs) (i j : ℤ) :
    (bondLengthAtoms p i j = .err .value ↔ ¬ ((1 ≤ i ∧ i ≤ p.atom.length) ∧ 1 ≤ j ∧ j ≤ p.atom.length)) ∧
    ((1 ≤ i ∧ i ≤ p.atom.length) ∧ (1 ≤ j ∧ j ≤ p.atom.length) → ∃ d, bondLengthAtoms p i j = .ok d) := by
  unfold bondLengthAtoms
  split
  · rename_i h
    exact ⟨⟨fun _ => by omega, fun _ => rfl⟩, fun h' => by omega⟩
  · rename_i h
    obtain ⟨a, ha, -⟩ := at_valid p.atom i (by omega) (by omega)
    obtain ⟨b, hb, -⟩ := at_valid p.atom j (by omega) (by omega)
    rw [ha, hb]
    exact ⟨⟨fun e => by simp at e, fun e => by omega⟩, fun _ => ⟨_, rfl⟩⟩

/-- The result of the call in terms of the two atoms. -/
theorem result {p : Phs} {i j : ℤ} {d : PairDist} (h : bondLengthAtoms p i j = .ok d) :
    ∃ ai aj, p.atom[(i - 1).toNat]? = some ai ∧ p.atom[(j - 1).toNat]? = some aj ∧
      d = mkPair p (makeNearest p fun k => ai.pos k - aj.pos k) (fun k => ai.dpos k + aj.dpos k) i.toNat j.toNat := by
  have hv := (valid p i j).1
  have : (1 ≤ i ∧ i ≤ p.atom.length) ∧ 1 ≤ j ∧ j ≤ p.atom.length := by
    by_contra hc
    rw [hv.2 hc] at h
    simp at h
  obtain ⟨ai, hai, hai'⟩ := at_valid p.atom i (by omega) (by omega)
  obtain ⟨aj, haj, haj'⟩ := at_valid p.atom j (by omega) (by omega)
  unfold bondLengthAtoms at h
  rw [if_neg (by omega), hai, haj] at h
  simp only [Res.bind_ok, Res.ok.injEq] at h
  exact ⟨ai, aj, hai', haj', h.symm⟩

/-- The reported length belongs to an image. -/
theorem image (p : Phs) (hi : ∀ k, 0 < p.icc k) (i j : ℤ) (d : PairDist) (h : bondLengthAtoms p i j = .ok d) :
    ∃ ai aj, p.atom[(i - 1).toNat]? = some ai ∧ p.atom[(j - 1).toNat]? = some aj ∧ IsImageDist p ai aj d.dij ∧
      d.i = i.toNat ∧ d.j = j.toNat := by
  obtain ⟨ai, aj, h1, h2, rfl⟩ := result h
  refine ⟨ai, aj, h1, h2, ?_, rfl, rfl⟩
  obtain ⟨k, hk⟩ := makeNearest_equiv p hi fun k => ai.pos k - aj.pos k
  refine ⟨k, ?_⟩
  show √_ = _
  rw [funext hk]

/-- Metric of an orthogonal cell. -/
theorem skal_ortho (p : Phs) (h90 : ∀ i, p.cell.win i = 90) (x : Fin 3 → ℝ) : p.skal x x =
    (p.cell.a0 0 * x 0) ^ 2 + (p.cell.a0 1 * x 1) ^ 2 + (p.cell.a0 2 * x 2) ^ 2 := by
  have h : ∀ i j, p.gten i j = if i = j then p.cell.a0 i * p.cell.a0 j else 0 := by
    intro i j
    unfold Phs.gten tensor
    by_cases hij : i = j
    · simp [hij]
    · rw [if_pos hij, if_neg hij, h90, C45.cosd90, mul_zero, abs_zero, if_pos C45.eps_pos]
  unfold Phs.skal
  rw [skalpro_exp]
  simp only [h]
  simp
  ring

/-- In one dimension a vector of at most half the period is the shortest. -/
theorem half_shortest {x n : ℝ} (hn : 0 < n) (hx : |x| ≤ n / 2) (k : ℤ) : x ^ 2 ≤ (x + k * n) ^ 2 := by
  rw [sq_le_sq]
  rcases eq_or_ne k 0 with rfl | hk
  · simp
  · have h1 : (1 : ℝ) ≤ |(k : ℝ)| := by
      have := Int.one_le_abs hk
      exact_mod_cast this
    have h2 : |(k : ℝ) * n| ≤ |x + k * n| + |x| := by
      have := abs_sub (x + k * n) x
      simpa using this
    rw [abs_mul, abs_of_pos hn] at h2
    nlinarith

/-- Beyond half the period one of the neighbours is shorter. -/
theorem beyond_half {x n : ℝ} (hn : 0 < n) (hx : n / 2 < |x|) : ∃ k : ℤ, (x + k * n) ^ 2 < x ^ 2 := by
  rcases lt_or_ge x 0 with h | h
  · rw [abs_of_neg h] at hx
    exact ⟨1, by push_cast; nlinarith⟩
  · rw [abs_of_nonneg h] at hx
    exact ⟨-1, by push_cast; nlinarith⟩

/-- Partial result: in an orthogonal cell the reported length is the shortest one exactly when every
coordinate difference, reduced by `fmod`, is at most half the supercell. Missing: the other cases, in which the
claim is false (below), and oblique cells. -/
theorem ortho_partial (p : Phs) (hi : ∀ k, 0 < p.icc k) (ha : ∀ k, p.cell.a0 k ≠ 0) (h90 : ∀ k, p.cell.win k = 90)
    (i j : ℤ) (d : PairDist) (h : bondLengthAtoms p i j = .ok d) (ai aj : Atm)
    (hai : p.atom[(i - 1).toNat]? = some ai) (haj : p.atom[(j - 1).toNat]? = some aj) :
    Shortest p ai aj d.dij ↔ ∀ k, |fmodK (ai.pos k - aj.pos k) (p.icc k : ℝ)| ≤ p.icc k / 2 := by
  obtain ⟨ai', aj', h1, h2, h3, -⟩ := image p hi i j d h
  obtain ⟨ai'', aj'', h1', h2', e⟩ := result h
  rw [hai] at h1 h1'
  rw [haj] at h2 h2'
  cases h1; cases h2; cases h1'; cases h2'
  have hmn : makeNearest p (fun k => ai.pos k - aj.pos k) = wrap p.icc fun k => ai.pos k - aj.pos k := by
    unfold makeNearest
    rw [if_pos (Or.inr h90)]
  rw [hmn] at e
  obtain ⟨k0, hk0⟩ := wrap_equiv hi fun k => ai.pos k - aj.pos k
  set w := wrap p.icc fun k => ai.pos k - aj.pos k with hw
  have hd : d.dij = √(p.skal w w) := by rw [e]; rfl
  have hn : ∀ k, (0 : ℝ) < p.icc k := fun k => by exact_mod_cast hi k
  -- images of `w` are images of the difference
  have himg : ∀ k : Fin 3 → ℤ, IsImageDist p ai aj (√(p.skal (fun i => w i + k i * p.icc i) fun i => w i + k i * p.icc i)) := by
    intro k
    refine ⟨k0 + k, ?_⟩
    have : (fun i => w i + (k i : ℝ) * p.icc i) = fun i => ai.pos i - aj.pos i + ((k0 + k) i : ℤ) * p.icc i := by
      funext i
      rw [hk0, Pi.add_apply]
      push_cast
      ring
    rw [this]
  have himg' : ∀ y, IsImageDist p ai aj y → ∃ k : Fin 3 → ℤ,
      y = √(p.skal (fun i => w i + k i * p.icc i) fun i => w i + k i * p.icc i) := by
    rintro y ⟨k, rfl⟩
    refine ⟨k - k0, ?_⟩
    have : (fun i => ai.pos i - aj.pos i + (k i : ℝ) * p.icc i) = fun i => w i + ((k - k0) i : ℤ) * p.icc i := by
      funext i
      rw [hk0, Pi.sub_apply]
      push_cast
      ring
    rw [this]
  constructor
  · rintro ⟨-, hs⟩ i
    by_contra hc
    rw [not_le] at hc
    have hc' : (p.icc i : ℝ) / 2 < |w i| := hc
    obtain ⟨k, hk⟩ := beyond_half (hn i) hc'
    have := hs _ (himg (Function.update 0 i k))
    rw [hd, Real.sqrt_le_sqrt_iff (by rw [skal_ortho p h90]; positivity), skal_ortho p h90, skal_ortho p h90] at this
    have hai : 0 < p.cell.a0 i ^ 2 := by have := ha i; positivity
    have hlt : (p.cell.a0 i * (w i + k * p.icc i)) ^ 2 < (p.cell.a0 i * w i) ^ 2 := by
      rw [mul_pow, mul_pow]
      exact mul_lt_mul_of_pos_left hk hai
    fin_cases i <;> simp [Function.update] at this hlt <;> linarith
  · intro hk
    refine ⟨h3, fun y hy => ?_⟩
    obtain ⟨k, rfl⟩ := himg' y hy
    rw [hd]
    apply Real.sqrt_le_sqrt
    rw [skal_ortho p h90, skal_ortho p h90]
    simp only [mul_pow]
    have := fun i => mul_le_mul_of_nonneg_left (half_shortest (hn i) (hk i) (k i)) (sq_nonneg (p.cell.a0 i))
    have h0 := this 0
    have h1 := this 1
    have h2 := this 2
    simp only [hw] at *
    exact add_le_add (add_le_add h0 h1) h2

/-! ### Violations -/

/-- Two atoms of a cubic cell. -/
noncomputable def ortho : Phs where
  cell := ⟨![1, 1, 1], ![90, 90, 90]⟩
  dcell := ⟨0, 0⟩
  icc := fun _ => 1
  atom := [⟨![4 / 5, 0, 0], 0, 0⟩, ⟨0, 0, 0⟩]

theorem ortho90 : ∀ k, ortho.cell.win k = 90 := by intro k; fin_cases k <;> rfl

/-- The coordinates differ by 0.8 of the cubic cell; 0.8 is reported although an image is at 0.2. -/
theorem not_shortest_ortho : ∃ d, bondLengthAtoms ortho 1 2 = .ok d ∧ d.dij = 4 / 5 ∧
    IsImageDist ortho ⟨![4 / 5, 0, 0], 0, 0⟩ ⟨0, 0, 0⟩ (1 / 5) := by
  refine ⟨_, rfl, ?_, ?_⟩
  · have hs : ∀ k : Fin 3, fmodK ((![4 / 5, 0, 0] : Fin 3 → ℝ) k - (0 : Fin 3 → ℝ) k) ((fun _ => 1 : Fin 3 → ℕ) k : ℝ) =
        (![4 / 5, 0, 0] : Fin 3 → ℝ) k := by
      intro k
      rw [fmodK_small (by simp) (by fin_cases k <;> simp [abs_of_pos] <;> norm_num)]
      simp
    show √(ortho.skal (makeNearest ortho _) (makeNearest ortho _)) = 4 / 5
    have hmn : makeNearest ortho (fun k => (![4 / 5, 0, 0] : Fin 3 → ℝ) k - (0 : Fin 3 → ℝ) k) = ![4 / 5, 0, 0] := by
      unfold makeNearest
      rw [if_pos (Or.inr ortho90)]
      funext k
      exact hs k
    rw [hmn, skal_ortho _ ortho90, Real.sqrt_eq_iff_mul_self_eq (by positivity) (by norm_num)]
    simp [ortho]
    norm_num
  · refine ⟨![-1, 0, 0], ?_⟩
    symm
    rw [skal_ortho _ ortho90, Real.sqrt_eq_iff_mul_self_eq (by positivity) (by norm_num)]
    simp [ortho]
    norm_num

/-- Two atoms of a cell with edges 1 and angle gamma of 60 degrees. -/
noncomputable def oblique (x y : ℝ) : Phs where
  cell := ⟨![1, 1, 1], ![90, 90, 60]⟩
  dcell := ⟨0, 0⟩
  icc := fun _ => 1
  atom := [⟨![x, y, 0], 0, 0⟩, ⟨0, 0, 0⟩]

theorem cosd60 : bcosd 60 = 1 / 2 := by
  unfold bcosd rad
  rw [show Real.pi / 180 * 60 = Real.pi / 3 by ring, Real.cos_pi_div_three]

theorem skal_oblique (u v : ℝ) (x : Fin 3 → ℝ) :
    (oblique u v).skal x x = x 0 ^ 2 + x 1 ^ 2 + x 2 ^ 2 + x 0 * x 1 := by
  have e : ¬ |(1 : ℝ) / 2| < eps := by unfold eps; rw [abs_of_pos (by norm_num)]; norm_num
  have h00 : (oblique u v).gten 0 0 = 1 := by simp [Phs.gten, tensor, oblique]
  have h11 : (oblique u v).gten 1 1 = 1 := by simp [Phs.gten, tensor, oblique]
  have h22 : (oblique u v).gten 2 2 = 1 := by simp [Phs.gten, tensor, oblique]
  have h01 : (oblique u v).gten 0 1 = 1 / 2 := by
    unfold Phs.gten tensor
    rw [if_pos (by decide), C45.t01]
    simp only [oblique, Matrix.cons_val, cosd60, mul_one, one_mul]
    rw [if_neg e]
  have h02 : (oblique u v).gten 0 2 = 0 := by
    unfold Phs.gten tensor
    rw [if_pos (by decide), C45.t02]
    simp [oblique, C45.cosd90]
  have h12 : (oblique u v).gten 1 2 = 0 := by
    unfold Phs.gten tensor
    rw [if_pos (by decide), C45.t12]
    simp [oblique, C45.cosd90]
  have s := (oblique u v).gten_symm
  unfold Phs.skal
  rw [skalpro_exp, s 1 0, s 2 0, s 2 1, h00, h11, h22, h01, h02, h12]
  ring

theorem skal_plane (u v x y : ℝ) : (oblique u v).skal ![x, y, 0] ![x, y, 0] = x ^ 2 + y ^ 2 + x * y := by
  rw [skal_oblique]; simp

/-- The bond vector in the oblique cell, for coordinates in the octant. -/
theorem near_oblique (x y u v : ℝ) (hx : -1 < x ∧ x < 0) (hy : -1 < y ∧ y < 0) :
    search (oblique u v) ![x, y, 0] = ((([![x, y, 0], ![x, y + 1, 0], ![x + 1, y, 0], ![x + 1, y + 1, 0]] :
      List (Fin 3 → ℝ)).filter fun t => (oblique u v).skal t t < (oblique u v).skal ![x, y, 0] ![x, y, 0]).getLast?).getD
      ![x, y, 0] := by
  rw [search_eq]
  congr 3
  have e0 : loopVals x 1 = [x, x + 1] := by
    rw [loopVals_eq (by push_cast; linarith) (by linarith), if_pos hx.2]; push_cast; rfl
  have e1 : loopVals y 1 = [y, y + 1] := by
    rw [loopVals_eq (by push_cast; linarith) (by linarith), if_pos hy.2]; push_cast; rfl
  have e2 : loopVals (0 : ℝ) 1 = [0] := by
    rw [loopVals_eq (by push_cast; norm_num) le_rfl, if_neg (lt_irrefl _)]
  simp [tests, oblique, e0, e1, e2]

theorem win60 (u v : ℝ) : ¬ ∀ i, (oblique u v).cell.win i = 90 := by
  intro h
  have := h 2
  simp [oblique] at this

/-- `fmod` leaves small coordinates unchanged. -/
theorem wrap_small (x y : ℝ) (hx : |x| < 1) (hy : |y| < 1) : wrap (fun _ => 1) ![x, y, 0] = ![x, y, 0] := by
  funext k
  unfold wrap
  rw [fmodK_small (by simp)]
  fin_cases k <;> simp [hx, hy]

/-- Distance from (0.3, 0.4) to the origin: the vector (0.3, 0.4) of length √0.37 is reported, but the image
vector (0.3, -0.6) has length √0.27. -/
theorem not_shortest_oblique : ∃ d, bondLengthAtoms (oblique (3 / 10) (4 / 10)) 1 2 = .ok d ∧ d.dij = √(37 / 100) ∧
    IsImageDist (oblique (3 / 10) (4 / 10)) ⟨![3 / 10, 4 / 10, 0], 0, 0⟩ ⟨0, 0, 0⟩ √(27 / 100) := by
  refine ⟨_, rfl, ?_, ?_⟩
  · show √((oblique _ _).skal (makeNearest _ _) (makeNearest _ _)) = _
    have hmn : makeNearest (oblique (3 / 10) (4 / 10)) (fun k => (![3 / 10, 4 / 10, 0] : Fin 3 → ℝ) k - (0 : Fin 3 → ℝ) k) =
        ![3 / 10, 4 / 10, 0] := by
      have e : (fun k => (![3 / 10, 4 / 10, 0] : Fin 3 → ℝ) k - (0 : Fin 3 → ℝ) k) = ![3 / 10, 4 / 10, 0] := by
        funext k; simp
      have ew : wrap (oblique (3 / 10) (4 / 10)).icc ![3 / 10, 4 / 10, 0] = ![3 / 10, 4 / 10, 0] :=
        wrap_small _ _ (by rw [abs_of_pos] <;> norm_num) (by rw [abs_of_pos] <;> norm_num)
      have eo : octant (oblique (3 / 10) (4 / 10)).icc ![3 / 10, 4 / 10, 0] = ![-7 / 10, -6 / 10, 0] := by
        funext k
        fin_cases k <;> simp [octant, oblique] <;> norm_num
      rw [e]
      unfold makeNearest
      rw [ew, if_neg, eo, near_oblique _ _ _ _ (by norm_num) (by norm_num)]
      · norm_num [List.filter, skal_plane]
      · rintro (h | h)
        · have := h 0; norm_num at this
        · exact win60 _ _ h
    rw [hmn, skal_plane]
    congr 1
    norm_num
  · refine ⟨![0, -1, 0], ?_⟩
    rw [skal_oblique]
    congr 1
    simp [show ∀ u v k, (oblique u v).icc k = 1 from fun _ _ _ => rfl]
    norm_num

/-- A case in which the condition of `ortho_partial` holds. -/
example : ∃ d, bondLengthAtoms { ortho with atom := [⟨![1 / 4, 0, 0], 0, 0⟩, ⟨0, 0, 0⟩] } 1 2 = .ok d ∧
    Shortest { ortho with atom := [⟨![1 / 4, 0, 0], 0, 0⟩, ⟨0, 0, 0⟩] } ⟨![1 / 4, 0, 0], 0, 0⟩ ⟨0, 0, 0⟩ d.dij := by
  refine ⟨_, rfl, ?_⟩
  rw [ortho_partial { ortho with atom := [⟨![1 / 4, 0, 0], 0, 0⟩, ⟨0, 0, 0⟩] } (fun _ => Nat.one_pos)
    (fun k => by fin_cases k <;> simp [ortho]) ortho90 1 2 _ rfl ⟨![1 / 4, 0, 0], 0, 0⟩ ⟨0, 0, 0⟩ rfl rfl]
  intro k
  show |fmodK _ ((1 : ℕ) : ℝ)| ≤ ((1 : ℕ) : ℝ) / 2
  rw [fmodK_small (by simp)] <;> fin_cases k <;> simp <;> norm_num

end Pdffit.C20
