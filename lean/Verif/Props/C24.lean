import Verif.Lemmas.DetSum
import Verif.Props.C19

/-!
# C24: the half loop over atom pairs equals the full double sum

`full_partial`: the array `ppp` after the loops is, at every grid point, the sum over all ordered pairs of selected atoms and over all
lattice translations in the sphere `|T| < rsphmax`, of the amplitude times the Gaussian. `all_partial`: without step cut the sum is
over all translations of the lattice. `order_partial`: the calculated curve does not depend on the order of the atoms.

The hypothesis `Near` — position differences shorter than `circum_diameter()` — is needed: `circum_diameter` is that
of the unit cell, while the positions in a structure of several cells differ by up to the size of the supercell (C19).
-/

namespace Pdffit.C24
open Det Bonds Geom

/-- Differences of positions are shorter than `circum_diameter()`. It holds when coordinates differ by at most one. -/
def Near (ph : PPhase) : Prop := ∀ i j, i < ph.atom.length → j < ph.atom.length →
  √(ph.toPhs.skal (fun k => (ph.atm i).pos k - (ph.atm j).pos k) fun k => (ph.atm i).pos k - (ph.atm j).pos k) <
    circumDiameter ph.toPhs

theorem near_of (ph : PPhase) (F : C19.Fine ph.toPhs)
    (h : ∀ i j, i < ph.atom.length → j < ph.atom.length → ∀ k, |(ph.atm i).pos k - (ph.atm j).pos k| ≤ 1) : Near ph := by
  intro i j hi hj
  refine C19.diag_bound _ F ?_ _ (h i j hi hj)
  intro e
  have : ph.toPhs.atom.length = ph.atom.length := by simp [PPhase.toPhs]
  rw [e] at this
  simp at this
  omega

/-- What one ordered pair and one translation contribute: the Gaussian between the limits `ib` and `ie`. -/
noncomputable def term (D : Data) (ph : PPhase) (a b : PAtom) (amp : ℝ) (T : ℤ × ℤ × ℤ) (ig : ℤ) : ℝ :=
  match event D ph a b T with
  | .peak dist sig => if ib D dist sig ≤ ig ∧ ig ≤ ie D ph dist sig then amp * gaus D dist sig ig else 0
  | _ => 0

/-- Length of a translation. -/
noncomputable def tlen (ph : PPhase) (T : ℤ × ℤ × ℤ) : ℝ :=
  √(ph.toPhs.skal (C19.tvec ph.toPhs T) (C19.tvec ph.toPhs T))

/-- The translations of the sphere used by the program. -/
def ball (D : Data) (ph : PPhase) : Set (ℤ × ℤ × ℤ) := {T | tlen ph T < (sphere D ph).rmax}

theorem dd_neg (ph : PPhase) (a b : PAtom) (T : ℤ × ℤ × ℤ) : dd ph b a (-T) = -dd ph a b T := by
  funext k
  unfold dd
  simp only [Pi.neg_apply]
  fin_cases k <;> simp <;> ring

theorem msd_neg (ph : PPhase) (a b : PAtom) (v : Fin 3 → ℝ) : ph.msd b a (-v) = ph.msd a b v := by
  unfold PPhase.msd
  have e : ph.toPhs.skal (-v) (-v) = ph.toPhs.skal v v := skalpro_neg _ v
  dsimp only
  rw [e]
  have r : ∀ i : Fin 3, ∑ j, ph.toPhs.gten i j * ((-v) j / √(ph.toPhs.skal v v)) =
      -∑ j, ph.toPhs.gten i j * (v j / √(ph.toPhs.skal v v)) := by
    intro i
    rw [← Finset.sum_neg_distrib]
    apply Finset.sum_congr rfl
    intro j _
    simp only [Pi.neg_apply]
    ring
  simp only [r]
  ring

theorem event_neg (D : Data) (ph : PPhase) (a b : PAtom) (T : ℤ × ℤ × ℤ) : event D ph b a (-T) = event D ph a b T := by
  unfold event
  dsimp only
  rw [dd_neg, msd_neg]
  have e : ph.toPhs.skal (-dd ph a b T) (-dd ph a b T) = ph.toPhs.skal (dd ph a b T) (dd ph a b T) := skalpro_neg _ _
  rw [e]

theorem term_neg (D : Data) (ph : PPhase) (a b : PAtom) (amp : ℝ) (T : ℤ × ℤ × ℤ) (ig : ℤ) :
    term D ph b a amp (-T) ig = term D ph a b amp T ig := by
  unfold term
  rw [event_neg]

theorem tlen_neg (ph : PPhase) (T : ℤ × ℤ × ℤ) : tlen ph (-T) = tlen ph T := by
  unfold tlen
  have : C19.tvec ph.toPhs (-T) = -C19.tvec ph.toPhs T := by
    funext k
    unfold C19.tvec
    fin_cases k <;> simp
  rw [this]
  have e : ph.toPhs.skal (-C19.tvec ph.toPhs T) (-C19.tvec ph.toPhs T) = _ := skalpro_neg _ _
  rw [e]
  rfl

theorem skip_symm (s : Sel) (i j : ℕ) : skip s j i = skip s i j := by
  unfold skip
  exact Bool.and_comm _ _

/-- An event other than `skip` is within the distance limits. -/
theorem event_range {D : Data} {ph : PPhase} {a b : PAtom} {T : ℤ × ℤ × ℤ} (h : event D ph a b T ≠ .skip) :
    D.rmin2 ≤ ph.toPhs.skal (dd ph a b T) (dd ph a b T) ∧ ph.toPhs.skal (dd ph a b T) (dd ph a b T) ≤ D.rmax2 := by
  unfold event at h
  dsimp only at h
  split at h
  · simp at h
  · rename_i hc
    rw [not_or, not_lt, not_lt] at hc
    exact hc

section
variable {D : Data} {ph : PPhase} (F : C19.Fine ph.toPhs) (N : Near ph)

theorem sphere_lat (lb ub : ℝ) : (sphere D ph).lat = (sph ph.toPhs lb ub).lat := rfl

include F in
theorem good : C18.Good (sphere D ph).lat := C19.good F 0 0

include F in
theorem len2 (T : ℤ × ℤ × ℤ) : C18.len2 (sphere D ph).lat T = tlen ph T ^ 2 := by
  rw [sphere_lat 0 0, C19.len2_tvec F]
  exact (Real.sq_sqrt (C19.nonneg F _)).symm

include N in
theorem circum_pos {i : ℕ} (hi : i < ph.atom.length) : 0 < circumDiameter ph.toPhs :=
  lt_of_le_of_lt (Real.sqrt_nonneg _) (N i i hi hi)

include N in
theorem rmax_pos {i : ℕ} (hi : i < ph.atom.length) : 0 < (sphere D ph).rmax := by
  have c := circum_pos N hi
  have s := Real.sqrt_nonneg D.rmax2
  unfold sphere
  dsimp only
  split
  · exact lt_min (by linarith) (by linarith)
  · linarith

include F in
/-- Both triangle inequalities. -/
theorem tri (i j : ℕ) (T : ℤ × ℤ × ℤ) :
    tlen ph T ≤ √(ph.toPhs.skal (fun k => (ph.atm i).pos k - (ph.atm j).pos k) fun k => (ph.atm i).pos k - (ph.atm j).pos k) +
      √(ph.toPhs.skal (dd ph (ph.atm i) (ph.atm j) T) (dd ph (ph.atm i) (ph.atm j) T)) ∧
    √(ph.toPhs.skal (dd ph (ph.atm i) (ph.atm j) T) (dd ph (ph.atm i) (ph.atm j) T)) ≤
      √(ph.toPhs.skal (fun k => (ph.atm i).pos k - (ph.atm j).pos k) fun k => (ph.atm i).pos k - (ph.atm j).pos k) +
        tlen ph T := by
  set v : Fin 3 → ℝ := fun k => (ph.atm i).pos k - (ph.atm j).pos k with hv
  set d := dd ph (ph.atm i) (ph.atm j) T with hd
  set t := C19.tvec ph.toPhs T with ht
  have hg := ph.toPhs.gten_symm
  have hp := C19.nonneg F
  have e1 : d + t = v := by
    funext k
    simp only [hd, ht, hv, dd, C19.tvec, Pi.add_apply]
    show _ - _ * (ph.icc k : ℝ) + _ * (ph.icc k : ℝ) = _
    ring
  constructor
  · have e2 : t = v + -d := by rw [← e1]; funext k; simp
    have := triangle _ hg hp v (-d)
    rw [skalpro_neg, ← e2] at this
    exact this
  · have e3 : d = v + -t := by rw [← e1]; funext k; simp
    have := triangle _ hg hp v (-t)
    rw [skalpro_neg, ← e3] at this
    exact this

include F N in
/-- Visited points are in the ball, and a point of the ball with an effect is visited. -/
theorem points_iff {i j : ℕ} (hi : i < ph.atom.length) (hj : j < ph.atom.length) (T : ℤ × ℤ × ℤ)
    (he : event D ph (ph.atm i) (ph.atm j) T ≠ .skip) : T ∈ Sphere.points (sphere D ph) ↔ T ∈ ball D ph := by
  have hm := (rmax_pos (D := D) N hi).le
  have g := good (D := D) F
  have hl := len2 (D := D) F T
  have iff2 : C18.len2 (sphere D ph).lat T < (sphere D ph).rmax ^ 2 ↔ T ∈ ball D ph := by
    rw [hl]
    exact pow_lt_pow_iff_left₀ (Real.sqrt_nonneg _) hm two_ne_zero
  by_cases hr : (sphere D ph).rmin ≤ 0
  · rw [C18.no_rmin _ g hr hm, iff2]
  · have hr := not_le.1 hr
    have hcp := C18.complete _ g hr.le hm
    constructor
    · intro h; exact iff2.1 (hcp.2.2 T h)
    · intro h
      refine hcp.2.1 T ?_ (iff2.2 h)
      rw [hl]
      refine pow_le_pow_left₀ hr.le ?_ 2
      have h1 := (tri F i j T).2
      have h2 := N i j hi hj
      have h3 := Real.sqrt_le_sqrt (event_range he).1
      show √D.rmin2 - circumDiameter ph.toPhs ≤ _
      linarith

include F N in
/-- The loop over the points for one pair. -/
theorem pair_sum {i j : ℕ} (hi : i < ph.atom.length) (hj : j < ph.atom.length) (amp : ℝ) (ig : ℤ) :
    ((Sphere.points (sphere D ph)).map fun T => term D ph (ph.atm i) (ph.atm j) amp T ig).sum =
      ∑ᶠ T ∈ ball D ph, term D ph (ph.atm i) (ph.atm j) amp T ig := by
  have nd : (Sphere.points (sphere D ph)).Nodup := C18.nodup_points (good F)
  rw [finsum_mem_eq_sum_of_inter_support_eq (t := (Sphere.points (sphere D ph)).toFinset), List.sum_toFinset _ nd]
  ext T
  simp only [Set.mem_inter_iff, Function.mem_support, List.coe_toFinset, Set.mem_setOf_eq]
  constructor
  all_goals
    rintro ⟨h1, h2⟩
    refine ⟨?_, h2⟩
    have he : event D ph (ph.atm i) (ph.atm j) T ≠ .skip := by
      intro h0
      apply h2
      unfold term
      rw [h0]
    first
    | exact (points_iff F N hi hj T he).2 h1
    | exact (points_iff F N hi hj T he).1 h1

end

theorem finsum_neg (s : Set (ℤ × ℤ × ℤ)) (hs : ∀ T, -T ∈ s ↔ T ∈ s) (f g : ℤ × ℤ × ℤ → ℝ) (h : ∀ T, g (-T) = f T) :
    ∑ᶠ T ∈ s, g T = ∑ᶠ T ∈ s, f T := by
  classical
  refine (finsum_eq_of_bijective (fun T : ℤ × ℤ × ℤ => -T) neg_involutive.bijective fun T => ?_).symm
  by_cases hT : T ∈ s
  · rw [finsum_eq_if, finsum_eq_if, if_pos hT, if_pos ((hs T).2 hT), h]
  · rw [finsum_eq_if, finsum_eq_if, if_neg hT, if_neg fun h' => hT ((hs T).1 h')]

theorem nodup_halfPairs (n : ℕ) : (halfPairs n).Nodup := by
  unfold halfPairs
  rw [List.nodup_flatMap]
  refine ⟨fun i _ => List.Nodup.map (fun a b h => (Prod.mk.inj h).2) (List.nodup_range'), ?_⟩
  refine List.nodup_range.imp fun {a b} hab => ?_
  intro x h1 h2
  rw [List.mem_map] at h1 h2
  obtain ⟨_, _, rfl⟩ := h1
  obtain ⟨_, _, h⟩ := h2
  exact hab (Prod.mk.inj h).1.symm

/-- Sum over the half loop. -/
theorem half_sum (n : ℕ) (f : ℕ → ℕ → ℝ) (hf : ∀ i j, i < n → j < n → f j i = f i j) :
    ((halfPairs n).map fun x => half x.1 x.2 * f x.1 x.2).sum = ∑ i ∈ Finset.range n, ∑ j ∈ Finset.range n, f i j := by
  have e1 : ((halfPairs n).map fun x => half x.1 x.2 * f x.1 x.2).sum =
      ∑ x ∈ (Finset.range n ×ˢ Finset.range n).filter (fun x => x.1 ≤ x.2), half x.1 x.2 * f x.1 x.2 := by
    rw [← List.sum_toFinset _ (nodup_halfPairs n)]
    apply Finset.sum_congr _ fun _ _ => rfl
    ext x
    rw [List.mem_toFinset, mem_halfPairs]
    simp only [Finset.mem_filter, Finset.mem_product, Finset.mem_range]
    omega
  have e2 : ∀ x : ℕ × ℕ, (if x.1 ≤ x.2 then half x.1 x.2 * f x.1 x.2 else 0) =
      (if x.1 ≤ x.2 then f x.1 x.2 else 0) + if x.1 < x.2 then f x.1 x.2 else 0 := by
    intro x
    unfold half
    rcases lt_trichotomy x.1 x.2 with h | h | h
    · rw [if_pos h.le, if_pos h.le, if_pos h, if_neg h.ne]; ring
    · rw [if_pos h.le, if_pos h, if_pos h.le, if_neg h.not_lt]; ring
    · rw [if_neg (by omega), if_neg (by omega), if_neg (by omega)]; ring
  rw [e1, Finset.sum_filter, Finset.sum_congr rfl fun x _ => e2 x, Finset.sum_add_distrib, Finset.sum_product,
    Finset.sum_product, Finset.sum_comm (s := Finset.range n) (t := Finset.range n)
      (f := fun i j => if i < j then f i j else 0), ← Finset.sum_add_distrib]
  apply Finset.sum_congr rfl
  intro i hi
  rw [← Finset.sum_add_distrib]
  apply Finset.sum_congr rfl
  intro j hj
  rw [Finset.mem_range] at hi hj
  rcases lt_or_ge j i with h | h
  · rw [if_neg (by omega), if_pos h, zero_add, hf i j hi hj]
  · rw [if_pos h, if_neg (by omega), add_zero]

theorem height_term (D : Data) (ph : PPhase) (i j : ℕ) (T : ℤ × ℤ × ℤ) (ig : ℤ) :
    height D ph i j (eventOf D ph ((i, j), T)) ig = half i j * term D ph (ph.atm i) (ph.atm j) (ampl ph i j) T ig := by
  unfold term eventOf height
  dsimp only
  cases event D ph (ph.atm i) (ph.atm j) T with
  | skip => simp
  | nan => simp
  | peak d g =>
    dsimp only
    split
    · ring
    · ring

/-- The sum over the translations of the sphere for an ordered pair, with the product of occupancies and weights as
amplitude. -/
noncomputable def S (D : Data) (ph : PPhase) (i j : ℕ) (ig : ℤ) : ℝ :=
  ∑ᶠ T ∈ ball D ph, term D ph (ph.atm i) (ph.atm j)
    ((ph.atm i).occ * ph.weight i * ((ph.atm j).occ * ph.weight j)) T ig

theorem S_symm (D : Data) (ph : PPhase) (i j : ℕ) (ig : ℤ) : S D ph j i ig = S D ph i j ig := by
  unfold S
  refine finsum_neg _ (fun T => ?_) _ _ fun T => ?_
  · unfold ball
    show tlen ph (-T) < _ ↔ tlen ph T < _
    rw [tlen_neg]
  · rw [term_neg]
    congr 1
    ring

theorem pairSum_full {D : Data} {ph : PPhase} (F : C19.Fine ph.toPhs) (N : Near ph) (s : Sel) (ig : ℤ) :
    pairSum D ph s ig = ∑ i ∈ Finset.range ph.atom.length, ∑ j ∈ Finset.range ph.atom.length,
      if skip s i j = false then S D ph i j ig else 0 := by
  rw [pairSum_eq, ← half_sum ph.atom.length (fun i j => if skip s i j = false then S D ph i j ig else 0)]
  · congr 1
    apply List.map_congr_left
    intro x hx
    rw [mem_halfPairs] at hx
    by_cases h : skip s x.1 x.2 = false
    · rw [if_pos (by simpa using h), if_pos h]
      unfold pairTerm S
      simp only [height_term]
      rw [List.sum_map_mul_left, pair_sum F N (by omega) (by omega)]
      unfold ampl
      rw [← mul_assoc ((ph.atm x.1).occ * ph.weight x.1)]
    · rw [if_neg (by simpa using h), if_neg h, mul_zero]
  · intro i j _ _
    rw [skip_symm, S_symm]

/-- The pairs that are summed: `(i,j)` or `(j,i)` is a selected pair. -/
def Selected (s : Sel) (i j : ℕ) : Prop := (s.igI i = false ∧ s.igJ j = false) ∨ (s.igI j = false ∧ s.igJ i = false)

theorem selected_iff (s : Sel) (i j : ℕ) : skip s i j = false ↔ Selected s i j := by
  unfold skip Selected
  cases s.igI i <;> cases s.igI j <;> cases s.igJ i <;> cases s.igJ j <;> simp

open Classical in
/-- After the loops, which end without an access outside the array, `ppp[ig]` is the sum over all ordered pairs of
selected atoms and all translations in the sphere. -/
theorem full_partial (D : Data) (h : D.Ok) (ph : PPhase) (F : C19.Fine ph.toPhs) (N : Near ph) (s : Sel) :
    ∃ p, ppp D ph s = .ok p ∧ ∀ ig : ℤ, 0 ≤ ig → ig ≤ D.ncmax → p.getD ig.toNat 0 =
      ∑ i ∈ Finset.range ph.atom.length, ∑ j ∈ Finset.range ph.atom.length,
        if Selected s i j then ∑ᶠ T ∈ ball D ph, term D ph (ph.atm i) (ph.atm j)
          ((ph.atm i).occ * ph.weight i * ((ph.atm j).occ * ph.weight j)) T ig else 0 := by
  obtain ⟨p, h1, -, h3⟩ := ppp_spec h ph s
  refine ⟨p, h1, fun ig h0 hi => ?_⟩
  rw [h3 ig h0 hi, pairSum_full F N]
  simp only [selected_iff]
  rfl

open Classical in
/-- Without step cut the sum is over all translations of the lattice. -/
theorem all_partial (D : Data) (h : D.Ok) (ph : PPhase) (F : C19.Fine ph.toPhs) (N : Near ph) (hs : ph.stepcut ≤ 0) (s : Sel) :
    ∃ p, ppp D ph s = .ok p ∧ ∀ ig : ℤ, 0 ≤ ig → ig ≤ D.ncmax → p.getD ig.toNat 0 =
      ∑ i ∈ Finset.range ph.atom.length, ∑ j ∈ Finset.range ph.atom.length,
        if Selected s i j then ∑ᶠ T, term D ph (ph.atm i) (ph.atm j)
          ((ph.atm i).occ * ph.weight i * ((ph.atm j).occ * ph.weight j)) T ig else 0 := by
  obtain ⟨p, h1, h2⟩ := full_partial D h ph F N s
  refine ⟨p, h1, fun ig h0 hi => ?_⟩
  rw [h2 ig h0 hi]
  apply Finset.sum_congr rfl
  intro i hi
  apply Finset.sum_congr rfl
  intro j hj
  rw [Finset.mem_range] at hi hj
  congr 1
  apply finsum_congr
  intro T
  rw [finsum_eq_if]
  split
  · rfl
  · rename_i hT
    by_contra hne
    apply hT
    have he : event D ph (ph.atm i) (ph.atm j) T ≠ .skip := by
      intro h0
      apply hne
      unfold term
      rw [h0]
    have h3 := Real.sqrt_le_sqrt (event_range he).2
    have h4 := (tri F i j T).1
    have h5 := N i j hi hj
    show tlen ph T < (if 0 < ph.stepcut then _ else _)
    rw [if_neg (not_lt.2 hs)]
    linarith

/-! ## Order of the atoms -/

/-- `ph'` is `ph` with the atoms in another order. -/
structure Reorder (ph ph' : PPhase) (s s' : Sel) (σ : Equiv.Perm ℕ) : Prop where
  len : ph'.atom.length = ph.atom.length
  rest : ph' = { ph with atom := ph'.atom }
  perm : ∀ i, σ i < ph.atom.length ↔ i < ph.atom.length
  atm : ∀ i, i < ph.atom.length → ph'.atm i = ph.atm (σ i)
  igI : ∀ i, s'.igI i = s.igI (σ i)
  igJ : ∀ i, s'.igJ i = s.igJ (σ i)

theorem sum_atoms (ph : PPhase) (f : PAtom → ℝ) : (ph.atom.map f).sum = ∑ i ∈ Finset.range ph.atom.length, f (ph.atm i) := by
  unfold PPhase.atm
  generalize ph.atom = l
  induction l with
  | nil => rfl
  | cons a l ih =>
    rw [List.map_cons, List.sum_cons, ih, List.length_cons, Finset.sum_range_succ', add_comm]
    rfl

theorem nan_iff {D : Data} {ph : PPhase} (F : C19.Fine ph.toPhs) (N : Near ph) (s : Sel) :
    (∃ x ∈ visited D ph s, eventOf D ph x = .nan) ↔
      ∃ i j T, i < ph.atom.length ∧ j < ph.atom.length ∧ Selected s i j ∧ T ∈ ball D ph ∧
        event D ph (ph.atm i) (ph.atm j) T = .nan := by
  constructor
  · rintro ⟨⟨⟨i, j⟩, T⟩, h1, h2⟩
    rw [mem_visited, mem_halfPairs] at h1
    obtain ⟨⟨ha, hb⟩, hc, hd⟩ := h1
    dsimp only at ha hb hc hd
    have he : event D ph (ph.atm i) (ph.atm j) T = .nan := h2
    exact ⟨i, j, T, by omega, hb, (selected_iff s i j).1 hc, (points_iff F N (i := i) (by omega) hb T (by rw [he]; simp)).1 hd, he⟩
  · rintro ⟨i, j, T, hi, hj, hs, hT, he⟩
    rcases le_total i j with h | h
    · exact ⟨((i, j), T), mem_visited.2 ⟨mem_halfPairs.2 ⟨h, hj⟩, (selected_iff s i j).2 hs,
        (points_iff F N hi hj T (by rw [he]; simp)).2 hT⟩, he⟩
    · have he' : event D ph (ph.atm j) (ph.atm i) (-T) = .nan := by rw [event_neg, he]
      have hT' : -T ∈ ball D ph := by
        show tlen ph (-T) < _
        rw [tlen_neg]
        exact hT
      exact ⟨((j, i), -T), mem_visited.2 ⟨mem_halfPairs.2 ⟨h, hi⟩, by rw [skip_symm]; exact (selected_iff s i j).2 hs,
        (points_iff F N hj hi (-T) (by rw [he']; simp)).2 hT'⟩, he'⟩

section
variable {ph ph' : PPhase} {s s' : Sel} {σ : Equiv.Perm ℕ} (R : Reorder ph ph' s s' σ)
include R

theorem sum_perm (f g : ℕ → ℝ) (h : ∀ i, i < ph.atom.length → g i = f (σ i)) :
    ∑ i ∈ Finset.range ph'.atom.length, g i = ∑ i ∈ Finset.range ph.atom.length, f i := by
  rw [R.len]
  refine Finset.sum_equiv σ (fun i => ?_) fun i hi => h i (Finset.mem_range.1 hi)
  rw [Finset.mem_range, Finset.mem_range, R.perm]

theorem np_eq : ph'.np = ph.np := by
  unfold PPhase.np
  rw [sum_atoms, sum_atoms]
  exact sum_perm R (fun i => (ph.atm i).occ) _ fun i hi => by rw [R.atm i hi]

theorem bavg_eq : ph'.bavg = ph.bavg := by
  unfold PPhase.bavg
  rw [np_eq R, sum_atoms ph' fun a => a.occ * a.sf, sum_atoms ph fun a => a.occ * a.sf]
  congr 1
  exact sum_perm R (fun i => (ph.atm i).occ * (ph.atm i).sf) _ fun i hi => by rw [R.atm i hi]

theorem weight_eq {i : ℕ} (hi : i < ph.atom.length) : ph'.weight i = ph.weight (σ i) := by
  unfold PPhase.weight
  rw [bavg_eq R, R.atm i hi]

theorem gten_eq : ph'.toPhs.gten = ph.toPhs.gten := by rw [R.rest]; rfl

theorem skal_eq (x y : Fin 3 → ℝ) : ph'.toPhs.skal x y = ph.toPhs.skal x y := by
  unfold Phs.skal
  rw [gten_eq R]

theorem circum_eq : circumDiameter ph'.toPhs = circumDiameter ph.toPhs := by
  have e : ph'.toPhs.atom = [] ↔ ph.toPhs.atom = [] := by
    rw [← List.length_eq_zero_iff, ← List.length_eq_zero_iff]
    unfold PPhase.toPhs
    simp only [List.length_map]
    rw [R.len]
  unfold circumDiameter
  simp only [skal_eq R, e]

theorem sphere_eq (D : Data) : sphere D ph' = sphere D ph := by
  unfold sphere
  rw [circum_eq R, R.rest]

theorem ball_eq (D : Data) : ball D ph' = ball D ph := by
  ext T
  show tlen ph' T < _ ↔ tlen ph T < _
  rw [sphere_eq R]
  unfold tlen
  rw [skal_eq R]
  rw [R.rest]
  rfl

theorem event_eq (D : Data) (a b : PAtom) (T : ℤ × ℤ × ℤ) : event D ph' a b T = event D ph a b T := by
  rw [R.rest]
  rfl

theorem term_eq (D : Data) (a b : PAtom) (amp : ℝ) (T : ℤ × ℤ × ℤ) (ig : ℤ) : term D ph' a b amp T ig = term D ph a b amp T ig := by
  rw [R.rest]
  rfl

theorem selected_eq (i j : ℕ) : Selected s' i j ↔ Selected s (σ i) (σ j) := by
  unfold Selected
  rw [R.igI, R.igI, R.igJ, R.igJ]

theorem near_eq (N : Near ph) : Near ph' := by
  intro i j hi hj
  rw [R.len] at hi hj
  rw [circum_eq R, skal_eq R, R.atm i hi, R.atm j hj]
  exact N _ _ ((R.perm i).2 hi) ((R.perm j).2 hj)

theorem fine_eq (F : C19.Fine ph.toPhs) : C19.Fine ph'.toPhs := by
  rw [R.rest]
  exact ⟨F.acc, F.edge, F.angle, F.small, F.icc⟩

theorem S_eq (D : Data) {i j : ℕ} (hi : i < ph.atom.length) (hj : j < ph.atom.length) (ig : ℤ) :
    S D ph' i j ig = S D ph (σ i) (σ j) ig := by
  unfold S
  rw [ball_eq R, weight_eq R hi, weight_eq R hj, R.atm i hi, R.atm j hj]
  simp only [term_eq R]

theorem double_perm (f g : ℕ → ℕ → ℝ) (h : ∀ i j, i < ph.atom.length → j < ph.atom.length → g i j = f (σ i) (σ j)) :
    ∑ i ∈ Finset.range ph'.atom.length, ∑ j ∈ Finset.range ph'.atom.length, g i j =
      ∑ i ∈ Finset.range ph.atom.length, ∑ j ∈ Finset.range ph.atom.length, f i j :=
  sum_perm R (fun i => ∑ j ∈ Finset.range ph.atom.length, f i j) _ fun i hi =>
    sum_perm R (fun j => f (σ i) j) _ fun j hj => h i j hi hj

end

theorem rtot_double (ph : PPhase) : rtot ph =
    ∑ i ∈ Finset.range ph.atom.length, ∑ j ∈ Finset.range ph.atom.length, ph.weight i * ph.weight j := by
  rw [← half_sum _ (fun i j => ph.weight i * ph.weight j) fun i j _ _ => mul_comm _ _]
  unfold rtot
  simp only [mul_assoc]

open Classical in
theorem ract_double (ph : PPhase) (s : Sel) : ract ph s =
    ∑ i ∈ Finset.range ph.atom.length, ∑ j ∈ Finset.range ph.atom.length,
      if Selected s i j then ph.weight i * ph.weight j else 0 := by
  rw [← half_sum _ (fun i j => if Selected s i j then ph.weight i * ph.weight j else 0)]
  · rw [Det.ract_eq]
    congr 1
    apply List.map_congr_left
    intro x _
    by_cases h : Selected s x.1 x.2
    · rw [if_pos h, if_pos (by rw [(selected_iff s _ _).2 h]; rfl), mul_assoc]
    · rw [if_neg h, if_neg (by intro h'; exact h ((selected_iff s _ _).1 (by simpa using h'))), mul_zero]
  · intro i j _ _
    rw [mul_comm]
    congr 1
    rw [← selected_iff, ← selected_iff, skip_symm]

section
variable {ph ph' : PPhase} {s s' : Sel} {σ : Equiv.Perm ℕ} (R : Reorder ph ph' s s' σ) (F : C19.Fine ph.toPhs) (N : Near ph)
include R F N

theorem curve_eq (D : Data) : curve D ph' s' = curve D ph s := by
  classical
  funext ig
  have e1 : pairSum D ph' s' ig = pairSum D ph s ig := by
    rw [pairSum_full (fine_eq R F) (near_eq R N), pairSum_full F N]
    simp only [selected_iff]
    exact double_perm R (fun i j => if Selected s i j then S D ph i j ig else 0) _ fun i j hi hj => by
      rw [S_eq R D hi hj]
      simp only [selected_eq R]
  have e2 : ract ph' s' = ract ph s := by
    rw [ract_double, ract_double]
    exact double_perm R (fun i j => if Selected s i j then ph.weight i * ph.weight j else 0) _ fun i j hi hj => by
      rw [weight_eq R hi, weight_eq R hj]
      simp only [selected_eq R]
  have e3 : rtot ph' = rtot ph := by
    rw [rtot_double, rtot_double]
    exact double_perm R (fun i j => ph.weight i * ph.weight j) _ fun i j hi hj => by
      rw [weight_eq R hi, weight_eq R hj]
  have e4 : ph'.rho0 = ph.rho0 := by
    unfold PPhase.rho0
    rw [np_eq R, R.rest]
    rfl
  have e5 : envelope D ph' (D.r ig) = envelope D ph (D.r ig) := by
    rw [R.rest]
    rfl
  unfold curve
  rw [e1, e2, e3, e4, e5, np_eq R]

theorem bad_eq (D : Data) : Bad D ph' s' ↔ Bad D ph s := by
  have e3 : rtot ph' = rtot ph := by
    rw [rtot_double, rtot_double]
    exact double_perm R (fun i j => ph.weight i * ph.weight j) _ fun i j hi hj => by
      rw [weight_eq R hi, weight_eq R hj]
  have e4 : ph'.ncv = ph.ncv := by rw [R.rest]; rfl
  unfold Bad
  rw [nan_iff (fine_eq R F) (near_eq R N), nan_iff F N, np_eq R, e4, bavg_eq R, e3, R.len, ball_eq R]
  apply or_congr _ Iff.rfl
  constructor
  · rintro ⟨i, j, T, hi, hj, hs, hT, he⟩
    refine ⟨σ i, σ j, T, (R.perm i).2 hi, (R.perm j).2 hj, (selected_eq R i j).1 hs, hT, ?_⟩
    rw [← R.atm i hi, ← R.atm j hj, ← event_eq R]
    exact he
  · rintro ⟨i, j, T, hi, hj, hs, hT, he⟩
    have hi' : σ.symm i < ph.atom.length := by rw [← R.perm]; simpa using hi
    have hj' : σ.symm j < ph.atom.length := by rw [← R.perm]; simpa using hj
    refine ⟨σ.symm i, σ.symm j, T, hi', hj', (selected_eq R _ _).2 (by simpa using hs), hT, ?_⟩
    rw [R.atm _ hi', R.atm _ hj', event_eq R]
    simpa using he

end

/-- The curve of a data set does not depend on the order of the atoms in a phase. -/
theorem order_partial (D : Data) (h : D.Ok) (ph ph' : PPhase) (s s' : Sel) (σ : Equiv.Perm ℕ) (R : Reorder ph ph' s s' σ)
    (F : C19.Fine ph.toPhs) (N : Near ph) (l₁ l₂ : List (Option (PPhase × Sel))) (f : ℤ → ℝ)
    (hf : determine D (l₁ ++ some (ph, s) :: l₂) = .ok (some f)) :
    ∃ f', determine D (l₁ ++ some (ph', s') :: l₂) = .ok (some f') ∧ ∀ i, D.ncmin ≤ i → i ≤ D.ncmax → f' i = f i := by
  obtain ⟨h1, h2⟩ := determine_some h hf
  obtain ⟨g, e1, e2⟩ := determine_of h (psel := l₁ ++ some (ph', s') :: l₂) (by
    intro x hx
    rw [List.mem_append, List.mem_cons] at hx
    rcases hx with hx | hx | hx
    · exact h1 x (by simp [hx])
    · simp only [Option.some.injEq] at hx
      subst hx
      dsimp only
      rw [bad_eq R F N]
      exact h1 (ph, s) (by simp)
    · exact h1 x (by simp [hx]))
  refine ⟨g, e1, fun i hi hi' => ?_⟩
  rw [h2 i hi hi', e2 i hi hi']
  simp only [List.filterMap_append, List.filterMap_cons, id, List.map_append, List.map_cons, List.sum_append, List.sum_cons]
  rw [curve_eq R F N, show ph'.pscale = ph.pscale by rw [R.rest]]

/-! ## Example -/

theorem demo_fine : C19.Fine demo.toPhs where
  acc := by
    have hv : voll demo.toPhs.cell = 1 := by
      unfold voll
      simp only [show ∀ k, demo.toPhs.cell.win k = 90 from fun k => by fin_cases k <;> rfl, C45.cosd90]; norm_num
    refine ⟨_, if_neg ?_⟩
    rw [hv, not_le]
    unfold eps; norm_num
  edge := fun k => by fin_cases k <;> (show (0 : ℝ) < 3; norm_num)
  angle := fun k => by fin_cases k <;> (show (0 : ℝ) < 90 ∧ (90 : ℝ) < 180; norm_num)
  small := by
    intro i j _
    left
    rw [show ∀ k, demo.toPhs.cell.win k = 90 from fun k => by fin_cases k <;> rfl, C45.cosd90, mul_zero]
  icc := fun k => by fin_cases k <;> exact one_pos

/-- The two atoms in the other order. -/
noncomputable def demo' : PPhase := { demo with atom := [demo.atm 1, demo.atm 0] }

theorem demo_near : Near demo := near_of _ demo_fine fun i j hi hj k => by
  have : ∀ i, i < 2 → ∀ k, 0 ≤ (demo.atm i).pos k ∧ (demo.atm i).pos k ≤ 1 / 2 := by
    intro i hi k
    match i, hi with
    | 0, _ => fin_cases k <;> (show (0 : ℝ) ≤ 0 ∧ (0 : ℝ) ≤ 1 / 2; norm_num)
    | 1, _ => fin_cases k <;> (show (0 : ℝ) ≤ 1 / 2 ∧ (1 / 2 : ℝ) ≤ 1 / 2; norm_num)
  have a := this i hi k
  have b := this j hj k
  rw [abs_le]
  constructor <;> linarith

theorem demo_reorder : Reorder demo demo' ⟨fun _ => false, fun _ => false⟩ ⟨fun _ => false, fun _ => false⟩ (Equiv.swap 0 1) where
  len := rfl
  rest := rfl
  perm := fun i => by
    show Equiv.swap 0 1 i < 2 ↔ i < 2
    rcases Nat.lt_or_ge i 2 with h | h
    · have : i = 0 ∨ i = 1 := by omega
      rcases this with rfl | rfl <;> simp
    · rw [Equiv.swap_apply_of_ne_of_ne (by omega) (by omega)]
  atm := fun i hi => by
    have : i = 0 ∨ i = 1 := by have : i < 2 := hi; omega
    rcases this with rfl | rfl
    · rw [Equiv.swap_apply_left]; rfl
    · rw [Equiv.swap_apply_right]; rfl
  igI := fun _ => rfl
  igJ := fun _ => rfl

example : ∃ f f', determine (demoD 20) [some (demo, ⟨fun _ => false, fun _ => false⟩)] = .ok (some f) ∧
    determine (demoD 20) [some (demo', ⟨fun _ => false, fun _ => false⟩)] = .ok (some f') ∧
    ∀ i, (demoD 20).ncmin ≤ i → i ≤ (demoD 20).ncmax → f' i = f i := by
  obtain ⟨f, hf, -⟩ := determine_of (demoD_ok 20) (psel := [some (demo, ⟨fun _ => false, fun _ => false⟩)]) (by
    intro x hx
    simp only [List.mem_singleton, Option.some.injEq] at hx
    subst hx
    exact demo_good _ _)
  obtain ⟨f', h⟩ := order_partial _ (demoD_ok 20) demo demo' _ _ _ demo_reorder demo_fine demo_near [] [] f hf
  exact ⟨f, f', hf, h⟩

/-! ## Violation for structures of several cells -/

/-- A 10 × 1 × 1 supercell of a 1 × 2 × 2 cell with atoms at 0 and 9.1. -/
noncomputable def large : PPhase where
  cell := ⟨![1, 2, 2], ![90, 90, 90]⟩
  icc := ![10, 1, 1]
  atom := [⟨![0, 0, 0], 1, ![1 / 2, 0, 0, 0, 0, 0], 1⟩, ⟨![91 / 10, 0, 0], 1, ![1 / 2, 0, 0, 0, 0, 0], 1⟩]
  delta2 := 0
  delta1 := 0
  rcut := 0
  sratio := 1
  stepcut := 0
  spdiameter := 0
  pscale := 1

/-- A data set starting at about 9.5. -/
noncomputable def largeD : Data := ⟨19 / 2 + 4 * eps, 1 / 10, 19 / 2 + 4 * eps, 10, 0, 0, 0, 1⟩

theorem large90 : ∀ k, large.toPhs.cell.win k = 90 := by intro k; fin_cases k <;> rfl

theorem large_fine : C19.Fine large.toPhs := ⟨C19.super_fine.acc, C19.super_fine.edge, C19.super_fine.angle,
  C19.super_fine.small, C19.super_fine.icc⟩

theorem large_circum : circumDiameter large.toPhs = 3 + 4 * eps := by
  rw [← C19.super_circum]
  unfold circumDiameter
  rw [if_neg (by simp [large, PPhase.toPhs]), if_neg (by simp [C19.super])]
  rfl

theorem large_r : largeD.rcmin = 19 / 2 + 4 * eps ∧ largeD.rcmax = 10 := by
  constructor
  · exact if_neg (lt_irrefl _)
  · exact if_neg (lt_irrefl _)

theorem large_rmin2 : largeD.rmin2 = (17 / 2 + 4 * eps) ^ 2 := by
  have he := C45.eps_pos
  unfold Data.rmin2
  rw [large_r.1, if_neg (by linarith), mul_one, max_eq_right (by nlinarith)]
  ring

theorem large_rmax2 : largeD.rmax2 = 121 := by
  unfold Data.rmax2
  rw [large_r.2]
  norm_num

theorem large_dd : dd large (large.atm 0) (large.atm 1) (0, 0, 0) = ![-(91 / 10), 0, 0] := by
  funext k
  fin_cases k <;> norm_num [dd, large, PPhase.atm]

theorem large_skal : large.toPhs.skal ![-(91 / 10), 0, 0] ![-(91 / 10), 0, 0] = (91 / 10) ^ 2 := by
  rw [C20.skal_ortho _ large90]
  simp only [large, PPhase.toPhs, Matrix.cons_val]
  norm_num

theorem large_msd : large.msd (large.atm 0) (large.atm 1) ![-(91 / 10), 0, 0] = 1 := by
  have ar : recEdge large.cell 0 = 1 := by
    have hv : voll large.cell = 1 := by
      unfold voll
      simp only [show ∀ k, large.cell.win k = 90 from large90, C45.cosd90]; norm_num
    unfold recEdge vol
    rw [hv, show large.cell.win 0 = 90 from rfl, C45.sind90]
    simp only [large, zero_add, Matrix.cons_val]
    norm_num
  have g : large.toPhs.gten 0 0 = 1 := by
    show tensor large.cell.a0 large.cell.win 0 0 = 1
    norm_num [tensor, large]
  unfold PPhase.msd
  dsimp only
  rw [large_skal, Real.sqrt_sq (by norm_num)]
  have u : ∀ i : Fin 6, (large.atm 0).u i + (large.atm 1).u i = ![1, 0, 0, 0, 0, 0] i := by
    intro i
    fin_cases i <;> norm_num [large, PPhase.atm]
  simp only [u, ar, Fin.sum_univ_three, g, Matrix.cons_val]
  norm_num

theorem large_event : event largeD large (large.atm 0) (large.atm 1) (0, 0, 0) = .peak (91 / 10) 1 := by
  have hc : corfact largeD large ((91 / 10) ^ 2) = 1 := by norm_num [corfact, largeD, large]
  have hs : sigma largeD large ((91 / 10) ^ 2) 1 = 1 := by
    unfold sigma
    rw [hc, if_neg (by show ¬_ < (0 : ℝ); exact not_lt.2 (Real.sqrt_nonneg _))]
    norm_num
  have he : 4 * eps < 1 / 10 := by unfold eps; norm_num
  have he0 := C45.eps_pos
  unfold event
  dsimp only
  rw [large_dd, large_skal, large_msd, large_rmin2, large_rmax2, hc, hs, if_neg, if_neg (by norm_num), if_neg (by norm_num),
    if_neg (by norm_num), if_neg (by norm_num), Real.sqrt_sq (by norm_num)]
  rw [not_or]
  constructor
  · rw [not_lt]; nlinarith
  · norm_num

/-- Violation: the translation zero, in the sphere of the program, takes the first atom to a distance of 9.1 from the second and has a
positive contribution at the first grid point, but is not visited. -/
theorem missed : (0, 0, 0) ∈ ball largeD large ∧
    0 < term largeD large (large.atm 0) (large.atm 1) 1 (0, 0, 0) 0 ∧
    (0, 0, 0) ∉ Sphere.points (sphere largeD large) := by
  have he : 4 * eps < 1 / 10 := by unfold eps; norm_num
  have he0 := C45.eps_pos
  have t0 : tlen large (0, 0, 0) = 0 := by
    unfold tlen
    rw [C20.skal_ortho _ large90]
    simp [C19.tvec]
  have hmax : (sphere largeD large).rmax = 14 + 4 * eps := by
    show (if (0 : ℝ) < 0 then _ else √largeD.rmax2 + circumDiameter large.toPhs) = _
    rw [if_neg (lt_irrefl _), large_rmax2, large_circum, show (121 : ℝ) = 11 ^ 2 by norm_num, Real.sqrt_sq (by norm_num)]
    ring
  have hmin : (sphere largeD large).rmin = 11 / 2 := by
    show √largeD.rmin2 - circumDiameter large.toPhs = _
    rw [large_rmin2, large_circum, Real.sqrt_sq (by linarith)]
    ring
  refine ⟨?_, ?_, ?_⟩
  · show tlen large _ < _
    rw [t0, hmax]
    linarith
  · unfold term
    rw [large_event]
    dsimp only
    rw [if_pos]
    · unfold gaus
      have := Real.pi_pos
      positivity
    · unfold ib ie
      rw [large_r.1, large_r.2]
      constructor
      · rw [max_eq_left (by linarith)]
        have : (19 / 2 + 4 * eps - largeD.rmin) / largeD.deltar = ((0 : ℤ) : ℝ) := by
          show (19 / 2 + 4 * eps - (19 / 2 + 4 * eps)) / _ = _
          simp
        rw [this, nint_int]
      · rw [if_neg (by show ¬(0 : ℝ) < 0; exact lt_irrefl _), min_eq_left (by norm_num)]
        apply nint_nonneg
        apply div_nonneg
        · show 0 ≤ 10 - (19 / 2 + 4 * eps)
          linarith
        · show (0 : ℝ) ≤ 1 / 10
          norm_num
  · intro hT
    have hsh := (C18.shell_partial _ (good large_fine) (by rw [hmin]; norm_num) (by rw [hmax]; linarith) ?_ (0, 0, 0)).1 hT
    · rw [hmin, len2 large_fine, t0] at hsh
      norm_num at hsh
    · rintro ⟨m, n, o⟩
      rw [hmin, sphere_lat 0 0, C19.len2_tvec large_fine, C20.skal_ortho _ large90]
      intro h
      simp [C19.tvec, large, PPhase.toPhs] at h
      have : (4 * (100 * m ^ 2 + 4 * n ^ 2 + 4 * o ^ 2) : ℝ) = 121 := by linarith
      have h' : 4 * (100 * m ^ 2 + 4 * n ^ 2 + 4 * o ^ 2) = 121 := by exact_mod_cast this
      omega

end Pdffit.C24
