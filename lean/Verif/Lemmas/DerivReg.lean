import Verif.Lemmas.DerivAsm

/-! # Conditions under which the decisions do not change for nearby values of a variable -/

namespace Pdffit.Deriv
open Geom Parser Bonds Det Layout Filter

theorem nint_near {y : ℝ} {m : ℤ} (h : |y - m| < 1 / 2) : nint y = m := by
  rw [abs_lt] at h
  unfold nint
  split
  · rw [Int.floor_eq_iff]; constructor <;> linarith
  · rw [Int.ceil_eq_iff]; constructor <;> linarith

/-- `nint` does not change near a number that is not halfway between integers. -/
theorem nint_const (A : ℝ) (h : ∀ n : ℤ, A ≠ n + 1 / 2) : ∀ᶠ y : ℝ in nhds A, nint y = nint A := by
  have h1 : |A - round A| < 1 / 2 := by
    refine lt_of_le_of_ne (abs_sub_round A) fun e => ?_
    rcases abs_cases (A - round A) with ⟨e1, -⟩ | ⟨e1, -⟩
    · exact h (round A) (by linarith)
    · exact h (round A - 1) (by push_cast; linarith)
  have : ∀ᶠ y : ℝ in nhds A, |y - round A| < 1 / 2 :=
    ((continuous_id.sub continuous_const).abs.continuousAt (x := A)).eventually_lt continuousAt_const h1
  filter_upwards [this] with y hy
  rw [nint_near hy, nint_near h1]

/-- The additions for one pair and translation. -/
noncomputable def piece (D : Data) (ph : PPhase) (x : (ℕ × ℕ) × (ℤ × ℤ × ℤ)) : List Dec :=
  match eventOf D ph x with
  | .peak dist sig => (grid (ib D dist sig) (ie D ph dist sig)).map fun ig => (x, ig, decide (dist < ph.rcut))
  | _ => []

theorem decisions_eq (D : Data) (ph : PPhase) (s : Sel) : decisions D ph s = (visited D ph s).flatMap (piece D ph) := rfl

/-- Upper end of the range for a phase. -/
noncomputable def hiEnd (D : Data) (ph : PPhase) : ℝ := if 0 < ph.stepcut then min D.rcmax ph.stepcut else D.rcmax

theorem ie_eq (D : Data) (ph : PPhase) (d σ : ℝ) : ie D ph d σ = nint ((min (hiEnd D ph) (d + 5 * σ) - D.rmin) / D.deltar) := by
  unfold ie hiEnd
  split
  · rw [min_right_comm]
  · rfl

/-- The pair is away from every threshold: the limits of the distance, a vanishing correction, `rcut`, and the limits between grid
points. -/
structure Steady (D : Data) (ph : PPhase) (x : (ℕ × ℕ) × (ℤ × ℤ × ℤ)) : Prop where
  lo : dist2 ph x ≠ D.rmin2
  hi : dist2 ph x ≠ D.rmax2
  msd : D.rmin2 < dist2 ph x → dist2 ph x < D.rmax2 → 0 < msdOf ph x
  cor : D.rmin2 < dist2 ph x → dist2 ph x < D.rmax2 → corfact D ph (dist2 ph x) ≠ 0
  cut : D.rmin2 < dist2 ph x → dist2 ph x < D.rmax2 → √(dist2 ph x) ≠ ph.rcut
  phi : √(dist2 ph x) < ph.rcut → ph.sratio ≠ 0
  first : D.rmin2 < dist2 ph x → dist2 ph x < D.rmax2 → 0 < corfact D ph (dist2 ph x) →
    √(dist2 ph x) - 5 * sigB D ph x (decide (√(dist2 ph x) < ph.rcut)) < D.rcmin ∨
    ∀ n : ℤ, (max D.rcmin (√(dist2 ph x) - 5 * sigB D ph x (decide (√(dist2 ph x) < ph.rcut))) - D.rmin) / D.deltar ≠ n + 1 / 2
  last : D.rmin2 < dist2 ph x → dist2 ph x < D.rmax2 → 0 < corfact D ph (dist2 ph x) →
    hiEnd D ph < √(dist2 ph x) + 5 * sigB D ph x (decide (√(dist2 ph x) < ph.rcut)) ∨
    ∀ n : ℤ, (min (hiEnd D ph) (√(dist2 ph x) + 5 * sigB D ph x (decide (√(dist2 ph x) < ph.rcut))) - D.rmin) / D.deltar ≠ n + 1 / 2

theorem event_unfold (D : Data) (ph : PPhase) (x : (ℕ × ℕ) × (ℤ × ℤ × ℤ)) : eventOf D ph x =
    if dist2 ph x < D.rmin2 ∨ D.rmax2 < dist2 ph x then .skip
    else if msdOf ph x < 0 then .nan
    else if √(msdOf ph x) ≤ 0 then .skip
    else if corfact D ph (dist2 ph x) ≤ 0 then .skip
    else if sigma D ph (dist2 ph x) (msdOf ph x) = 0 then .nan
    else .peak (√(dist2 ph x)) (sigma D ph (dist2 ph x) (msdOf ph x)) := rfl

theorem event_out {D : Data} {ph : PPhase} {x : (ℕ × ℕ) × (ℤ × ℤ × ℤ)} (h : dist2 ph x < D.rmin2 ∨ D.rmax2 < dist2 ph x) :
    eventOf D ph x = .skip := by
  rw [event_unfold, if_pos h]

theorem event_in {D : Data} {ph : PPhase} {x : (ℕ × ℕ) × (ℤ × ℤ × ℤ)} (h1 : D.rmin2 ≤ dist2 ph x) (h2 : dist2 ph x ≤ D.rmax2)
    (h3 : 0 < msdOf ph x) (h4 : 0 < corfact D ph (dist2 ph x)) (h5 : √(dist2 ph x) < ph.rcut → ph.sratio ≠ 0) :
    eventOf D ph x = .peak (√(dist2 ph x)) (sigB D ph x (decide (√(dist2 ph x) < ph.rcut))) := by
  have e : sigma D ph (dist2 ph x) (msdOf ph x) = sigB D ph x (decide (√(dist2 ph x) < ph.rcut)) := by
    unfold sigma sigB phiB
    by_cases hc : √(dist2 ph x) < ph.rcut <;> simp [hc]
  have ne : sigB D ph x (decide (√(dist2 ph x) < ph.rcut)) ≠ 0 := by
    unfold sigB phiB
    refine mul_ne_zero (mul_ne_zero (Real.sqrt_pos.2 h3).ne' (Real.sqrt_pos.2 h4).ne') ?_
    by_cases hc : √(dist2 ph x) < ph.rcut
    · simpa [hc] using h5 hc
    · simp [hc]
  rw [event_unfold, if_neg (by rw [not_or]; exact ⟨not_lt.2 h1, not_lt.2 h2⟩), if_neg (not_lt.2 h3.le),
    if_neg (not_le.2 (Real.sqrt_pos.2 h3)), if_neg (not_le.2 h4), e, if_neg ne]

theorem event_flat {D : Data} {ph : PPhase} {x : (ℕ × ℕ) × (ℤ × ℤ × ℤ)} (h3 : 0 < msdOf ph x)
    (h4 : corfact D ph (dist2 ph x) ≤ 0) : eventOf D ph x = .skip := by
  rw [event_unfold, if_neg (not_lt.2 h3.le), if_neg (not_le.2 (Real.sqrt_pos.2 h3)), if_pos h4, ite_self]

/-- A path of data sets and phases on which only peaks change. -/
structure Path {T : Type} [TopologicalSpace T] (Dt : T → Data) (pt : T → PPhase) (t₀ : T) : Prop where
  grid : ∀ t, (Dt t).rmin2 = (Dt t₀).rmin2 ∧ (Dt t).rmax2 = (Dt t₀).rmax2 ∧ (Dt t).rcmin = (Dt t₀).rcmin ∧
    (Dt t).rmin = (Dt t₀).rmin ∧ (Dt t).deltar = (Dt t₀).deltar ∧ hiEnd (Dt t) (pt t) = hiEnd (Dt t₀) (pt t₀)
  rcut : ∀ t, (pt t).rcut = (pt t₀).rcut
  sratio : ContinuousAt (fun t => (pt t).sratio) t₀

/-- Close values of a variable give the same additions for a steady pair. -/
theorem steady_event {T : Type} [TopologicalSpace T] {Dt : T → Data} {pt : T → PPhase} {t₀ : T} (P : Path Dt pt t₀) (x : (ℕ × ℕ) × (ℤ × ℤ × ℤ))
    (hS : Steady (Dt t₀) (pt t₀) x) (cd : ContinuousAt (fun t => dist2 (pt t) x) t₀)
    (cm : 0 < dist2 (pt t₀) x → ContinuousAt (fun t => msdOf (pt t) x) t₀)
    (cc : 0 < dist2 (pt t₀) x → ContinuousAt (fun t => corfact (Dt t) (pt t) (dist2 (pt t) x)) t₀) :
    ∀ᶠ t in nhds t₀, piece (Dt t) (pt t) x = piece (Dt t₀) (pt t₀) x ∧ eventOf (Dt t) (pt t) x ≠ .nan := by
  rcases lt_or_gt_of_ne hS.lo with h1 | h1
  · have : ∀ᶠ t in nhds t₀, dist2 (pt t) x < (Dt t₀).rmin2 := cd.eventually_lt continuousAt_const h1
    filter_upwards [this] with t ht
    have e0 := event_out (Or.inl h1 : _ ∨ (Dt t₀).rmax2 < dist2 (pt t₀) x)
    have e1 : eventOf (Dt t) (pt t) x = .skip := event_out (Or.inl (by rw [(P.grid t).1]; exact ht))
    unfold piece
    rw [e0, e1]
    simp
  rcases lt_or_gt_of_ne hS.hi with h2 | h2
  swap
  · have : ∀ᶠ t in nhds t₀, (Dt t₀).rmax2 < dist2 (pt t) x := continuousAt_const.eventually_lt cd h2
    filter_upwards [this] with t ht
    have e0 := event_out (Or.inr h2 : dist2 (pt t₀) x < (Dt t₀).rmin2 ∨ _)
    have e1 : eventOf (Dt t) (pt t) x = .skip := event_out (Or.inr (by rw [(P.grid t).2.1]; exact ht))
    unfold piece
    rw [e0, e1]
    simp
  have hpos : 0 < dist2 (pt t₀) x := (rmin2_pos _).trans h1
  have cm := cm hpos
  have cc := cc hpos
  have ev1 : ∀ᶠ t in nhds t₀, (Dt t₀).rmin2 < dist2 (pt t) x := continuousAt_const.eventually_lt cd h1
  have ev2 : ∀ᶠ t in nhds t₀, dist2 (pt t) x < (Dt t₀).rmax2 := cd.eventually_lt continuousAt_const h2
  have m0 := hS.msd h1 h2
  have ev3 : ∀ᶠ t in nhds t₀, 0 < msdOf (pt t) x := continuousAt_const.eventually_lt cm m0
  rcases lt_or_gt_of_ne (hS.cor h1 h2) with h4 | h4
  · have ev4 : ∀ᶠ t in nhds t₀, corfact (Dt t) (pt t) (dist2 (pt t) x) < 0 := cc.eventually_lt continuousAt_const h4
    filter_upwards [ev3, ev4] with t t3 t4
    have e0 := event_flat m0 h4.le
    have e1 := event_flat t3 t4.le
    unfold piece
    rw [e0, e1]
    simp
  have ev4 : ∀ᶠ t in nhds t₀, 0 < corfact (Dt t) (pt t) (dist2 (pt t) x) := continuousAt_const.eventually_lt cc h4
  have cs : ContinuousAt (fun t => √(dist2 (pt t) x)) t₀ := cd.sqrt
  have ev5 : ∀ᶠ t in nhds t₀, decide (√(dist2 (pt t) x) < (pt t).rcut) = decide (√(dist2 (pt t₀) x) < (pt t₀).rcut) := by
    rcases lt_or_gt_of_ne (hS.cut h1 h2) with h | h
    · filter_upwards [cs.eventually_lt continuousAt_const h] with t ht
      rw [P.rcut t]
      simp [h, ht]
    · filter_upwards [continuousAt_const.eventually_lt cs h] with t ht
      rw [P.rcut t]
      rw [decide_eq_decide]
      exact ⟨fun hc => absurd hc (not_lt.2 ht.le), fun hc => absurd hc (not_lt.2 h.le)⟩
  set b := decide (√(dist2 (pt t₀) x) < (pt t₀).rcut) with hb
  have cp : ContinuousAt (fun t => phiB (pt t) b) t₀ := by
    unfold phiB
    cases b
    · simpa using continuousAt_const
    · simpa using P.sratio
  have cσ : ContinuousAt (fun t => sigB (Dt t) (pt t) x b) t₀ := (cm.sqrt.mul cc.sqrt).mul cp
  have ev6 : ∀ᶠ t in nhds t₀, √(dist2 (pt t) x) < (pt t).rcut → (pt t).sratio ≠ 0 := by
    by_cases h : √(dist2 (pt t₀) x) < (pt t₀).rcut
    · exact (P.sratio.eventually_ne (hS.phi h)).mono fun t ht _ => ht
    · filter_upwards [ev5] with t ht hc
      rw [hb, decide_eq_decide] at ht
      exact absurd (ht.1 hc) h
  have cl : ContinuousAt (fun t => √(dist2 (pt t) x) - 5 * sigB (Dt t) (pt t) x b) t₀ := cs.sub (cσ.const_mul 5)
  have ch : ContinuousAt (fun t => √(dist2 (pt t) x) + 5 * sigB (Dt t) (pt t) x b) t₀ := cs.add (cσ.const_mul 5)
  have ev7 : ∀ᶠ t in nhds t₀, ib (Dt t) (√(dist2 (pt t) x)) (sigB (Dt t) (pt t) x b) =
      ib (Dt t₀) (√(dist2 (pt t₀) x)) (sigB (Dt t₀) (pt t₀) x b) := by
    rcases hS.first h1 h2 h4 with h | h
    · filter_upwards [cl.eventually_lt continuousAt_const h] with t ht
      obtain ⟨-, -, g3, g4, g5, -⟩ := P.grid t
      unfold ib
      rw [g3, g4, g5, max_eq_left ht.le, max_eq_left h.le]
    · have c2 : ContinuousAt (fun t => (max (Dt t₀).rcmin (√(dist2 (pt t) x) - 5 * sigB (Dt t) (pt t) x b) - (Dt t₀).rmin) /
          (Dt t₀).deltar) t₀ := ((continuousAt_const.max cl).sub continuousAt_const).div_const _
      filter_upwards [c2.tendsto.eventually (nint_const _ h)] with t ht
      obtain ⟨-, -, g3, g4, g5, -⟩ := P.grid t
      unfold ib
      rw [g3, g4, g5]
      exact ht
  have ev8 : ∀ᶠ t in nhds t₀, ie (Dt t) (pt t) (√(dist2 (pt t) x)) (sigB (Dt t) (pt t) x b) =
      ie (Dt t₀) (pt t₀) (√(dist2 (pt t₀) x)) (sigB (Dt t₀) (pt t₀) x b) := by
    simp only [ie_eq]
    rcases hS.last h1 h2 h4 with h | h
    · filter_upwards [continuousAt_const.eventually_lt ch h] with t ht
      obtain ⟨-, -, -, g4, g5, g6⟩ := P.grid t
      rw [g4, g5, g6, min_eq_left ht.le, min_eq_left h.le]
    · have c2 : ContinuousAt (fun t => (min (hiEnd (Dt t₀) (pt t₀)) (√(dist2 (pt t) x) + 5 * sigB (Dt t) (pt t) x b) -
          (Dt t₀).rmin) / (Dt t₀).deltar) t₀ := ((continuousAt_const.min ch).sub continuousAt_const).div_const _
      filter_upwards [c2.tendsto.eventually (nint_const _ h)] with t ht
      obtain ⟨-, -, -, g4, g5, g6⟩ := P.grid t
      rw [g4, g5, g6]
      exact ht
  filter_upwards [ev1, ev2, ev3, ev4, ev5, ev6, ev7, ev8] with t t1 t2 t3 t4 t5 t6 t7 t8
  have e0 := event_in h1.le h2.le m0 h4 hS.phi
  have e1 : eventOf (Dt t) (pt t) x = _ := event_in (by rw [(P.grid t).1]; exact t1.le) (by rw [(P.grid t).2.1]; exact t2.le) t3 t4 t6
  rw [t5] at e1
  rw [← hb] at e0
  unfold piece
  rw [e0, e1]
  dsimp only
  rw [t7, t8, t5]
  simp [hb]

theorem eventually_list {T : Type} [TopologicalSpace T] {α : Type} (l : List α) (p : T → α → Prop) (t₀ : T) (h : ∀ a ∈ l, ∀ᶠ t in nhds t₀, p t a) :
    ∀ᶠ t in nhds t₀, ∀ a ∈ l, p t a := by
  induction l with
  | nil => simp
  | cons a l ih =>
    filter_upwards [h a (by simp), ih fun b hb => h b (by simp [hb])] with t h1 h2 b hb
    rcases List.mem_cons.1 hb with rfl | hb
    · exact h1
    · exact h2 b hb

/-- When the visited elements do not change. -/
theorem steady_list {T : Type} [TopologicalSpace T] {Dt : T → Data} {pt : T → PPhase} {t₀ : T} (P : Path Dt pt t₀) (L : List ((ℕ × ℕ) × (ℤ × ℤ × ℤ)))
    (hS : ∀ x ∈ L, Steady (Dt t₀) (pt t₀) x) (cd : ∀ x ∈ L, ContinuousAt (fun t => dist2 (pt t) x) t₀)
    (cm : ∀ x ∈ L, 0 < dist2 (pt t₀) x → ContinuousAt (fun t => msdOf (pt t) x) t₀)
    (cc : ∀ x ∈ L, 0 < dist2 (pt t₀) x → ContinuousAt (fun t => corfact (Dt t) (pt t) (dist2 (pt t) x)) t₀) :
    ∀ᶠ t in nhds t₀, L.flatMap (piece (Dt t) (pt t)) = L.flatMap (piece (Dt t₀) (pt t₀)) ∧
      ∀ x ∈ L, eventOf (Dt t) (pt t) x ≠ .nan := by
  filter_upwards [eventually_list L _ t₀ fun x hx => steady_event P x (hS x hx) (cd x hx) (cm x hx) (cc x hx)] with t ht
  refine ⟨?_, fun x hx => (ht x hx).2⟩
  rw [List.flatMap_def, List.flatMap_def, List.map_congr_left fun x hx => (ht x hx).1]

/-! ## Continuity -/

theorem corfact_cont (D : Data) (pt : ℝ → PPhase) (x : (ℕ × ℕ) × (ℤ × ℤ × ℤ)) (t₀ : ℝ)
    (hk : ∀ t, (pt t).delta2 = (pt t₀).delta2 ∧ (pt t).delta1 = (pt t₀).delta1)
    (cd : ContinuousAt (fun t => dist2 (pt t) x) t₀) (h : 0 < dist2 (pt t₀) x) :
    ContinuousAt (fun t => corfact D (pt t) (dist2 (pt t) x)) t₀ := by
  have e : (fun t => corfact D (pt t) (dist2 (pt t) x)) = fun t =>
      1 - (pt t₀).delta2 / dist2 (pt t) x - (pt t₀).delta1 / √(dist2 (pt t) x) + D.qbroad ^ 2 * dist2 (pt t) x := by
    funext t
    unfold corfact
    rw [(hk t).1, (hk t).2]
  rw [e]
  exact ((continuousAt_const.sub (continuousAt_const.div cd h.ne')).sub
    (continuousAt_const.div cd.sqrt (Real.sqrt_pos.2 h).ne')).add (continuousAt_const.mul cd)

theorem orth_cont (pt : ℝ → PPhase) (x : (ℕ × ℕ) × (ℤ × ℤ × ℤ)) (t₀ : ℝ) (O : ∀ᶠ t in nhds t₀, Orth (pt t).cell)
    (hc : ∀ k, ContinuousAt (fun t => cart (pt t) x k) t₀)
    (hu : ∀ k, ContinuousAt (fun t => ((pt t).atm x.1.1).u k + ((pt t).atm x.1.2).u k) t₀) :
    ContinuousAt (fun t => dist2 (pt t) x) t₀ ∧ (0 < dist2 (pt t₀) x → ContinuousAt (fun t => msdOf (pt t) x) t₀) := by
  have c1 : ContinuousAt (fun t => dist2 (pt t) x) t₀ := by
    have e : (fun t => dist2 (pt t) x) =ᶠ[nhds t₀] fun t => sq3 (cart (pt t) x) := by
      filter_upwards [O] with t ht
      exact dist2_orth ht x
    refine ContinuousAt.congr ?_ e.symm
    unfold sq3
    exact (((hc 0).pow 2).add ((hc 1).pow 2)).add ((hc 2).pow 2)
  refine ⟨c1, fun h => ?_⟩
  have e : (fun t => msdOf (pt t) x) =ᶠ[nhds t₀] fun t =>
      quad (fun k => ((pt t).atm x.1.1).u k + ((pt t).atm x.1.2).u k) (cart (pt t) x) / dist2 (pt t) x := by
    filter_upwards [O] with t ht
    refine msd_orth ht x ?_
    rw [dist2_orth ht]
    unfold sq3
    positivity
  refine ContinuousAt.congr ?_ e.symm
  refine ContinuousAt.div ?_ c1 h.ne'
  unfold quad
  exact (((((((hu 0).mul ((hc 0).pow 2)).add ((hu 1).mul ((hc 1).pow 2))).add ((hu 2).mul ((hc 2).pow 2))).add
    (((continuousAt_const.mul (hu 3)).mul (hc 0)).mul (hc 1))).add
    (((continuousAt_const.mul (hu 4)).mul (hc 0)).mul (hc 2))).add
    (((continuousAt_const.mul (hu 5)).mul (hc 1)).mul (hc 2)))

/-- Changes of an atom do not change the visited elements. -/
theorem visited_on (D : Data) (ph : PPhase) (q : ℕ) (f : PAtom → PAtom) (s : Sel) : visited D (onAtom ph q f) s = visited D ph s := by
  have hl : (onAtom ph q f).atom.length = ph.atom.length := by unfold onAtom; simp
  have hc : circumDiameter (onAtom ph q f).toPhs = circumDiameter ph.toPhs := by
    unfold circumDiameter
    have e : ((onAtom ph q f).toPhs.atom = []) = (ph.toPhs.atom = []) := by
      rw [← List.length_eq_zero_iff, ← List.length_eq_zero_iff]
      simp only [PPhase.toPhs, List.length_map, hl]
    simp only [e]
    rfl
  have hs : sphere D (onAtom ph q f) = sphere D ph := by
    unfold sphere
    rw [hc]
    rfl
  unfold visited
  rw [hl, hs]

end Pdffit.Deriv
