import Verif.Model.StruPdf
import Verif.Props.C35Num
import Verif.Props.C45

/-!
# C99: a saved structure has the same PDF

* `C99_same_partial`: if the numbers that enter the calculation have no more digits than are printed, the structures read from the saved texts give the
  same PDF as the structures that were saved; likewise if scattering factors have been set, provided that they are set again.
* `C99_again_partial`: in any case a structure that has been saved and read does not change any more when it is saved and read again.
* `C99_scat_violated`: scattering factors are not saved.
-/

namespace Pdffit.C99
open Stru Det Geom C35 DataRead

/-! ### Shape parameters that are not positive -/

/-- The phase with shape parameters that are zero instead of negative. -/
noncomputable def clean (ph : PPhase) : PPhase :=
  { ph with stepcut := if 0 < ph.stepcut then ph.stepcut else 0, spdiameter := if 0 < ph.spdiameter then ph.spdiameter else 0 }

theorem pos_if (x : ℝ) : (0 < if 0 < x then x else 0) ↔ 0 < x := by split_ifs with h <;> simp [h]

theorem sphere_clean (D : Data) (ph : PPhase) : sphere D (clean ph) = sphere D ph := by
  unfold sphere clean
  by_cases h : 0 < ph.stepcut
  · simp only [h, if_true]; rfl
  · simp only [h, if_false, lt_irrefl]; rfl

theorem ie_clean (D : Data) (ph : PPhase) (a b : ℝ) : ie D (clean ph) a b = ie D ph a b := by
  unfold ie clean
  by_cases h : 0 < ph.stepcut
  · simp only [h, if_true]
  · simp only [h, if_false, lt_irrefl]

theorem envelope_clean (D : Data) (ph : PPhase) (r : ℝ) : envelope D (clean ph) r = envelope D ph r := by
  unfold envelope clean
  by_cases h : 0 < ph.stepcut <;> by_cases h' : 0 < ph.spdiameter <;> simp only [h, h', if_true, if_false, lt_irrefl]

theorem phaseCalc_clean (D : Data) (ph : PPhase) (s : Sel) : phaseCalc D (clean ph) s = phaseCalc D ph s := by
  have hv : visited D (clean ph) s = visited D ph s := by
    unfold visited
    rw [sphere_clean]
    rfl
  have he : eventOf D (clean ph) = eventOf D ph := rfl
  have hi : incs D (clean ph) = incs D ph := by
    funext i j e
    cases e with
    | peak a b => simp only [incs, ie_clean]; rfl
    | skip => rfl
    | nan => rfl
  have hp : ppp D (clean ph) s = ppp D ph s := by
    unfold ppp
    rw [hv, he, hi]
  have hb : Bad D (clean ph) s = Bad D ph s := by
    unfold Bad
    rw [hv, he]
    rfl
  have hc : calcAt D (clean ph) s = calcAt D ph s := by
    funext p i
    unfold calcAt
    rw [envelope_clean]
    rfl
  unfold phaseCalc
  rw [hp, hb, hc]

theorem total_congr (D : Data) {ι : Type} (f g : ι → PPhase) (l : List (Option (ι × Sel)))
    (h : ∀ x ∈ l, ∀ i σ, x = some (i, σ) → phaseCalc D (f i) σ = phaseCalc D (g i) σ ∧ (f i).pscale = (g i).pscale) :
    Det.total D (l.map (Option.map fun x => (f x.1, x.2))) = Det.total D (l.map (Option.map fun x => (g x.1, x.2))) := by
  induction l with
  | nil => rfl
  | cons x l ih =>
    have ih := ih fun y hy => h y (by simp [hy])
    cases x with
    | none => simpa [Det.total] using ih
    | some x =>
      obtain ⟨h1, h2⟩ := h (some x) (by simp) x.1 x.2 rfl
      simp only [List.map_cons, Option.map_some, Det.total, h1, h2, ih]

theorem determine_congr (D : Data) {ι : Type} (f g : ι → PPhase) (l : List (Option (ι × Sel)))
    (h : ∀ x ∈ l, ∀ i σ, x = some (i, σ) → phaseCalc D (f i) σ = phaseCalc D (g i) σ ∧ (f i).pscale = (g i).pscale) :
    determine D (l.map (Option.map fun x => (f x.1, x.2))) = determine D (l.map (Option.map fun x => (g x.1, x.2))) := by
  unfold determine
  rw [total_congr D f g l h]

/-! ### Printed numbers -/

/-- A number with at most `d` decimal places. -/
def Dec (d : ℕ) (x : Num) : Prop := ∃ n : ℕ, x.mag = n / 10 ^ d

theorem rnd_dec {d : ℕ} {x : Num} (h : Dec d x) : rndNum d x = x := by
  obtain ⟨n, hn⟩ := h
  unfold rndNum
  have : x.mag * 10 ^ d = n := by rw [hn]; field_simp
  rw [this, rhe_nat, ← hn]

theorem dec_rnd (d : ℕ) (x : Num) : Dec d (rndNum d x) := ⟨_, rfl⟩

theorem dec_zero (d : ℕ) (b : Bool) : Dec d ⟨b, 0⟩ := ⟨0, by simp⟩

/-- The numbers that enter the calculation have at most as many decimal places as are printed. -/
structure Printable (s : Stru Num Entry) : Prop where
  pscale : Dec 6 s.hdr.pscale
  sharp : ∀ x ∈ s.hdr.sharp, Dec 6 x
  spdiameter : Dec 6 s.hdr.spdiameter
  stepcut : Dec 6 s.hdr.stepcut
  cell : ∀ x ∈ s.hdr.cell, Dec 6 x
  occ : ∀ a ∈ s.atoms, Dec 4 (a.2.getD 3 ⟨false, 0⟩)
  /-- Positions and displacement parameters. -/
  rest : ∀ a ∈ s.atoms, ∀ k ∈ [0, 1, 2, 8, 9, 10, 14, 15, 16], Dec 8 (a.2.getD k ⟨false, 0⟩)

theorem num_map {l : List Num} (h : ∀ x ∈ l, Dec 6 x) : l.map (rndNum 6) = l := by
  conv_rhs => rw [← List.map_id l]
  exact List.map_congr_left fun x hx => rnd_dec (h x hx)

theorem zip_get (l : List Num) (k d : ℕ) (hk : precs[k]? = some d) :
    (List.zipWith rndNum precs l).getD k ⟨false, 0⟩ = rndNum d (l.getD k ⟨false, 0⟩) := by
  rw [List.getD_eq_getElem?_getD, List.getD_eq_getElem?_getD, List.getElem?_zipWith, hk]
  cases l[k]? with
  | none => exact (rnd_dec (dec_zero d false)).symm
  | some x => rfl

theorem val_pos {x : Num} (h : Dec 6 x) (p : Scat.PT) (eight : ℚ) : (env p eight).pos x = true ↔ 0 < real x := by
  obtain ⟨n, hn⟩ := h
  have h0 : 0 ≤ x.mag := by rw [hn]; positivity
  simp only [env, Bool.and_eq_true, Bool.not_eq_true', decide_eq_true_eq]
  unfold real
  cases hx : x.neg
  · simp
  · simp
    exact_mod_cast h0

theorem shape_val {x : Num} (h : Dec 6 x) (p : Scat.PT) (eight : ℚ) : real (roundShape (env p eight) rndNum x) = if 0 < real x then real x else 0 := by
  unfold roundShape
  by_cases hx : (env p eight).pos x = true
  · rw [if_pos hx, if_pos ((val_pos h p eight).1 hx), rnd_dec h]
  · rw [if_neg hx, if_neg (fun e => hx ((val_pos h p eight).2 e))]
    simp [env, real]

/-- The phase that is read is the phase that was saved. -/
theorem phase_round {s : Stru Num Entry} (h : Printable s) (sf : Entry → ℝ) (p : Scat.PT) (eight : ℚ) :
    phaseOf sf (C35.round (env p eight) rndNum s) = clean (phaseOf sf s) := by
  have hc : cellOf (C35.round (env p eight) rndNum s).hdr = cellOf s.hdr := by
    unfold cellOf
    simp only [C35.round, num_map h.cell]
  have ha : (C35.round (env p eight) rndNum s).atoms.map (atomOf sf) = s.atoms.map (atomOf sf) := by
    simp only [C35.round, List.map_map]
    refine List.map_congr_left fun a ha => ?_
    have h8 : ∀ k ∈ [0, 1, 2, 8, 9, 10, 14, 15, 16], num (List.zipWith rndNum precs a.2) k = num a.2 k := by
      intro k hk
      unfold num
      have : precs[k]? = some 8 := by revert k; decide
      rw [zip_get a.2 k 8 this, rnd_dec (h.rest a ha k hk)]
    have h4 : num (List.zipWith rndNum precs a.2) 3 = num a.2 3 := by
      unfold num
      rw [zip_get a.2 3 4 (by decide), rnd_dec (h.occ a ha)]
    simp only [Function.comp_apply, atomOf]
    rw [h4, h8 8 (by simp), h8 9 (by simp), h8 10 (by simp), h8 14 (by simp), h8 15 (by simp), h8 16 (by simp)]
    congr 1
    funext k
    fin_cases k
    · exact h8 0 (by simp)
    · exact h8 1 (by simp)
    · exact h8 2 (by simp)
  unfold phaseOf clean
  rw [hc, ha]
  simp only [C35.round, num_map h.sharp, rnd_dec h.pscale, shape_val h.spdiameter, shape_val h.stepcut]

/-! ### The claim -/

/-- **C99, the part that holds**: all structures are saved and read. What is missing: numbers with more digits, for which the PDF is that of the printed
numbers (C35 bounds the changes of the numbers). -/
theorem C99_same_partial {p : Scat.PT} (hp : Scat.PT.init Scat.table = .ok p) (eight : ℚ) (sf : ℕ → Entry → ℝ)
    (l : List (Stru Num Entry)) (hg : ∀ s ∈ l, Good s) (hl : ∀ s ∈ l, latOf s.hdr = .ok ()) (hd : ∀ s ∈ l, Printable s) :
    ∃ l' : List (Stru Num Entry), l'.length = l.length ∧
      (∀ (k : ℕ) (s : Stru Num Entry), l[k]? = some s → ∃ s', l'[k]? = some s' ∧ Stru.read (env p eight) latOf (save (env p eight) s) = .ok s') ∧
      ∀ (D : Data) (sel : ℕ → Option Sel), determine D (l'.mapIdx fun k s => (sel k).map fun σ => (phaseOf (sf k) s, σ)) =
        determine D (l.mapIdx fun k s => (sel k).map fun σ => (phaseOf (sf k) s, σ)) := by
  have hread : ∀ s ∈ l, Stru.read (env p eight) latOf (save (env p eight) s) = .ok (C35.round (env p eight) rndNum s) := by
    intro s hs
    rw [(roundtrip_partial hp eight latOf s (hg s hs)).1]
    have : latOf (C35.round (env p eight) rndNum s).hdr = latOf s.hdr := by
      unfold latOf cellOf
      simp only [C35.round, num_map (hd s hs).cell]
    rw [this, hl s hs, Res.bind_ok]
  refine ⟨l.map (C35.round (env p eight) rndNum), by simp, ?_, ?_⟩
  · intro k s hk
    exact ⟨_, by rw [List.getElem?_map, hk]; rfl, hread s (List.mem_of_getElem? hk)⟩
  · intro D sel
    have key := determine_congr D (fun x : ℕ × Stru Num Entry => phaseOf (sf x.1) (C35.round (env p eight) rndNum x.2))
      (fun x : ℕ × Stru Num Entry => phaseOf (sf x.1) x.2) (l.mapIdx fun k s => (sel k).map fun σ => ((k, s), σ)) (by
        intro x hx i σ e
        obtain ⟨k, hk, rfl⟩ := List.mem_mapIdx.1 hx
        have hs : i.2 ∈ l := by
          cases h : sel k with
          | none => rw [h] at e; simp at e
          | some τ => rw [h] at e; simp at e; rw [← e.1]; exact List.getElem_mem hk
        rw [phase_round (hd i.2 hs)]
        exact ⟨phaseCalc_clean D _ _, rfl⟩)
    have e1 : ∀ f : ℕ × Stru Num Entry → PPhase, (l.mapIdx fun k s => (sel k).map fun σ => ((k, s), σ)).map (Option.map fun x => (f x.1, x.2)) =
        l.mapIdx fun k s => (sel k).map fun σ => (f (k, s), σ) := by
      intro f
      apply List.ext_getElem?
      intro k
      rw [List.getElem?_map, List.getElem?_mapIdx, List.getElem?_mapIdx]
      cases l[k]? <;> cases sel k <;> rfl
    refine Eq.trans ?_ ((congrArg (determine D) (e1 fun x => phaseOf (sf x.1) (C35.round (env p eight) rndNum x.2))).symm.trans
      (key.trans (congrArg (determine D) (e1 fun x => phaseOf (sf x.1) x.2))))
    refine congrArg (determine D) (List.ext_getElem? fun k => ?_)
    rw [List.getElem?_mapIdx, List.getElem?_mapIdx, List.getElem?_map]
    cases l[k]? <;> rfl

/-- **C99, the part that holds** for all structures: a structure that has been saved and read is the same, as far as the PDF is concerned, after
it has been saved and read again. -/
theorem C99_again_partial {p : Scat.PT} (hp : Scat.PT.init Scat.table = .ok p) (eight : ℚ) (s r : Stru Num Entry) (hs : Good s)
    (hr : Stru.read (env p eight) latOf (save (env p eight) s) = .ok r) :
    ∃ r', Stru.read (env p eight) latOf (save (env p eight) r) = .ok r' ∧
      ∀ (sf : Entry → ℝ) (D : Data) (σ : Sel), determine D [some (phaseOf sf r', σ)] = determine D [some (phaseOf sf r, σ)] := by
  have hgood := read_good (env p eight) latOf _ _ hr
  rw [(roundtrip_partial hp eight latOf s hs).1] at hr
  have hlat : latOf (C35.round (env p eight) rndNum s).hdr = .ok () ∧ r = C35.round (env p eight) rndNum s := by
    rcases h : latOf (C35.round (env p eight) rndNum s).hdr with u | e | _
    · rw [h, Res.bind_ok] at hr
      injection hr with hr
      exact ⟨rfl, hr.symm⟩
    · rw [h] at hr; exact absurd hr (by simp [bind, Res.bind])
    · rw [h] at hr; exact absurd hr (by simp [bind, Res.bind])
  obtain ⟨hlat, rfl⟩ := hlat
  have hsh : ∀ x, Dec 6 (roundShape (env p eight) rndNum x) := by
    intro x
    unfold roundShape
    split_ifs
    · exact dec_rnd 6 x
    · exact dec_zero 6 false
  have hP : Printable (C35.round (env p eight) rndNum s) := by
    have hz : ∀ a ∈ (C35.round (env p eight) rndNum s).atoms, ∀ k d, precs[k]? = some d → Dec d (a.2.getD k ⟨false, 0⟩) := by
      intro a ha k d hk
      obtain ⟨b, -, rfl⟩ := List.mem_map.1 ha
      rw [zip_get b.2 k d hk]
      exact dec_rnd _ _
    refine ⟨dec_rnd _ _, ?_, hsh _, hsh _, ?_, fun a ha => hz a ha 3 4 (by decide), fun a ha k hk => hz a ha k 8 (by revert k; decide)⟩
    · intro x hx
      obtain ⟨y, -, rfl⟩ := List.mem_map.1 hx
      exact dec_rnd _ _
    · intro x hx
      obtain ⟨y, -, rfl⟩ := List.mem_map.1 hx
      exact dec_rnd _ _
  obtain ⟨l', h1, h2, h3⟩ := C99_same_partial hp eight (fun _ => fun _ => 0) [C35.round (env p eight) rndNum s] (by simpa using hgood) (by simpa using hlat) (by simpa using hP)
  obtain ⟨s', -, hs'⟩ := h2 0 _ rfl
  refine ⟨s', hs', fun sf D σ => ?_⟩
  obtain ⟨l', h1, h2, h3⟩ := C99_same_partial hp eight (fun _ => sf) [C35.round (env p eight) rndNum s] (by simpa using hgood) (by simpa using hlat) (by simpa using hP)
  obtain ⟨t, ht, ht'⟩ := h2 0 _ rfl
  have e : s' = t := Res.ok.inj (hs'.symm.trans ht')
  obtain ⟨a, rfl⟩ := List.length_eq_one_iff.1 h1
  have ha : a = s' := (Option.some.inj ht).trans e.symm
  rw [← ha]
  exact h3 D fun _ => some σ

/-! ### Scattering factors -/

/-- Two atoms in a cubic cell, without displacement parameters. -/
def pair (e f : Entry) : Stru Num Entry where
  hdr := { name := "pair".toList, spcgr := "P1".toList, pscale := ⟨false, 1⟩, sharp := [⟨false, 0⟩, ⟨false, 0⟩, ⟨false, 1⟩, ⟨false, 0⟩],
           spdiameter := ⟨false, 0⟩, stepcut := ⟨true, 1⟩, cell := [⟨false, 3⟩, ⟨false, 3⟩, ⟨false, 3⟩, ⟨false, 90⟩, ⟨false, 90⟩, ⟨false, 90⟩],
           dcell := List.replicate 6 ⟨false, 1 / 3⟩, ncell := [1, 1, 1, 2], discus := false }
  atoms := [(e, ⟨false, 0⟩ :: ⟨false, 0⟩ :: ⟨false, 0⟩ :: ⟨false, 1⟩ :: List.replicate 16 ⟨false, 0⟩),
    (f, ⟨false, 1 / 2⟩ :: ⟨true, 1 / 2⟩ :: ⟨false, 1 / 2⟩ :: ⟨false, 1⟩ :: List.replicate 16 ⟨false, 0⟩)]

theorem pair_good (e f : Entry) : Good (pair e f) where
  nl := by simp only [pair]; decide
  strip := by simp only [pair]; decide
  spcgr := by simp only [pair]; decide
  sharp := rfl
  cell := rfl
  dcell := rfl
  ncell := rfl
  vals := by
    intro a ha
    simp only [pair, List.mem_cons, List.not_mem_nil, or_false] at ha
    rcases ha with rfl | rfl <;> rfl
  tot := rfl

theorem pair_printable (e f : Entry) : Printable (pair e f) where
  pscale := ⟨1000000, by norm_num [pair]⟩
  sharp := by
    intro x hx
    simp only [pair, List.mem_cons, List.not_mem_nil, or_false] at hx
    rcases hx with rfl | rfl | rfl | rfl
    · exact dec_zero _ _
    · exact dec_zero _ _
    · exact ⟨1000000, by norm_num⟩
    · exact dec_zero _ _
  spdiameter := dec_zero _ _
  stepcut := ⟨1000000, by norm_num [pair]⟩
  cell := by
    intro x hx
    simp only [pair, List.mem_cons, List.not_mem_nil, or_false] at hx
    rcases hx with rfl | rfl | rfl | rfl | rfl | rfl
    · exact ⟨3000000, by norm_num⟩
    · exact ⟨3000000, by norm_num⟩
    · exact ⟨3000000, by norm_num⟩
    · exact ⟨90000000, by norm_num⟩
    · exact ⟨90000000, by norm_num⟩
    · exact ⟨90000000, by norm_num⟩
  occ := by
    intro a ha
    simp only [pair, List.mem_cons, List.not_mem_nil, or_false] at ha
    rcases ha with rfl | rfl <;> exact ⟨10000, by norm_num⟩
  rest := by
    intro a ha k hk
    simp only [pair, List.mem_cons, List.not_mem_nil, or_false] at ha
    simp only [List.mem_cons, List.not_mem_nil, or_false] at hk
    rcases ha with rfl | rfl
    · rcases hk with rfl | rfl | rfl | rfl | rfl | rfl | rfl | rfl | rfl <;> exact dec_zero _ _
    · rcases hk with rfl | rfl | rfl | rfl | rfl | rfl | rfl | rfl | rfl
      · exact ⟨50000000, by norm_num⟩
      · exact ⟨50000000, by norm_num⟩
      · exact ⟨50000000, by norm_num⟩
      all_goals exact dec_zero _ _

theorem pair_voll (e f : Entry) : voll (cellOf (pair e f).hdr) = 1 := by
  have h : ∀ i, (cellOf (pair e f).hdr).win i = 90 := by
    intro i
    fin_cases i <;> simp [cellOf, pair, num, real]
  unfold voll
  rw [h, h, h, C45.cosd90]
  norm_num

theorem pair_lat (e f : Entry) : latOf (pair e f).hdr = .ok () := by
  unfold latOf lattice
  rw [pair_voll, if_neg (by norm_num [eps])]
  rfl

/-- Only the pairs of the first atom with its images. -/
def first : Sel := ⟨fun i => decide (i ≠ 0), fun i => decide (i ≠ 0)⟩

/-- Calculated points at 1 and 3/2. -/
noncomputable def pts : Data := ⟨1, 1 / 2, 1, 3 / 2, 0, 0, 0, 1⟩

section
variable (e f : Entry) (sf : Entry → ℝ)

theorem pair_np : (phaseOf sf (pair e f)).np = 2 := by
  norm_num [PPhase.np, phaseOf, pair, atomOf, num, real]

theorem pair_ncv : (phaseOf sf (pair e f)).ncv = 27 := by
  have h : ∀ i, (cellOf (pair e f).hdr).a0 i = 3 := by
    intro i
    fin_cases i <;> simp [cellOf, pair, num, real]
  show (_ : ℕ) * vol (cellOf (pair e f).hdr) = _
  unfold vol
  rw [pair_voll, h, h, h]
  norm_num [phaseOf, pair]

theorem pair_bavg : (phaseOf sf (pair e f)).bavg = (sf e + sf f) / 2 := by
  unfold PPhase.bavg
  rw [pair_np]
  norm_num [phaseOf, pair, atomOf, num, real]

theorem pair_pairs : halfPairs (phaseOf sf (pair e f)).atom.length = [(0, 0), (0, 1), (1, 1)] := by
  show halfPairs 2 = _
  decide +kernel

theorem pair_w (k : ℕ) (x : ℝ) (h : ((phaseOf sf (pair e f)).atm k).sf = x) : (phaseOf sf (pair e f)).weight k = x / ((sf e + sf f) / 2) := by
  unfold PPhase.weight
  rw [pair_bavg, h]

theorem pair_rtot (h : 0 < sf e) (h' : 0 < sf f) : rtot (phaseOf sf (pair e f)) = 4 := by
  unfold rtot half
  rw [pair_pairs]
  simp only [List.map_cons, List.map_nil, List.sum_cons, List.sum_nil]
  rw [pair_w e f sf 0 (sf e) rfl, pair_w e f sf 1 (sf f) rfl]
  have : sf e + sf f ≠ 0 := by positivity
  simp
  field_simp
  ring

theorem pair_ract (h : 0 < sf e) (h' : 0 < sf f) : ract (phaseOf sf (pair e f)) first = 4 * (sf e / (sf e + sf f)) ^ 2 := by
  unfold ract half
  rw [pair_pairs, show ([(0, 0), (0, 1), (1, 1)].filter fun x : ℕ × ℕ => !skip first x.1 x.2) = [(0, 0)] from by decide]
  simp only [List.map_cons, List.map_nil, List.sum_cons, List.sum_nil]
  rw [pair_w e f sf 0 (sf e) rfl]
  have : sf e + sf f ≠ 0 := by positivity
  simp
  field_simp
  ring

theorem pair_atm (k : ℕ) (j : Fin 6) : ((phaseOf sf (pair e f)).atm k).u j = 0 := by
  match k with
  | 0 => fin_cases j <;> simp [PPhase.atm, phaseOf, pair, atomOf, num, real]
  | 1 => fin_cases j <;> simp [PPhase.atm, phaseOf, pair, atomOf, num, real]
  | n + 2 => rfl

theorem pair_event (x) : eventOf pts (phaseOf sf (pair e f)) x = .skip := by
  have : ∀ v, (phaseOf sf (pair e f)).msd ((phaseOf sf (pair e f)).atm x.1.1) ((phaseOf sf (pair e f)).atm x.1.2) v = 0 := by
    intro v
    unfold PPhase.msd
    simp only [pair_atm]
    ring
  unfold eventOf event
  simp only [this, Real.sqrt_zero]
  split_ifs <;> simp_all

theorem pair_ncmin : pts.ncmin = 0 := by norm_num [Data.ncmin, Data.rcmin, pts, nint]
theorem pair_ncmax : pts.ncmax = 1 := by norm_num [Data.ncmax, Data.rcmax, pts, nint]

theorem pair_calc (h : 0 < sf e) (h' : 0 < sf f) : ∃ t, determine pts [some (phaseOf sf (pair e f), first)] = .ok (some t) ∧
    t 0 = -(8 * Real.pi / 27) * (sf e / (sf e + sf f)) ^ 2 := by
  have hp : ppp pts (phaseOf sf (pair e f)) first = .ok [0, 0] := by
    unfold ppp
    have : ((visited pts (phaseOf sf (pair e f)) first).flatMap fun x => incs pts (phaseOf sf (pair e f)) x.1.1 x.1.2 (eventOf pts (phaseOf sf (pair e f)) x)) = [] := by
      rw [List.flatMap_eq_nil_iff]
      intro x _
      rw [pair_event]
      rfl
    rw [this, pair_ncmax]
    rfl
  have hb : ¬Bad pts (phaseOf sf (pair e f)) first := by
    rintro (⟨x, -, hx⟩ | hx | hx | hx | hx | ⟨i, h1, -, hx⟩)
    · rw [pair_event] at hx; cases hx
    · rw [pair_np] at hx; norm_num at hx
    · rw [pair_ncv] at hx; norm_num at hx
    · rw [pair_bavg] at hx; linarith
    · rw [pair_rtot e f sf h h'] at hx; norm_num at hx
    · rw [pair_ncmin] at h1
      have : (0 : ℝ) ≤ i := by exact_mod_cast h1
      simp only [Data.r, pts] at hx
      linarith
  have hq : ¬0 < pts.qmax := by norm_num [pts]
  have hc : phaseCalc pts (phaseOf sf (pair e f)) first = .ok (some (calcAt pts (phaseOf sf (pair e f)) first [0, 0])) := by
    unfold phaseCalc
    rw [hp, Res.bind_ok, if_neg (by rw [pair_ncmin]; simp), if_neg hb]
  refine ⟨fun i => pts.dscale * (phaseOf sf (pair e f)).pscale * calcAt pts (phaseOf sf (pair e f)) first [0, 0] i + 0, ?_, ?_⟩
  · unfold determine Det.total Det.total
    simp only [hc, Res.bind_ok, if_neg hq]
    rfl
  · have h1 : (phaseOf sf (pair e f)).pscale = 1 := by simp [phaseOf, pair, real]
    have h2 : envelope pts (phaseOf sf (pair e f)) (pts.r 0) = 1 := by
      have a : ¬0 < (phaseOf sf (pair e f)).stepcut := by norm_num [phaseOf, pair, real]
      have b : ¬0 < (phaseOf sf (pair e f)).spdiameter := by norm_num [phaseOf, pair, real]
      have c : ¬0 < pts.qdamp := by norm_num [pts]
      unfold envelope
      rw [if_neg a, if_neg b, if_neg c]
      norm_num
    have h3 : pts.r 0 = 1 := by norm_num [Data.r, pts]
    have h4 : pts.dscale = 1 := rfl
    have h5 : (phaseOf sf (pair e f)).rho0 = 2 / 27 := by
      unfold PPhase.rho0
      rw [pair_np, pair_ncv]
    unfold calcAt
    beta_reduce
    rw [h2, h1, h3, h4, h5, pair_ract e f sf h h', pair_rtot e f sf h h', show [(0 : ℝ), 0].getD (0 : ℤ).toNat 0 = 0 from rfl]
    ring
end

/-- **C99, violated**: the phase has the scattering factors `sf'`, where that of the element `e` has been set. The structure is saved and read; then the phase has the factors of
the table (C37) and another PDF, though all numbers of the file are exact. -/
theorem C99_scat_violated {p : Scat.PT} (hp : Scat.PT.init Scat.table = .ok p) (eight : ℚ) (e f : Entry) (sf sf' : Entry → ℝ)
    (he : 0 < sf e) (hf : 0 < sf f) (hv : 0 < sf' e) (hne : sf' e ≠ sf e) (u2 : sf' f = sf f) :
    ∃ s r : Stru Num Entry, Good s ∧ Printable s ∧ s.atoms.map Prod.fst = [e, f] ∧ Stru.read (env p eight) latOf (save (env p eight) s) = .ok r ∧
      ∃ (D : Data) (σ : Sel), determine D [some (phaseOf sf' s, σ)] ≠ determine D [some (phaseOf sf r, σ)] := by
  obtain ⟨l', h1, h2, h3⟩ := C99_same_partial hp eight (fun _ => sf) [pair e f] (by simpa using pair_good e f) (by simpa using pair_lat e f)
    (by simpa using pair_printable e f)
  obtain ⟨r, hr, hr'⟩ := h2 0 _ rfl
  obtain ⟨a, rfl⟩ := List.length_eq_one_iff.1 h1
  have ha : a = r := Option.some.inj hr
  refine ⟨pair e f, r, pair_good e f, pair_printable e f, rfl, hr', pts, first, ?_⟩
  have e3 : determine pts [some (phaseOf sf r, first)] = determine pts [some (phaseOf sf (pair e f), first)] := by
    rw [← ha]
    exact h3 pts fun _ => some first
  rw [e3]
  obtain ⟨t, ht, ht0⟩ := pair_calc e f sf' hv (by rw [u2]; exact hf)
  obtain ⟨t', ht', ht0'⟩ := pair_calc e f sf he hf
  rw [ht, ht']
  intro hc
  have hc : t 0 = t' 0 := congrFun (Option.some.inj (Res.ok.inj hc)) 0
  rw [ht0, ht0', u2] at hc
  generalize sf' e = v at *
  have hpi := Real.pi_pos
  have hq : (v / (v + sf f)) ^ 2 = (sf e / (sf e + sf f)) ^ 2 := by
    have : Real.pi * (v / (v + sf f)) ^ 2 = Real.pi * (sf e / (sf e + sf f)) ^ 2 := by linarith
    exact mul_left_cancel₀ hpi.ne' this
  have hq' : v / (v + sf f) = sf e / (sf e + sf f) := by
    exact (pow_left_inj₀ (by positivity) (by positivity) two_ne_zero).1 hq
  rw [div_eq_div_iff (by positivity) (by positivity)] at hq'
  apply hne
  have : sf f * (v - sf e) = 0 := by linarith
  rcases mul_eq_zero.1 this with h | h
  · exact absurd h hf.ne'
  · linarith

/-- The numbers of the line `sharp` and of the shape lines in the calculation: a header with `sharp delta2, delta1, sratio, rcut`. -/
theorem C99_members (sf : Entry → ℝ) (s : Stru Num Entry) (d2 d1 sr rc : Num) (h : s.hdr.sharp = [d2, d1, sr, rc]) :
    (phaseOf sf s).delta2 = real d2 ∧ (phaseOf sf s).delta1 = real d1 ∧ (phaseOf sf s).sratio = real sr ∧ (phaseOf sf s).rcut = real rc ∧
    (phaseOf sf s).stepcut = real s.hdr.stepcut ∧ (phaseOf sf s).spdiameter = real s.hdr.spdiameter ∧ (phaseOf sf s).pscale = real s.hdr.pscale := by
  unfold phaseOf num
  rw [h]
  exact ⟨rfl, rfl, rfl, rfl, rfl, rfl, rfl⟩

/-- Two elements of the table: the hypotheses of the theorems hold for the pair, whose saved text is read. -/
example {p : Scat.PT} (hp : Scat.PT.init Scat.table = .ok p) (e f : Entry) : Good (pair e f) ∧ Printable (pair e f) ∧ latOf (pair e f).hdr = .ok () ∧
    ∃ r, Stru.read (env p 0) latOf (save (env p 0) (pair e f)) = .ok r := by
  refine ⟨pair_good e f, pair_printable e f, pair_lat e f, ?_⟩
  obtain ⟨l', -, h2, -⟩ := C99_same_partial hp 0 (fun _ _ => 1) [pair e f] (by simpa using pair_good e f) (by simpa using pair_lat e f)
    (by simpa using pair_printable e f)
  obtain ⟨r, -, hr⟩ := h2 0 _ rfl
  exact ⟨r, hr⟩

/-- There are entries in the table. -/
example : Nonempty Entry := ⟨⟨_, List.getElem_mem (l := Scat.table) (n := 0) (by decide +kernel)⟩⟩

end Pdffit.C99
