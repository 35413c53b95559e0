import Verif.Lemmas.RefineLin

/-! The refinement loop for a model that depends linearly on the free parameters. -/

namespace Pdffit
set_option linter.unusedSectionVars false
variable {K W : Type} [Field K] [LinearOrder K] [IsStrictOrderedRing K]

namespace Lin

/-- Same identifiers and flags, same values of the fixed parameters. -/
def Adm (p0 par : ParStore K) : Prop :=
  SameKeys p0 par ∧ ∀ i, i < p0.p.length → p0.ip.getD i false = false → par.p.getD i 0 = p0.p.getD i 0

/-- Distance from the starting values. -/
def off (p0 par : ParStore K) (i : ℕ) : K := par.p.getD i 0 - p0.p.getD i 0

def shift (s : Finset ℕ) (y : ℕ → K) (B : List (List (Pt K))) : List (List (Pt K)) :=
  B.map (List.map fun pt => { pt with mod := pt.mod + lin s pt y })

/-- The same points, apart from derivatives with respect to other parameters than `s`. -/
def Agree (s : Finset ℕ) (A B : List (List (Pt K))) : Prop :=
  List.Forall₂ (List.Forall₂ fun p q => p.w = q.w ∧ p.obs = q.obs ∧ p.mod = q.mod ∧ ∀ l ∈ s, p.d l = q.d l) A B

theorem Agree.refl (s : Finset ℕ) (A : List (List (Pt K))) : Agree s A A :=
  List.forall₂_same.2 fun _ _ => List.forall₂_same.2 fun _ _ => ⟨rfl, rfl, rfl, fun _ _ => rfl⟩

theorem Agree.sum {s : Finset ℕ} {A B : List (List (Pt K))} (h : Agree s A B) (f g : Pt K → K)
    (hf : ∀ p q, p.w = q.w → p.obs = q.obs → p.mod = q.mod → (∀ l ∈ s, p.d l = q.d l) → f p = g q) :
    (A.flatten.map f).sum = (B.flatten.map g).sum := by
  induction h with
  | nil => rfl
  | cons h _ ih =>
    rw [List.flatten_cons, List.flatten_cons, List.map_append, List.map_append, List.sum_append, List.sum_append, ih]
    congr 1
    clear ih
    induction h with
    | nil => rfl
    | cons h _ ih =>
      rw [List.map_cons, List.map_cons, List.sum_cons, List.sum_cons, ih, hf _ _ h.1 h.2.1 h.2.2.1 h.2.2.2]

/-- The curve depends linearly on the free parameters: with the values of `par` every evaluation succeeds, and the points are
those of the start, `B`, moved along their derivatives. -/
def LinTh (th : Theory K W) (p0 : ParStore K) (P : W → Prop) (B : List (List (Pt K))) : Prop :=
  ∀ par w, Adm p0 par → P w → ∃ w', th.eval par w = (w', none) ∧ P w' ∧ Agree (Fr p0) (th.pts w') (shift (Fr p0) (off p0 par) B)

theorem shift_flatten (s : Finset ℕ) (y : ℕ → K) (B : List (List (Pt K))) :
    (shift s y B).flatten = B.flatten.map fun pt => { pt with mod := pt.mod + lin s pt y } := by
  unfold shift
  rw [List.map_flatten]

theorem shift_chi (s : Finset ℕ) (y : ℕ → K) (B : List (List (Pt K))) : chisqOf (shift s y B) = chiAt s B.flatten y := by
  unfold chisqOf chiAt
  rw [shift_flatten, List.map_map]
  rfl

theorem shift_wn (s : Finset ℕ) (y : ℕ → K) (B : List (List (Pt K))) : wnormOf (shift s y B) = wnormOf B := by
  unfold wnormOf
  rw [shift_flatten, List.map_map]
  rfl

theorem shift_det {p0 : ParStore K} (s : Finset ℕ) (y : ℕ → K) {B : List (List (Pt K))} (h : Determined p0 B) :
    Determined p0 (shift s y B) := by
  refine ⟨?_, ?_⟩
  · intro pt hpt
    rw [shift_flatten] at hpt
    obtain ⟨q, hq, rfl⟩ := List.mem_map.1 hpt
    exact h.weight q hq
  · intro z hz
    refine h.indep z fun pt hpt hw => ?_
    exact hz { pt with mod := pt.mod + lin s pt y } (by
      rw [shift_flatten]
      exact List.mem_map_of_mem hpt) hw

theorem det_congr {p0 par : ParStore K} (hk : SameKeys p0 par) {B : List (List (Pt K))} (h : Determined p0 B) : Determined par B := by
  refine ⟨h.weight, ?_⟩
  rw [hk.1, hk.2.2]
  exact h.indep

/-- Between two calls. -/
structure LinInv (th : Theory K W) (p0 : ParStore K) (P : W → Prop) (B : List (List (Pt K))) (wk : Work K) (e : Eng K W) : Prop where
  adm : Adm p0 e.par
  world : P e.world
  wn : wnormOf (th.pts e.world) = wnormOf B
  ma : wk.ma = e.ma
  mfit : wk.mfit = nfree e.ia e.ma
  och : wk.ochisq = chiAt (Fr p0) B.flatten (off p0 e.par)
  chi : e.chisq = chiAt (Fr p0) B.flatten (off p0 e.par)
  atry : ∀ l, l < e.ma → e.ia l = false → wk.atry l = e.a l
  eqs : NormalEqs e.ia e.ma (shift (Fr p0) (off p0 e.par) B) e.alpha wk.beta

variable {th : Theory K W} {p0 : ParStore K} {P : W → Prop} {B : List (List (Pt K))}

theorem LinInv.congr {wk : Work K} {e e' : Eng K W} (h : LinInv th p0 P B wk e) (h1 : e'.par = e.par)
    (h2 : e'.world = e.world) (h3 : e'.chisq = e.chisq) (h4 : e'.alpha = e.alpha) : LinInv th p0 P B wk e' := by
  obtain ⟨a1, a2, a3, a4, a5, a6, a7, a8, a9⟩ := h
  have i1 : e'.ia = e.ia := by unfold Eng.ia; rw [h1]
  have i2 : e'.ma = e.ma := by unfold Eng.ma; rw [h1]
  have i3 : e'.a = e.a := by unfold Eng.a; rw [h1]
  exact ⟨h1 ▸ a1, h2 ▸ a2, h2 ▸ a3, i2 ▸ a4, by rw [i1, i2]; exact a5, by rw [h1]; exact a6, by rw [h3, h1]; exact a7,
    by rw [i2, i1, i3]; exact a8, by rw [i1, i2, h4, h1]; exact a9⟩

theorem adm_setP {e : Eng K W} (h : Adm p0 e.par) (a : ℕ → K) (ha : ∀ l, l < e.ma → e.ia l = false → a l = e.a l) :
    Adm p0 (e.setP a).par := by
  refine ⟨⟨h.1.1, h.1.2.1, ?_⟩, ?_⟩
  · simp only [Eng.setP, Eng.ma, List.length_map, List.length_range]; exact h.1.2.2
  · intro i hi hf
    have hi' : i < e.ma := by show i < e.par.p.length; rw [h.1.2.2]; exact hi
    have h1 : (e.setP a).a i = a i := Eng.setP_a e a i hi'
    show (e.setP a).a i = _
    rw [h1, ha i hi' (by unfold Eng.ia; rw [h.1.1]; exact hf)]
    exact h.2 i hi hf

theorem mem_Fr_eng {e : Eng K W} (h : Adm p0 e.par) (i : ℕ) : i ∈ Fr p0 ↔ i < e.ma ∧ e.ia i = true := by
  rw [mem_Fr]
  unfold Eng.ma Eng.ia
  rw [h.1.1, h.1.2.2]

theorem Fr_eng {e : Eng K W} (h : Adm p0 e.par) : Fr p0 = (Finset.range e.ma).filter (fun j => e.ia j = true) := by
  ext i
  rw [mem_Fr_eng h, Finset.mem_filter, Finset.mem_range]

/-- Evaluation at admissible values. -/
theorem mrqcof_lin (hl : LinTh th p0 P B) (e : Eng K W) (a al be) (hp : Adm p0 (e.setP a).par) (hw : P e.world) :
    ∃ e1 al1 be1, mrqcof th e a al be = (e1, .ok (al1, be1)) ∧ e1.par = (e.setP a).par ∧ P e1.world ∧
      wnormOf (th.pts e1.world) = wnormOf B ∧ e1.chisq = chiAt (Fr p0) B.flatten (off p0 e1.par) ∧ e1.alpha = e.alpha ∧
      e1.alambda = e.alambda ∧ Frame e e1 ∧
      NormalEqs e.ia e.ma (shift (Fr p0) (off p0 e1.par) B) al1 be1 := by
  obtain ⟨w', h1, h2, h3⟩ := hl (e.setP a).par e.world hp hw
  have hc : mrqcof th e a al be = ({ e.setP a with world := w', chisq := (mrqAcc (e.setP a).ia (e.setP a).ma (th.pts w') al be).2.2.1, cum := (mrqAcc (e.setP a).ia (e.setP a).ma (th.pts w') al be).2.2.2 }, .ok ((mrqAcc (e.setP a).ia (e.setP a).ma (th.pts w') al be).1, (mrqAcc (e.setP a).ia (e.setP a).ma (th.pts w') al be).2.1)) := by
    unfold mrqcof
    dsimp only
    have : (e.setP a).world = e.world := rfl
    rw [this, h1]
  have hn := mrqcof_norm th _ _ _ _ _ _ _ hc
  have hf := mrqcof_frame th e a al be
  rw [hc] at hf
  refine ⟨_, _, _, hc, rfl, h2, ?_, ?_, rfl, rfl, hf, ?_⟩
  · rw [← shift_wn (Fr p0) (off p0 (e.setP a).par) B]
    exact h3.sum _ _ fun p q e1 e2 _ _ => by rw [e1, e2]
  · refine (chisq_eq (e.setP a).ia (e.setP a).ma (th.pts w') al be).trans ?_
    rw [← shift_chi]
    exact h3.sum _ _ fun p q e1 e2 e3 _ => by rw [e1, e2, e3]
  · obtain ⟨h4, h5⟩ := hn.2.2.1
    have hmem : ∀ l, l < e.ma → e.ia l = true → l ∈ Fr p0 := fun l hl hf => by
      rw [mem_Fr_eng hp, (Frame.setP e a).ia, (Frame.setP e a).ma]
      exact ⟨hl, hf⟩
    refine ⟨fun l m hl hm fl fm => ?_, fun l hl fl => ?_⟩
    · rw [h4 l m hl hm fl fm]
      exact h3.sum _ _ fun p q e1 _ _ e4 => by rw [e1, e4 l (hmem l hl fl), e4 m (hmem m hm fm)]
    · rw [h5 l hl fl]
      exact h3.sum _ _ fun p q e1 e2 e3 e4 => by rw [e1, e2, e3, e4 l (hmem l hl fl)]

theorem mrqInit_lin (hl : LinTh th p0 P B) (old) (e : Eng K W) (hp : Adm p0 e.par) (hw : P e.world) :
    ∃ wk e1, mrqInit th old e = (wk, e1, none) ∧ LinInv th p0 P B wk e1 ∧ e1.alambda = 1 / 1000 ∧ Frame e e1 ∧ e1.par = e.par := by
  have hpar : (Eng.setP { e with alambda := 1 / 1000 } ({ e with alambda := 1 / 1000 } : Eng K W).a).par = e.par :=
    setP_eq_par ({ e with alambda := 1 / 1000 } : Eng K W) _ fun _ _ => rfl
  obtain ⟨e1, al1, be1, hc, g1, g2, g3, g4, g5, g6, g7, g8⟩ :=
    mrqcof_lin hl { e with alambda := 1 / 1000 } ({ e with alambda := 1 / 1000 } : Eng K W).a e.alpha (fun _ => 0)
      (by rw [hpar]; exact hp) hw
  rw [hpar] at g1
  have hia : e1.ia = e.ia := g7.ia
  have hma : e1.ma = e.ma := g7.ma
  refine ⟨⟨e.ma, nfree e.ia e.ma, e1.chisq, e1.a, be1, fun _ => 0⟩,
    { e1 with alpha := al1, rw2 := e1.chisq / wnormOf (th.pts e1.world) }, ?_, ?_, ?_, ?_, g1⟩
  · unfold mrqInit
    dsimp only
    rw [hc]
    rfl
  · refine ⟨g1 ▸ hp, g2, g3, hma.symm, ?_, g4, g4, fun _ _ _ => rfl, ?_⟩
    · show nfree e.ia e.ma = nfree e1.ia e1.ma
      rw [hia, hma]
    · show NormalEqs e1.ia e1.ma _ al1 be1
      rw [hia, hma]
      exact g8
  · exact g6
  · exact ⟨g7.iter, g7.stag, g7.och, g7.ip, g7.id, g7.len⟩

theorem solveNormal_solves {mfit : Nat} {m : Nat → Nat → K} (hd : Matrix.det (fun (i j : Fin mfit) => m i j) ≠ 0)
    (be : Nat → K) (c) (da) :
    ∃ c' d', solveNormal mfit m be c da = .ok (c', d') ∧ ∀ i : Fin mfit, ∑ j : Fin mfit, m i j * d' j = be i := by
  unfold solveNormal
  rcases C13.C13_gaussj_inverts_or_reports_singular (n := mfit) (m := 1)
    (fun i j => m i j) (fun i _ => be i) with ⟨h, _⟩ | ⟨_, A', X, h, h1, h2, h3⟩
  · exact absurd h hd
  · rw [h]
    refine ⟨_, _, rfl, fun i => ?_⟩
    have h4 := congrFun (congrFun h3 i) 0
    refine Eq.trans (Finset.sum_congr rfl fun j _ => ?_) h4
    rw [dif_pos j.2]

/-- Distance of chi-square from its minimum, which lies at `x`. -/
def exc (p0 : ParStore K) (B : List (List (Pt K))) (x : ℕ → K) (par : ParStore K) : K :=
  bil (Fr p0) B.flatten (fun i => off p0 par i - x i) (fun i => off p0 par i - x i)

theorem lin_congr {s : Finset ℕ} {y z : ℕ → K} (h : ∀ i ∈ s, y i = z i) (pt : Pt K) : lin s pt y = lin s pt z :=
  Finset.sum_congr rfl fun i hi => by rw [h i hi]

theorem bil_congr {s : Finset ℕ} {L : List (Pt K)} {y z : ℕ → K} (h : ∀ i ∈ s, y i = z i) : bil s L y y = bil s L z z := by
  unfold bil
  simp only [lin_congr h]

theorem row_congr {s : Finset ℕ} {L : List (Pt K)} {y z : ℕ → K} (h : ∀ i ∈ s, y i = z i) (i : ℕ) : row s L i y = row s L i z := by
  unfold row
  simp only [lin_congr h]

/-- The trial step solves the damped normal equations, so it approaches the minimum. -/
theorem step_exc (hB : Determined p0 B) {μ : K} (hμ : 0 < μ)
    (hc : ∀ y, μ * ∑ i ∈ Fr p0, diag B.flatten i * y i ^ 2 ≤ bil (Fr p0) B.flatten y y) {x : ℕ → K}
    (hx : ∀ i ∈ Fr p0, grad (Fr p0) B.flatten i x = 0) {wk : Work K} {e : Eng K W} (h : LinInv th p0 P B wk e)
    (hlam : 0 < e.alambda) (da : ℕ → K)
    (hs : ∀ i : Fin wk.mfit, ∑ j : Fin wk.mfit, augmented e i j * da j = wk.beta i) (par : ParStore K)
    (hpar : ∀ i ∈ Fr p0, off p0 par i = off p0 e.par i + da (nfree e.ia i)) :
    (e.alambda + μ) ^ 2 * exc p0 B x par ≤ e.alambda ^ 2 * exc p0 B x e.par := by
  have hmf := h.mfit
  have hF := Fr_eng h.adm
  -- the equations for the free parameters
  have heq : ∀ i ∈ Fr p0, row (Fr p0) B.flatten i (fun j => da (nfree e.ia j)) + e.alambda * diag B.flatten i * da (nfree e.ia i) =
      grad (Fr p0) B.flatten i (off p0 e.par) := by
    intro i hi
    obtain ⟨hi1, hi2⟩ := (mem_Fr_eng h.adm i).1 hi
    have hri := nfree_lt e.ia hi1 hi2
    have h1 := hs ⟨nfree e.ia i, by rw [hmf]; exact hri⟩
    dsimp only at h1
    have hbeta := h.eqs.2 i hi1 hi2
    rw [shift_flatten, List.map_map] at hbeta
    have hbeta' : wk.beta (nfree e.ia i) = grad (Fr p0) B.flatten i (off p0 e.par) := hbeta
    rw [hbeta'] at h1
    have hal : ∀ j ∈ Fr p0, e.alpha (nfree e.ia i) (nfree e.ia j) = (B.flatten.map fun pt => pt.w * pt.d i * pt.d j).sum := by
      intro j hj
      obtain ⟨hj1, hj2⟩ := (mem_Fr_eng h.adm j).1 hj
      have := h.eqs.1 i j hi1 hj1 hi2 hj2
      rw [shift_flatten, List.map_map] at this
      exact this
    have h2 : ∑ j ∈ Fr p0, augmented e (nfree e.ia i) (nfree e.ia j) * da (nfree e.ia j) =
        grad (Fr p0) B.flatten i (off p0 e.par) := by
      rw [← h1, hF]
      have := sum_free e.ia e.ma (fun t => augmented e (nfree e.ia i) t * da t)
        (fun j => augmented e (nfree e.ia i) (nfree e.ia j) * da (nfree e.ia j)) (fun j _ _ _ => rfl)
      rw [this]
      rw [hmf]
    rw [← h2, row_pts]
    have hone : ∀ j ∈ Fr p0, augmented e (nfree e.ia i) (nfree e.ia j) * da (nfree e.ia j) =
        (B.flatten.map fun pt => pt.w * pt.d i * pt.d j).sum * da (nfree e.ia j) +
        if j = i then e.alambda * diag B.flatten i * da (nfree e.ia i) else 0 := by
      intro j hj
      obtain ⟨hj1, hj2⟩ := (mem_Fr_eng h.adm j).1 hj
      unfold augmented
      by_cases hij : j = i
      · subst hij
        rw [if_pos rfl, if_pos rfl, hal j hj]
        unfold diag
        ring
      · rw [if_neg hij, if_neg fun hn => hij (nfree_inj e.ia hj2 hi2 hn.symm), hal j hj, add_zero]
    rw [Finset.sum_congr rfl hone, Finset.sum_add_distrib, Finset.sum_ite_eq' (Fr p0) i, if_pos hi]
  have hz : ∀ i ∈ Fr p0, row (Fr p0) B.flatten i (fun j => off p0 par j - x j) = e.alambda * diag B.flatten i * (- da (nfree e.ia i)) := by
    intro i hi
    have h1 := heq i hi
    rw [grad_sub (Fr p0) B.flatten i x (off p0 e.par), hx i hi, zero_add] at h1
    have h2 : row (Fr p0) B.flatten i (fun j => off p0 par j - x j) =
        row (Fr p0) B.flatten i (fun j => (fun j => da (nfree e.ia j)) j - (fun j => x j - off p0 e.par j) j) := by
      refine row_congr (fun j hj => ?_) i
      dsimp only
      rw [hpar j hj]
      ring
    rw [h2, row_sub, ← h1]
    ring
  have hcon := contract (Fr p0) hB.weight hμ hlam hc hz
  have h3 : bil (Fr p0) B.flatten (fun i => (off p0 par i - x i) + - da (nfree e.ia i)) (fun i => (off p0 par i - x i) + - da (nfree e.ia i)) =
      exc p0 B x e.par := by
    unfold exc
    refine bil_congr fun i hi => ?_
    rw [hpar i hi]
    ring
  rw [h3] at hcon
  exact hcon

theorem chi_exc {x : ℕ → K} (hx : ∀ i ∈ Fr p0, grad (Fr p0) B.flatten i x = 0) (par : ParStore K) :
    chiAt (Fr p0) B.flatten (off p0 par) = chiAt (Fr p0) B.flatten x + exc p0 B x par :=
  chi_min (Fr p0) B.flatten hx _

theorem exc_nonneg (hB : Determined p0 B) (x : ℕ → K) (par : ParStore K) : 0 ≤ exc p0 B x par := bil_nonneg _ hB.weight _

theorem mrqTry_lin (hl : LinTh th p0 P B) (hB : Determined p0 B) {μ : K} (hμ : 0 < μ)
    (hc : ∀ y, μ * ∑ i ∈ Fr p0, diag B.flatten i * y i ^ 2 ≤ bil (Fr p0) B.flatten y y) {x : ℕ → K}
    (hx : ∀ i ∈ Fr p0, grad (Fr p0) B.flatten i x = 0) (wk : Work K) (e : Eng K W) (h : LinInv th p0 P B wk e)
    (hlam : 0 < e.alambda) :
    ∃ wk' e', mrqTry th wk e = (some wk', e', .more) ∧ LinInv th p0 P B wk' e' ∧ Frame e e' ∧ 0 < e'.alambda ∧
      (e.alambda + μ) ^ 2 * exc p0 B x e'.par ≤ e.alambda ^ 2 * exc p0 B x e.par ∧
      (exc p0 B x e.par ≠ 0 → e'.alambda = e.alambda / 10) := by
  have hdet := augmented_det_pts e wk.mfit h.mfit _ wk.beta h.eqs (det_congr h.adm.1 (shift_det _ _ hB)) hlam.le
  obtain ⟨cov, da, hs, hz⟩ := solveNormal_solves hdet wk.beta e.covar wk.da
  set atry : ℕ → K := fun l => if l < e.ma ∧ e.ia l = true then e.a l + da (nfree e.ia l) else wk.atry l with hat
  have hfix : ∀ l, l < e.ma → e.ia l = false → atry l = e.a l := by
    intro l h1 h2
    rw [hat]
    dsimp only
    rw [if_neg (by rw [h2]; simp)]
    exact h.atry l h1 h2
  have hadm : Adm p0 (Eng.setP { e with covar := cov } atry).par := adm_setP (e := { e with covar := cov }) h.adm atry hfix
  obtain ⟨e1, al1, be1, hco, g1, g2, g3, g4, g5, g6, g7, g8⟩ := mrqcof_lin hl { e with covar := cov } atry cov da hadm h.world
  have hia : e1.ia = e.ia := g7.ia
  have hma : e1.ma = e.ma := g7.ma
  have hadm1 : Adm p0 e1.par := g1 ▸ hadm
  have hoff : ∀ i ∈ Fr p0, off p0 e1.par i = off p0 e.par i + da (nfree e.ia i) := by
    intro i hi
    have hi' := (mem_Fr_eng h.adm i).1 hi
    have h1 : (Eng.setP { e with covar := cov } atry).a i = atry i := Eng.setP_a _ _ i hi'.1
    have h2 : e1.par.p.getD i 0 = atry i := by
      rw [g1]; exact h1
    unfold off
    rw [h2, hat]
    dsimp only
    rw [if_pos hi']
    unfold Eng.a
    ring
  have hstep := step_exc hB hμ hc hx h hlam da hz e1.par hoff
  have hE0 := exc_nonneg hB x e.par
  have hE1 := exc_nonneg hB x e1.par
  have hfr : Frame e { e1 with covar := al1 } := ⟨g7.iter, g7.stag, g7.och, g7.ip, g7.id, g7.len⟩
  have hch : e1.chisq = chiAt (Fr p0) B.flatten x + exc p0 B x e1.par := g4.trans (chi_exc hx _)
  have hoc : wk.ochisq = chiAt (Fr p0) B.flatten x + exc p0 B x e.par := h.och.trans (chi_exc hx _)
  by_cases hE : exc p0 B x e.par = 0
  · -- already there: rejected
    have hE1z : exc p0 B x e1.par = 0 := by
      rw [hE, mul_zero] at hstep
      have : 0 < (e.alambda + μ) ^ 2 := by positivity
      nlinarith
    have hpar : (Eng.setP { e1 with covar := al1 } e.a).par = e.par := by
      refine parStore_ext ?_ g7.ip g7.id
      rw [← Eng.setP_self e]
      exact setP_congr _ _ hfr.ma (fun _ _ => rfl)
    have hfs := hfr.trans (Frame.setP { e1 with covar := al1 } e.a)
    have hiaS := hfs.ia
    have hmaS := hfs.ma
    have haS : (Eng.setP { e1 with covar := al1 } e.a).a = e.a := by
      funext l
      show (Eng.setP { e1 with covar := al1 } e.a).par.p.getD l 0 = e.par.p.getD l 0
      rw [hpar]
    refine ⟨{ wk with atry := atry, da := be1 },
      { (Eng.setP { e1 with covar := al1 } e.a) with alambda := e1.alambda * 10, chisq := wk.ochisq }, ?_, ?_, ?_, ?_, ?_, ?_⟩
    · unfold mrqTry
      rw [hs]
      dsimp only
      rw [if_neg hlam.ne', hco]
      dsimp only
      rw [if_neg (by rw [hch, hoc, hE, hE1z]; exact lt_irrefl _)]
    · refine ⟨by dsimp only; rw [hpar]; exact h.adm, g2, g3, h.ma.trans hmaS.symm, ?_, ?_, ?_, ?_, ?_⟩
      · show wk.mfit = nfree (Eng.ia (Eng.setP { e1 with covar := al1 } e.a)) (Eng.ma (Eng.setP { e1 with covar := al1 } e.a))
        rw [hiaS, hmaS]; exact h.mfit
      · dsimp only; rw [hpar]; exact h.och
      · dsimp only; rw [hpar]; exact h.och
      · show ∀ l, l < Eng.ma (Eng.setP { e1 with covar := al1 } e.a) → Eng.ia (Eng.setP { e1 with covar := al1 } e.a) l = false →
          atry l = Eng.a (Eng.setP { e1 with covar := al1 } e.a) l
        rw [hiaS, hmaS, haS]
        exact hfix
      · show NormalEqs (Eng.ia (Eng.setP { e1 with covar := al1 } e.a)) (Eng.ma (Eng.setP { e1 with covar := al1 } e.a))
          (shift (Fr p0) (off p0 (Eng.setP { e1 with covar := al1 } e.a).par) B) e1.alpha wk.beta
        rw [hiaS, hmaS, hpar, g5]; exact h.eqs
    · exact ⟨hfs.iter, hfs.stag, hfs.och, hfs.ip, hfs.id, hfs.len⟩
    · show 0 < e1.alambda * 10
      rw [g6]
      show 0 < e.alambda * 10
      positivity
    · dsimp only
      rw [hpar, hE, mul_zero, mul_zero]
    · exact fun h => absurd hE h
  · -- accepted
    have hpos : 0 < exc p0 B x e.par := lt_of_le_of_ne hE0 (Ne.symm hE)
    have hlt : exc p0 B x e1.par < exc p0 B x e.par := by
      by_contra hn
      have h1 : (e.alambda + μ) ^ 2 * exc p0 B x e.par ≤ (e.alambda + μ) ^ 2 * exc p0 B x e1.par := by
        have := not_lt.1 hn
        gcongr
      have h2 : e.alambda ^ 2 * exc p0 B x e.par < (e.alambda + μ) ^ 2 * exc p0 B x e.par := by
        have : e.alambda < e.alambda + μ := by linarith
        gcongr
      linarith
    have hpar : (Eng.setP { e1 with covar := al1 } atry).par = e1.par := by
      refine parStore_ext ?_ rfl rfl
      refine Eq.trans ?_ (congrArg ParStore.p g1).symm
      exact setP_congr _ _ hfr.ma (fun _ _ => rfl)
    have hfs := hfr.trans (Frame.setP { e1 with covar := al1 } atry)
    have hiaS := hfs.ia
    have hmaS := hfs.ma
    refine ⟨{ wk with ochisq := e1.chisq, atry := atry, da := be1, beta := be1 },
      { (Eng.setP { e1 with covar := al1 } atry) with alambda := e1.alambda / 10, alpha := al1 }, ?_, ?_, ?_, ?_, ?_, ?_⟩
    · unfold mrqTry
      rw [hs]
      dsimp only
      rw [if_neg hlam.ne', hco]
      dsimp only
      rw [if_pos (by rw [hch, hoc]; linarith)]
    · refine ⟨by dsimp only; rw [hpar]; exact hadm1, g2, g3, h.ma.trans hmaS.symm, ?_, ?_, ?_, ?_, ?_⟩
      · show wk.mfit = nfree (Eng.ia (Eng.setP { e1 with covar := al1 } atry)) (Eng.ma (Eng.setP { e1 with covar := al1 } atry))
        rw [hiaS, hmaS]; exact h.mfit
      · dsimp only; rw [hpar]; exact g4
      · dsimp only; rw [hpar]; exact g4
      · intro l hl _
        exact (Eng.setP_a { e1 with covar := al1 } atry l (by show l < e1.ma; rw [hma, ← hmaS]; exact hl)).symm
      · show NormalEqs (Eng.ia (Eng.setP { e1 with covar := al1 } atry)) (Eng.ma (Eng.setP { e1 with covar := al1 } atry))
          (shift (Fr p0) (off p0 (Eng.setP { e1 with covar := al1 } atry).par) B) al1 be1
        rw [hiaS, hmaS, hpar]; exact g8
    · exact ⟨hfs.iter, hfs.stag, hfs.och, hfs.ip, hfs.id, hfs.len⟩
    · show 0 < e1.alambda / 10
      rw [g6]
      show 0 < e.alambda / 10
      positivity
    · dsimp only
      rw [hpar]; exact hstep
    · intro _
      show e1.alambda / 10 = e.alambda / 10
      rw [g6]

/-! ## The loop -/

/-- Damping of step `j` (from 0). -/
def lamAt (j : ℕ) : K := 1 / 1000 / 10 ^ j

/-- What `k` steps leave of the distance from the minimum. -/
def rate (μ : K) (k : ℕ) : K := ∏ j ∈ Finset.range k, (lamAt j / (lamAt j + μ)) ^ 2

theorem lamAt_pos (j : ℕ) : 0 < (lamAt j : K) := by unfold lamAt; positivity

theorem rate_nonneg (μ : K) (k : ℕ) : 0 ≤ rate μ k := Finset.prod_nonneg fun _ _ => sq_nonneg _

theorem rate_succ (μ : K) (k : ℕ) : rate μ (k + 1) = rate μ k * (lamAt k / (lamAt k + μ)) ^ 2 := Finset.prod_range_succ _ _

/-- After `k` calls of `refine_step`. -/
structure LinRun (th : Theory K W) (p0 : ParStore K) (P : W → Prop) (B : List (List (Pt K))) (μ E0 : K) (x : ℕ → K) (k : ℕ)
    (s : Statics K) (e : Eng K W) : Prop where
  run : s.fitRunning = true
  it : e.iter = k
  stag : e.stagnating + 1 ≤ k
  lam : 0 < e.alambda
  fast : exc p0 B x e.par ≠ 0 → e.alambda = lamAt k
  near : exc p0 B x e.par ≤ rate μ k * E0
  work : ∃ wk, s.work = some wk ∧ LinInv th p0 P B wk e

theorem near_step {μ lam E E' R E0 : K} (hμ : 0 < μ) (hl : 0 < lam) (hR : 0 ≤ R) (hE0 : 0 ≤ E0) {k : ℕ}
    (h : (lam + μ) ^ 2 * E' ≤ lam ^ 2 * E) (hf : E ≠ 0 → lam = lamAt k) (hn : E ≤ R * E0) :
    E' ≤ R * (lamAt k / (lamAt k + μ)) ^ 2 * E0 := by
  by_cases hE : E = 0
  · rw [hE, mul_zero] at h
    have h1 : 0 < (lam + μ) ^ 2 := by positivity
    have h2 : E' ≤ 0 := by
      by_contra hn
      have := mul_pos h1 (not_le.1 hn)
      linarith
    exact h2.trans (mul_nonneg (mul_nonneg hR (sq_nonneg _)) hE0)
  · rw [← hf hE]
    have h1 : 0 < (lam + μ) ^ 2 := by positivity
    have h2 : E' ≤ (lam / (lam + μ)) ^ 2 * E := by
      rw [div_pow, div_mul_eq_mul_div, le_div_iff₀ h1, mul_comm]
      exact h
    calc E' ≤ (lam / (lam + μ)) ^ 2 * E := h2
      _ ≤ (lam / (lam + μ)) ^ 2 * (R * E0) := by gcongr
      _ = _ := by ring

section
variable (hl : LinTh th p0 P B) (hB : Determined p0 B) {μ : K} (hμ : 0 < μ)
  (hc : ∀ y, μ * ∑ i ∈ Fr p0, diag B.flatten i * y i ^ 2 ≤ bil (Fr p0) B.flatten y y) {x : ℕ → K}
  (hx : ∀ i ∈ Fr p0, grad (Fr p0) B.flatten i x = 0)
include hl hB hμ hc hx

theorem refineStep_lin_first (toler : K) (s : Statics K) (e : Eng K W)
    (hfresh : ¬ (s.fitRunning = true ∧ e.iter ≠ 0)) (hp : e.par = p0) (w : W)
    (hset : th.setup p0 e.world = (w, none)) (hw : P w) :
    (refineStep th toler s e).2.2 = .more ∧
    LinRun th p0 P B μ (exc p0 B x p0) x 1 (refineStep th toler s e).1 (refineStep th toler s e).2.1 := by
  unfold refineStep
  rw [if_neg hfresh]
  dsimp only
  rw [hp, hset]
  dsimp only
  unfold refineBody
  rw [if_pos (Or.inl (by simp))]
  unfold mrqmin
  rw [if_pos (by simp)]
  have hadm : Adm p0 e.par := by rw [hp]; exact ⟨⟨rfl, rfl, rfl⟩, fun _ _ _ => rfl⟩
  obtain ⟨wk, e1, h1, h2, h3, h4, h5⟩ := mrqInit_lin hl s.work
    ({ e with iter := 0, alambda := -1, stagnating := 0, chisq := th.dmax, world := w, ochisq := th.dmax } : Eng K W)
    hadm hw
  have hlam : 0 < e1.alambda := by rw [h3]; positivity
  obtain ⟨wk', e', g1, g2, g3, g4, g5, g6⟩ := mrqTry_lin hl hB hμ hc hx wk e1 h2 hlam
  have hit : e'.iter = 0 := g3.iter.trans h4.iter
  have hpe : e1.par = p0 := h5.trans hp
  have hlam0 : e1.alambda = lamAt 0 := by rw [h3]; simp [lamAt]
  have h1' := h1
  rw [hp] at h1'
  rw [h1']
  dsimp only
  rw [g1]
  dsimp only
  rw [if_neg (by rw [hit]; simp)]
  refine ⟨rfl, rfl, by show e'.iter + 1 = 1; rw [hit], by show 0 + 1 ≤ 1; omega, g4, ?_, ?_, wk', rfl, g2.congr rfl rfl rfl rfl⟩
  · intro hne
    have hne' : exc p0 B x e1.par ≠ 0 := by
      intro h0
      rw [h0, mul_zero] at g5
      have h6 := exc_nonneg hB x e'.par
      have h7 : 0 < (e1.alambda + μ) ^ 2 := by positivity
      exact hne (le_antisymm (by
        by_contra hn
        have := mul_pos h7 (not_le.1 hn)
        linarith) h6)
    show e'.alambda = lamAt 1
    rw [g6 hne', hlam0]
    simp [lamAt]
  · have := near_step hμ hlam (R := rate μ 0) (rate_nonneg μ 0) (exc_nonneg hB x p0) (k := 0) g5
      (fun _ => hlam0) (by rw [hpe]; simp [rate])
    show exc p0 B x e'.par ≤ rate μ (0 + 1) * exc p0 B x p0
    rw [rate_succ]
    exact this

theorem refineStep_lin_mid (toler : K) {E0 : K} (hE0 : 0 ≤ E0) (k : ℕ) (hk : 0 < k) (s : Statics K) (e : Eng K W)
    (h : LinRun th p0 P B μ E0 x k s e) (hcont : k < 3 ∨ e.stagnating < 3 ∧ k < 100) :
    (refineStep th toler s e).2.2 = .more ∧
    LinRun th p0 P B μ E0 x (k + 1) (refineStep th toler s e).1 (refineStep th toler s e).2.1 := by
  obtain ⟨h1, h2, h3, h4, h7, h8, wk, h5, h6⟩ := h
  unfold refineStep
  rw [if_pos ⟨h1, by rw [h2]; omega⟩]
  unfold refineBody
  rw [if_pos (by rw [h2]; exact hcont)]
  unfold mrqmin
  rw [if_neg (not_lt.2 h4.le), h5]
  dsimp only
  rw [if_pos ⟨h6.ma, h6.mfit⟩]
  obtain ⟨wk', e', g1, g2, g3, g4, g5, g6⟩ := mrqTry_lin hl hB hμ hc hx wk { e with ochisq := e.chisq } (h6.congr rfl rfl rfl rfl) h4
  dsimp only at g5 g6
  rw [g1]
  dsimp only
  have hit : e'.iter = k := g3.iter.trans h2
  have hst : e'.stagnating = e.stagnating := g3.stag
  refine ⟨rfl, rfl, by show e'.iter + 1 = k + 1; rw [hit], ?_, g4, ?_, ?_, wk', rfl, g2.congr rfl rfl rfl rfl⟩
  · dsimp only
    split
    · rw [hst]; omega
    · omega
  · intro hne
    have hne' : exc p0 B x e.par ≠ 0 := by
      intro h0
      rw [h0, mul_zero] at g5
      have h6 := exc_nonneg hB x e'.par
      have h7 : 0 < (e.alambda + μ) ^ 2 := by positivity
      exact hne (le_antisymm (by
        by_contra hn
        have := mul_pos h7 (not_le.1 hn)
        linarith) h6)
    show e'.alambda = lamAt (k + 1)
    rw [g6 hne', h7 hne']
    unfold lamAt
    rw [pow_succ]
    field_simp
  · show exc p0 B x e'.par ≤ rate μ (k + 1) * E0
    rw [rate_succ]
    exact near_step hμ h4 (rate_nonneg μ k) hE0 g5 h7 h8

theorem refineStep_lin_last (toler : K) {E0 : K} (k : ℕ) (hk : 0 < k) (s : Statics K) (e : Eng K W)
    (h : LinRun th p0 P B μ E0 x k s e) (hcont : ¬ (k < 3 ∨ e.stagnating < 3 ∧ k < 100)) :
    (refineStep th toler s e).2.2 = .done ∧ (refineStep th toler s e).2.1.par = e.par ∧ Adm p0 e.par ∧
    exc p0 B x e.par ≤ rate μ k * E0 ∧
    (refineStep th toler s e).2.1.chisq = chiAt (Fr p0) B.flatten (off p0 e.par) ∧
    (refineStep th toler s e).2.1.rw2 = chiAt (Fr p0) B.flatten (off p0 e.par) / wnormOf B ∧
    P (refineStep th toler s e).2.1.world ∧
    ∃ w0, P w0 ∧ th.eval e.par w0 = ((refineStep th toler s e).2.1.world, none) := by
  obtain ⟨h1, h2, h3, h4, h7, h8, wk, h5, h6⟩ := h
  unfold refineStep
  rw [if_pos ⟨h1, by rw [h2]; omega⟩]
  unfold refineBody
  rw [if_neg (by rw [h2]; exact hcont)]
  unfold mrqmin
  rw [if_neg (lt_irrefl _), h5]
  dsimp only
  rw [if_pos ⟨h6.ma, h6.mfit⟩]
  have hmore : (mrqTry th wk { e with alambda := 0 }).2.2 = .more := by
    obtain ⟨cov, da, hs, -⟩ := solveNormal_solves
      (augmented_det_pts { e with alambda := 0 } wk.mfit h6.mfit _ wk.beta h6.eqs (det_congr h6.adm.1 (shift_det _ _ hB)) le_rfl)
      wk.beta e.covar wk.da
    unfold mrqTry
    rw [hs]
    dsimp only
    rw [if_pos rfl, h6.mfit]
    obtain ⟨c1, hc1, -⟩ := covsrt_spec e.ia e.ma cov
    obtain ⟨c2, hc2, -⟩ := covsrt_spec e.ia e.ma e.alpha
    show (match covsrt cov e.ma e.ia (nfree e.ia e.ma), covsrt e.alpha e.ma e.ia (nfree e.ia e.ma) with
      | .ok c, .ok al => (none, ({ e with alambda := 0, covar := c, alpha := al } : Eng K W), Outcome.more)
      | _, _ => ((none : Option (Work K)), { e with alambda := 0 }, Outcome.corrupt)).2.2 = .more
    rw [hc1, hc2]
  have hfin := mrqTry_final th wk { e with alambda := 0 } h6.mfit rfl hmore
  dsimp only at hfin
  generalize mrqTry th wk { e with alambda := 0 } = r at hmore hfin ⊢
  obtain ⟨wk', e', o⟩ := r
  dsimp only at hmore hfin ⊢
  subst hmore
  obtain ⟨f1, f2, f3, f4, -⟩ := hfin
  dsimp only
  obtain ⟨w', k1, k2, k3⟩ := hl e'.par e'.world (by rw [f1]; exact h6.adm) (by rw [f4]; exact h6.world)
  rw [k1]
  refine ⟨rfl, f1, h6.adm, h8, ?_, ?_, k2, e'.world, by rw [f4]; exact h6.world, by rw [← f1]; exact k1⟩
  · show e'.chisq = _
    rw [f3, h6.chi]
  · show e'.chisq / wnormOf (th.pts e'.world) = _
    rw [f3, h6.chi, f4, h6.wn]

theorem refineLoop_lin_run (toler : K) {E0 : K} (hE0 : 0 ≤ E0) : ∀ (n k : ℕ), n + k = 100 → 0 < k → ∀ (s : Statics K) (e : Eng K W),
    LinRun th p0 P B μ E0 x k s e → ∀ fuel, n + 1 ≤ fuel → ∃ c, k ≤ c ∧ 4 ≤ c ∧ c ≤ 100 ∧
    (refineLoop th toler fuel (s, e)).2 = (.done, c - k + 1) ∧
    Adm p0 (refineLoop th toler fuel (s, e)).1.2.par ∧
    exc p0 B x (refineLoop th toler fuel (s, e)).1.2.par ≤ rate μ c * E0 ∧
    (refineLoop th toler fuel (s, e)).1.2.chisq = chiAt (Fr p0) B.flatten (off p0 (refineLoop th toler fuel (s, e)).1.2.par) ∧
    (refineLoop th toler fuel (s, e)).1.2.rw2 = chiAt (Fr p0) B.flatten (off p0 (refineLoop th toler fuel (s, e)).1.2.par) / wnormOf B ∧
    P (refineLoop th toler fuel (s, e)).1.2.world ∧
    ∃ w0, P w0 ∧ th.eval (refineLoop th toler fuel (s, e)).1.2.par w0 = ((refineLoop th toler fuel (s, e)).1.2.world, none) := by
  intro n
  induction n with
  | zero =>
    intro k hk hk0 s e h fuel hf
    obtain ⟨m, rfl⟩ : ∃ m, fuel = m + 1 := ⟨fuel - 1, by omega⟩
    obtain ⟨a1, a2, a3, a4, a5, a6, a7, a8⟩ := refineStep_lin_last hl hB hμ hc hx toler k hk0 s e h (by omega)
    rw [refineLoop_succ_done th toler _ _ _ a1]
    refine ⟨k, le_rfl, by omega, by omega, by simp, ?_⟩
    dsimp only
    rw [a2]
    exact ⟨a3, a4, a5, a6, a7, a8⟩
  | succ n ih =>
    intro k hk hk0 s e h fuel hf
    obtain ⟨m, rfl⟩ : ∃ m, fuel = m + 1 := ⟨fuel - 1, by omega⟩
    by_cases hcont : k < 3 ∨ e.stagnating < 3 ∧ k < 100
    · obtain ⟨a1, a2⟩ := refineStep_lin_mid hl hB hμ hc hx toler hE0 k hk0 s e h hcont
      rw [refineLoop_succ_more th toler _ _ _ a1]
      obtain ⟨c, b1, b2, b3, b4, b5⟩ := ih (k + 1) (by omega) (by omega) _ _ a2 m (by omega)
      refine ⟨c, by omega, b2, b3, ?_, b5⟩
      rw [b4]
      exact Prod.ext rfl (by dsimp only; omega)
    · obtain ⟨a1, a2, a3, a4, a5, a6, a7, a8⟩ := refineStep_lin_last hl hB hμ hc hx toler k hk0 s e h hcont
      rw [refineLoop_succ_done th toler _ _ _ a1]
      have := h.stag
      refine ⟨k, le_rfl, by omega, by omega, by simp, ?_⟩
      dsimp only
      rw [a2]
      exact ⟨a3, a4, a5, a6, a7, a8⟩

/-- The whole refinement. -/
theorem refineLoop_lin (toler : K) (s : Statics K) (e : Eng K W)
    (hfresh : ¬ (s.fitRunning = true ∧ e.iter ≠ 0)) (hp : e.par = p0) (w : W)
    (hset : th.setup p0 e.world = (w, none)) (hw : P w) (fuel : ℕ) (hf : 101 ≤ fuel) : ∃ c, 4 ≤ c ∧ c ≤ 100 ∧
    (refineLoop th toler fuel (s, e)).2 = (.done, c + 1) ∧
    Adm p0 (refineLoop th toler fuel (s, e)).1.2.par ∧
    exc p0 B x (refineLoop th toler fuel (s, e)).1.2.par ≤ rate μ c * exc p0 B x p0 ∧
    (refineLoop th toler fuel (s, e)).1.2.chisq = chiAt (Fr p0) B.flatten (off p0 (refineLoop th toler fuel (s, e)).1.2.par) ∧
    (refineLoop th toler fuel (s, e)).1.2.rw2 = chiAt (Fr p0) B.flatten (off p0 (refineLoop th toler fuel (s, e)).1.2.par) / wnormOf B ∧
    P (refineLoop th toler fuel (s, e)).1.2.world ∧
    ∃ w0, P w0 ∧ th.eval (refineLoop th toler fuel (s, e)).1.2.par w0 = ((refineLoop th toler fuel (s, e)).1.2.world, none) := by
  obtain ⟨m, rfl⟩ : ∃ m, fuel = m + 1 := ⟨fuel - 1, by omega⟩
  obtain ⟨a1, a2⟩ := refineStep_lin_first hl hB hμ hc hx toler s e hfresh hp w hset hw
  rw [refineLoop_succ_more th toler _ _ _ a1]
  obtain ⟨c, b1, b2, b3, b4, b5⟩ := refineLoop_lin_run hl hB hμ hc hx toler (exc_nonneg hB x p0) 99 1 (by omega) (by omega) _ _ a2 m (by omega)
  refine ⟨c, b2, b3, ?_, b5⟩
  rw [b4]
  exact Prod.ext rfl (by dsimp only; omega)

end
end Lin
end Pdffit
