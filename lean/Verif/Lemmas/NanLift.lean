import Verif.Lemmas.NanFit

/-! On numbers the refinement with NaN is that of `Model/Refine.lean`. -/

namespace Pdffit.Nan
open Nm
set_option linter.unusedSectionVars false
variable {K W : Type} [Field K] [LinearOrder K]

def lift1 (a : ℕ → K) : ℕ → Nm K := fun i => num (a i)
def lift2 (a : ℕ → ℕ → K) : ℕ → ℕ → Nm K := fun i j => num (a i j)
def liftPt (p : Pt K) : Pt (Nm K) := ⟨num p.w, num p.obs, num p.mod, lift1 p.d⟩
def liftPar (p : ParStore K) : ParStore (Nm K) := ⟨p.p.map num, p.ip, p.id⟩
def liftW (w : Work K) : Work (Nm K) := ⟨w.ma, w.mfit, num w.ochisq, lift1 w.atry, lift1 w.beta, lift1 w.da⟩
def liftS (s : Statics K) : Statics (Nm K) := ⟨s.fitRunning, s.work.map liftW⟩
def liftE (e : Eng K W) : Eng (Nm K) W :=
  ⟨liftPar e.par, e.world, e.iter, e.stagnating, num e.alambda, num e.chisq, num e.ochisq, lift2 e.alpha, lift2 e.covar,
    e.cum.map (List.map num), num e.rw2⟩

/-- The same theory, with numbers. -/
structure Same (th : Theory K W) (thN : Theory (Nm K) W) : Prop where
  setup : ∀ p w, thN.setup (liftPar p) w = th.setup p w
  eval : ∀ p w, thN.eval (liftPar p) w = th.eval p w
  pts : ∀ w, thN.pts w = (th.pts w).map (List.map liftPt)
  dmax : thN.dmax = num th.dmax

theorem upd2_lift (a : ℕ → ℕ → K) (i j : ℕ) (v : K) : upd2 (lift2 a) i j (num v) = lift2 (Pdffit.upd2 a i j v) := by
  funext r c
  unfold upd2 Pdffit.upd2 lift2
  dsimp only
  split_ifs <;> rfl

theorem upd_lift (a : ℕ → K) (i : ℕ) (v : K) : upd (lift1 a) i (num v) = lift1 (Pdffit.upd a i v) := by
  funext r
  unfold upd Pdffit.upd lift1
  dsimp only
  split_ifs <;> rfl

theorem accRow_lift (ia : ℕ → Bool) (d : ℕ → K) (wt : K) (j : ℕ) (al : ℕ → ℕ → K) (n : ℕ) :
    accRow ia (lift1 d) (num wt) j (lift2 al) n = ((Pdffit.accRow ia d wt j al n).1, lift2 (Pdffit.accRow ia d wt j al n).2) := by
  induction n with
  | zero => rfl
  | succ n ih =>
    unfold accRow Pdffit.accRow
    rw [ih]
    dsimp only
    split_ifs
    · dsimp only
      rw [← upd2_lift]
      rfl
    · rfl

theorem accPoint_lift (ia : ℕ → Bool) (pt : Pt K) (al : ℕ → ℕ → K) (be : ℕ → K) (n : ℕ) :
    accPoint ia (liftPt pt) (lift2 al) (lift1 be) n =
      ((Pdffit.accPoint ia pt al be n).1, lift2 (Pdffit.accPoint ia pt al be n).2.1, lift1 (Pdffit.accPoint ia pt al be n).2.2) := by
  induction n with
  | zero => rfl
  | succ n ih =>
    unfold accPoint Pdffit.accPoint
    rw [ih]
    dsimp only
    split_ifs
    · dsimp only
      rw [← upd_lift]
      have h := accRow_lift ia pt.d (pt.d n * pt.w) (Pdffit.accPoint ia pt al be n).1 (Pdffit.accPoint ia pt al be n).2.1 (n + 1)
      show (_, (accRow ia (lift1 pt.d) (num (pt.d n * pt.w)) _ _ (n + 1)).2, _) = _
      rw [h]
      rfl
    · rfl

theorem contrib_lift (p : Pt K) : contrib (liftPt p) = num (Pdffit.contrib p) := rfl

theorem cumChisq_lift : ∀ (l : List (Pt K)) (s : K), cumChisq (num s) (l.map liftPt) = (Pdffit.cumChisq s l).map num := by
  intro l
  induction l with
  | nil => intro s; rfl
  | cons p l ih =>
    intro s
    show (num s + contrib (liftPt p)) :: cumChisq (num s + contrib (liftPt p)) (l.map liftPt) = _
    rw [contrib_lift, num_add, ih]
    rfl

theorem lastOr0_lift (l : List K) : lastOr0 (l.map num) = num (Pdffit.lastOr0 l) := by
  unfold lastOr0 Pdffit.lastOr0
  rw [List.getLast?_map]
  cases l.getLast? <;> rfl

theorem mrqAcc_lift (ia : ℕ → Bool) (ma : ℕ) (dss : List (List (Pt K))) (al : ℕ → ℕ → K) (be : ℕ → K) :
    mrqAcc ia ma (dss.map (List.map liftPt)) (lift2 al) (lift1 be) =
      (lift2 (Pdffit.mrqAcc ia ma dss al be).1, lift1 (Pdffit.mrqAcc ia ma dss al be).2.1, num (Pdffit.mrqAcc ia ma dss al be).2.2.1,
        (Pdffit.mrqAcc ia ma dss al be).2.2.2.map (List.map num)) := by
  have hf : ∀ (l : List (Pt K)) (s : (ℕ → ℕ → K) × (ℕ → K)),
      (l.map liftPt).foldl (fun s pt => (accPoint ia pt s.1 s.2 ma).2) (lift2 s.1, lift1 s.2) =
        (lift2 (l.foldl (fun s pt => (Pdffit.accPoint ia pt s.1 s.2 ma).2) s).1, lift1 (l.foldl (fun s pt => (Pdffit.accPoint ia pt s.1 s.2 ma).2) s).2) := by
    intro l
    induction l with
    | nil => intro s; rfl
    | cons p l ih =>
      intro s
      rw [List.map_cons, List.foldl_cons, List.foldl_cons, accPoint_lift, ih]
  have h0 : (fun j k => if j < nfree ia ma ∧ k ≤ j then 0 else lift2 al j k) = lift2 fun j k => if j < nfree ia ma ∧ k ≤ j then 0 else al j k := by
    funext j k
    unfold lift2
    dsimp only
    split_ifs <;> rfl
  have h1 : (fun j => if j < nfree ia ma then 0 else lift1 be j) = lift1 fun j => if j < nfree ia ma then 0 else be j := by
    funext j
    unfold lift1
    dsimp only
    split_ifs <;> rfl
  have hc : (dss.map (List.map liftPt)).map (cumChisq 0) = (dss.map (Pdffit.cumChisq 0)).map (List.map num) := by
    rw [List.map_map, List.map_map]
    exact List.map_congr_left fun l _ => cumChisq_lift l 0
  have hs : ∀ (l : List (List K)) (s : K), (l.map (List.map num)).foldl (fun c l => c + lastOr0 l) (num s) =
      num (l.foldl (fun c l => c + Pdffit.lastOr0 l) s) := by
    intro l
    induction l with
    | nil => intro s; rfl
    | cons p l ih =>
      intro s
      rw [List.map_cons, List.foldl_cons, List.foldl_cons, lastOr0_lift, num_add, ih]
  unfold mrqAcc Pdffit.mrqAcc
  dsimp only
  rw [h0, h1, ← List.map_flatten, hf dss.flatten (fun j k => if j < nfree ia ma ∧ k ≤ j then 0 else al j k, fun j => if j < nfree ia ma then 0 else be j),
    hc, show (0 : Nm K) = num 0 from rfl, hs]
  refine Prod.ext ?_ rfl
  funext k j
  unfold lift2
  dsimp only
  split_ifs <;> rfl

theorem covZero_lift (c : ℕ → ℕ → K) (ma mfit : ℕ) : covZero (lift2 c) ma mfit = lift2 (Pdffit.covZero c ma mfit) := by
  funext i j
  unfold covZero Pdffit.covZero lift2
  dsimp only
  split_ifs <;> rfl

theorem covLoop_lift (ia : ℕ → Bool) : ∀ (j k : ℕ) (c : ℕ → ℕ → K), covLoop ia j k (lift2 c) = match Pdffit.covLoop ia j k c with
    | .ok c => .ok (lift2 c) | .err e => .err e | .ub => .ub := by
  intro j
  induction j with
  | zero => intro k c; rfl
  | succ j ih =>
    intro k c
    unfold covLoop Pdffit.covLoop
    split_ifs
    · cases k with
      | zero => rfl
      | succ k => exact ih k _
    · exact ih k c

theorem covsrt_lift (c : ℕ → ℕ → K) (ma : ℕ) (ia : ℕ → Bool) (mfit : ℕ) : covsrt (lift2 c) ma ia mfit = match Pdffit.covsrt c ma ia mfit with
    | .ok c => .ok (lift2 c) | .err e => .err e | .ub => .ub := by
  unfold covsrt Pdffit.covsrt
  rw [covZero_lift, covLoop_lift]

theorem wnormOf_lift (dss : List (List (Pt K))) : wnormOf (dss.map (List.map liftPt)) = num (Pdffit.wnormOf dss) := by
  unfold wnormOf Pdffit.wnormOf
  rw [← List.map_flatten]
  induction dss.flatten with
  | nil => rfl
  | cons p l ih => rw [List.map_cons, List.foldr_cons, ih, List.map_cons, List.sum_cons]; rfl

theorem ia_lift (e : Eng K W) : ia (liftE e) = e.ia := rfl

theorem ma_lift (e : Eng K W) : ma (liftE e) = e.ma := by
  show (e.par.p.map num).length = e.par.p.length
  simp

theorem arr_lift (e : Eng K W) : arr (liftE e) = lift1 e.a := by
  funext l
  show (e.par.p.map num).getD l 0 = num (e.par.p.getD l 0)
  rw [List.getD_eq_getElem?_getD, List.getD_eq_getElem?_getD, List.getElem?_map]
  cases e.par.p[l]? <;> rfl

theorem setP_lift (e : Eng K W) (a : ℕ → K) : setP (liftE e) (lift1 a) = liftE (e.setP a) := by
  unfold setP Eng.setP
  rw [ma_lift]
  unfold liftE liftPar
  simp only [List.map_map]
  rfl

/-- Both machines with the same theory. -/
theorem mrqcof_lift {th : Theory K W} {thN : Theory (Nm K) W} (h : Same th thN) (e : Eng K W) (a : ℕ → K) (al : ℕ → ℕ → K) (be : ℕ → K) :
    mrqcof thN (liftE e) (lift1 a) (lift2 al) (lift1 be) = match Pdffit.mrqcof th e a al be with
      | (e1, .error x) => (liftE e1, .error x)
      | (e1, .ok r) => (liftE e1, .ok (lift2 r.1, lift1 r.2)) := by
  unfold mrqcof Pdffit.mrqcof
  dsimp only
  rw [setP_lift, show thN.eval (liftE (e.setP a)).par (liftE (e.setP a)).world = th.eval (e.setP a).par (e.setP a).world from h.eval _ _]
  rcases he : th.eval (e.setP a).par (e.setP a).world with ⟨w, _ | x⟩
  · dsimp only
    rw [ia_lift, ma_lift, h.pts, mrqAcc_lift]
    rfl
  · rfl

theorem augmented_lift (e : Eng K W) : augmented (liftE e) = lift2 (Pdffit.augmented e) := by
  funext j k
  unfold augmented Pdffit.augmented lift2
  dsimp only
  split_ifs <;> rfl

theorem solveNormal_lift [IsStrictOrderedRing K] (mfit : ℕ) (m : ℕ → ℕ → K) (be : ℕ → K) (cov : ℕ → ℕ → K) (da : ℕ → K) :
    solveNormal mfit (lift2 m) (lift1 be) (lift2 cov) (lift1 da) = match Pdffit.solveNormal mfit m be cov da with
      | .ok r => .ok (lift2 r.1, lift1 r.2) | .err x => .err x | .ub => .ub := by
  unfold solveNormal Pdffit.solveNormal
  have h := gaussj_num (fun i j : Fin mfit => m i j) (fun (i : Fin mfit) (_ : Fin 1) => be i)
  rw [show gaussj (fun i j : Fin mfit => lift2 m i j) (fun (i : Fin mfit) (_ : Fin 1) => lift1 be i) = _ from h]
  rcases Pdffit.gaussj (fun i j : Fin mfit => m i j) (fun (i : Fin mfit) (_ : Fin 1) => be i) with ⟨inv, x⟩ | x | _
  · dsimp only
    congr 2
    · funext i j
      unfold lift2 liftM
      dsimp only
      split_ifs <;> rfl
    · funext i
      unfold lift1 liftM
      dsimp only
      split_ifs <;> rfl
  · rfl
  · rfl

def liftR (r : Option (Work K) × Eng K W × Outcome) : Option (Work (Nm K)) × Eng (Nm K) W × Outcome := (r.1.map liftW, liftE r.2.1, r.2.2)

theorem num_inj (x y : K) : (num x : Nm K) = num y ↔ x = y := ⟨fun h => by injection h, fun h => by rw [h]⟩

theorem mrqTry_lift [IsStrictOrderedRing K] {th : Theory K W} {thN : Theory (Nm K) W} (h : Same th thN) (wk : Work K) (e : Eng K W) :
    mrqTry thN (liftW wk) (liftE e) = liftR (Pdffit.mrqTry th wk e) := by
  unfold mrqTry Pdffit.mrqTry
  rw [augmented_lift, show solveNormal (liftW wk).mfit (lift2 (Pdffit.augmented e)) (liftW wk).beta (liftE e).covar (liftW wk).da = _ from
    solveNormal_lift wk.mfit (Pdffit.augmented e) wk.beta e.covar wk.da]
  rcases Pdffit.solveNormal wk.mfit (Pdffit.augmented e) wk.beta e.covar wk.da with ⟨cov, da⟩ | x | _
  · dsimp only
    by_cases hl : e.alambda = 0
    · rw [if_pos hl, if_pos (show (liftE e).alambda = 0 by show num e.alambda = num 0; rw [hl])]
      rw [show (liftE e).alpha = lift2 e.alpha from rfl, ia_lift, ma_lift, covsrt_lift, covsrt_lift]
      show (match (match Pdffit.covsrt cov e.ma e.ia wk.mfit with | .ok c => .ok (lift2 c) | .err e => .err e | .ub => .ub : Res (ℕ → ℕ → Nm K)),
        (match Pdffit.covsrt e.alpha e.ma e.ia wk.mfit with | .ok c => .ok (lift2 c) | .err e => .err e | .ub => .ub : Res (ℕ → ℕ → Nm K)) with
        | .ok c, .ok al => (none, { (liftE e) with covar := c, alpha := al }, Outcome.more)
        | _, _ => (none, liftE e, Outcome.corrupt)) = _
      rcases Pdffit.covsrt cov e.ma e.ia wk.mfit with c1 | x1 | _ <;>
        rcases Pdffit.covsrt e.alpha e.ma e.ia wk.mfit with c2 | x2 | _ <;> rfl
    · rw [if_neg hl, if_neg (show (liftE e).alambda ≠ 0 from fun h0 => hl ((num_inj _ _).1 h0))]
      have ha : (fun l => if l < ma (liftE e) ∧ ia (liftE e) l = true then arr (liftE e) l + lift1 da (nfree (ia (liftE e)) l) else (liftW wk).atry l) =
          lift1 fun l => if l < e.ma ∧ e.ia l = true then e.a l + da (nfree e.ia l) else wk.atry l := by
        funext l
        rw [ia_lift, ma_lift, arr_lift]
        unfold lift1
        dsimp only
        by_cases hc : l < e.ma ∧ e.ia l = true
        · rw [if_pos hc, if_pos hc]; rfl
        · rw [if_neg hc, if_neg hc]; rfl
      rw [ha]
      have hm := mrqcof_lift h { e with covar := cov } (fun l => if l < e.ma ∧ e.ia l = true then e.a l + da (nfree e.ia l) else wk.atry l) cov da
      rw [show mrqcof thN { (liftE e) with covar := lift2 cov } _ (lift2 cov) (lift1 da) = _ from hm]
      rcases Pdffit.mrqcof th { e with covar := cov } (fun l => if l < e.ma ∧ e.ia l = true then e.a l + da (nfree e.ia l) else wk.atry l) cov da
        with ⟨e1, x | ⟨cov1, da1⟩⟩
      · rfl
      · dsimp only
        by_cases hlt : e1.chisq < wk.ochisq
        · rw [if_pos hlt, if_pos (show (liftE e1).chisq < (liftW wk).ochisq from hlt)]
          have hs := setP_lift { e1 with covar := cov1 } (fun l => if l < e.ma ∧ e.ia l = true then e.a l + da (nfree e.ia l) else wk.atry l)
          rw [show setP { (liftE e1) with covar := lift2 cov1 } _ = _ from hs]
          rfl
        · rw [if_neg hlt, if_neg (show ¬ (liftE e1).chisq < (liftW wk).ochisq from hlt), arr_lift]
          have hs := setP_lift { e1 with covar := cov1 } e.a
          rw [show setP { (liftE e1) with covar := lift2 cov1 } _ = _ from hs]
          rfl
  · rfl
  · rfl

theorem mrqInit_lift {th : Theory K W} {thN : Theory (Nm K) W} (h : Same th thN) (old : Option (Work K)) (e : Eng K W) :
    mrqInit thN (old.map liftW) (liftE e) = (liftW (Pdffit.mrqInit th old e).1, liftE (Pdffit.mrqInit th old e).2.1, (Pdffit.mrqInit th old e).2.2) := by
  unfold mrqInit Pdffit.mrqInit
  dsimp only
  have hm := mrqcof_lift h { e with alambda := 1 / 1000 } e.a e.alpha (fun _ => 0)
  have ha : arr ({ (liftE e) with alambda := num (1 / 1000) } : Eng (Nm K) W) = lift1 e.a := arr_lift e
  rw [ha, show mrqcof thN { (liftE e) with alambda := num (1 / 1000) } (lift1 e.a) (liftE e).alpha (fun _ => 0) = _ from hm, ia_lift, ma_lift]
  have ho : ((old.map liftW).map Work.ochisq).getD 0 = num ((old.map Work.ochisq).getD 0) := by cases old <;> rfl
  rw [ho]
  rcases hr : Pdffit.mrqcof th { e with alambda := 1 / 1000 } e.a e.alpha (fun _ => 0) with ⟨e1, x | ⟨al, be⟩⟩
  · rw [show Pdffit.mrqcof th { e with alambda := 1 / 1000 } (Eng.a { e with alambda := 1 / 1000 }) e.alpha (fun _ => 0) = _ from hr]
    rfl
  · rw [show Pdffit.mrqcof th { e with alambda := 1 / 1000 } (Eng.a { e with alambda := 1 / 1000 }) e.alpha (fun _ => 0) = _ from hr]
    dsimp only
    have h1 : arr ({ (liftE e1) with alpha := lift2 al } : Eng (Nm K) W) = lift1 e1.a := arr_lift e1
    rw [h1, show thN.pts (liftE e1).world = _ from h.pts _, wnormOf_lift]
    rfl

theorem mrqmin_lift [IsStrictOrderedRing K] {th : Theory K W} {thN : Theory (Nm K) W} (h : Same th thN) (old : Option (Work K)) (e : Eng K W) :
    mrqmin thN (old.map liftW) (liftE e) = liftR (Pdffit.mrqmin th old e) := by
  unfold mrqmin Pdffit.mrqmin
  by_cases hl : e.alambda < 0
  · rw [if_pos hl, if_pos (show (liftE e).alambda < 0 from hl), mrqInit_lift h]
    rcases Pdffit.mrqInit th old e with ⟨wk, e1, _ | x⟩
    · exact mrqTry_lift h wk e1
    · rfl
  · rw [if_neg hl, if_neg (show ¬ (liftE e).alambda < 0 from hl)]
    cases old with
    | none => rfl
    | some wk =>
      dsimp only [Option.map]
      rw [ia_lift, ma_lift]
      by_cases hc : wk.ma = e.ma ∧ wk.mfit = nfree e.ia e.ma
      · rw [if_pos hc, if_pos (show (liftW wk).ma = _ ∧ (liftW wk).mfit = _ from hc)]
        exact mrqTry_lift h wk e
      · rw [if_neg hc, if_neg (show ¬ ((liftW wk).ma = _ ∧ (liftW wk).mfit = _) from hc)]
        rfl

def liftQ (r : Statics K × Eng K W × Outcome) : Statics (Nm K) × Eng (Nm K) W × Outcome := (liftS r.1, liftE r.2.1, r.2.2)

open Classical in
theorem refineBody_lift [IsStrictOrderedRing K] {th : Theory K W} {thN : Theory (Nm K) W} (h : Same th thN) (toler : K) (work : Option (Work K)) (e : Eng K W) :
    refineBody thN (num toler) (work.map liftW) (liftE e) = liftQ (Pdffit.refineBody th toler work e) := by
  unfold refineBody Pdffit.refineBody
  by_cases hc : e.iter < 3 ∨ (e.stagnating < 3 ∧ e.iter < 100)
  · rw [if_pos hc, if_pos (show (liftE e).iter < 3 ∨ ((liftE e).stagnating < 3 ∧ (liftE e).iter < 100) from hc)]
    rw [show mrqmin thN (work.map liftW) { (liftE e) with ochisq := (liftE e).chisq } = _ from mrqmin_lift h work { e with ochisq := e.chisq }]
    rcases Pdffit.mrqmin th work { e with ochisq := e.chisq } with ⟨wk, e1, _ | _ | x | _⟩
    · dsimp only [liftR]
      rw [show thN.pts (liftE e1).world = _ from h.pts _, wnormOf_lift]
      have hst : (if (liftE e1).iter ≠ 0 ∧ (liftE e1).ochisq - (liftE e1).chisq ≤ num toler * (liftE e1).ochisq then (liftE e1).stagnating + 1 else 0) =
          if e1.iter ≠ 0 ∧ e1.ochisq - e1.chisq ≤ toler * e1.ochisq then e1.stagnating + 1 else 0 := by
        by_cases hq : e1.iter ≠ 0 ∧ e1.ochisq - e1.chisq ≤ toler * e1.ochisq
        · rw [if_pos hq, if_pos (show (liftE e1).iter ≠ 0 ∧ (liftE e1).ochisq - (liftE e1).chisq ≤ num toler * (liftE e1).ochisq from hq)]
          rfl
        · rw [if_neg hq, if_neg (show ¬ ((liftE e1).iter ≠ 0 ∧ (liftE e1).ochisq - (liftE e1).chisq ≤ num toler * (liftE e1).ochisq) from hq)]
      rw [hst]
      rfl
    · rfl
    · rfl
    · rfl
  · rw [if_neg hc, if_neg (show ¬ ((liftE e).iter < 3 ∨ ((liftE e).stagnating < 3 ∧ (liftE e).iter < 100)) from hc)]
    rw [show mrqmin thN (work.map liftW) { (liftE e) with alambda := 0 } = _ from mrqmin_lift h work { e with alambda := 0 }]
    rcases Pdffit.mrqmin th work { e with alambda := 0 } with ⟨wk, e1, _ | _ | x | _⟩
    · dsimp only [liftR]
      rw [show thN.pts (liftE e1).world = _ from h.pts _, wnormOf_lift, show thN.eval (liftE e1).par (liftE e1).world = th.eval e1.par e1.world from h.eval _ _]
      rcases th.eval e1.par e1.world with ⟨w, _ | x⟩ <;> rfl
    · rfl
    · rfl
    · rfl

theorem refineStep_lift [IsStrictOrderedRing K] {th : Theory K W} {thN : Theory (Nm K) W} (h : Same th thN) (toler : K) (s : Statics K) (e : Eng K W) :
    refineStep thN (num toler) (liftS s) (liftE e) = liftQ (Pdffit.refineStep th toler s e) := by
  unfold refineStep Pdffit.refineStep
  by_cases hc : s.fitRunning = true ∧ e.iter ≠ 0
  · rw [if_pos hc, if_pos (show (liftS s).fitRunning = true ∧ (liftE e).iter ≠ 0 from hc)]
    exact refineBody_lift h toler s.work e
  · rw [if_neg hc, if_neg (show ¬ ((liftS s).fitRunning = true ∧ (liftE e).iter ≠ 0) from hc)]
    dsimp only
    rw [show thN.setup (liftE e).par (liftE e).world = th.setup e.par e.world from h.setup _ _, h.dmax]
    rcases th.setup e.par e.world with ⟨w, _ | x⟩
    · exact refineBody_lift h toler s.work { e with iter := 0, alambda := -1, stagnating := 0, chisq := th.dmax, world := w }
    · rfl

theorem refineLoop_lift [IsStrictOrderedRing K] {th : Theory K W} {thN : Theory (Nm K) W} (h : Same th thN) (toler : K) :
    ∀ (n : ℕ) (s : Statics K) (e : Eng K W), refineLoop thN (num toler) n (liftS s, liftE e) =
      ((liftS (Pdffit.refineLoop th toler n (s, e)).1.1, liftE (Pdffit.refineLoop th toler n (s, e)).1.2),
        (Pdffit.refineLoop th toler n (s, e)).2) := by
  intro n
  induction n with
  | zero => intro s e; rfl
  | succ n ih =>
    intro s e
    rw [refineLoop.eq_def, Pdffit.refineLoop.eq_def]
    dsimp only
    rw [refineStep_lift h]
    rcases Pdffit.refineStep th toler s e with ⟨s1, e1, _ | _ | x | _⟩
    · dsimp only [liftQ]
      rw [ih s1 e1]
    · rfl
    · rfl
    · rfl

end Pdffit.Nan
