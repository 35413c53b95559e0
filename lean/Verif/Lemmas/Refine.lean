import Verif.Model.Refine
import Verif.Lemmas.Lsq
import Verif.Props.C13

namespace Pdffit
variable {K W : Type} [Field K] [LinearOrder K]

/-- What `mrqmin` never touches. -/
structure Frame (e e' : Eng K W) : Prop where
  iter : e'.iter = e.iter
  stag : e'.stagnating = e.stagnating
  och : e'.ochisq = e.ochisq
  ip : e'.par.ip = e.par.ip
  id : e'.par.id = e.par.id
  len : e'.par.p.length = e.par.p.length

theorem Frame.refl (e : Eng K W) : Frame e e := ⟨rfl, rfl, rfl, rfl, rfl, rfl⟩

theorem Frame.trans {e e' e'' : Eng K W} (h : Frame e e') (h' : Frame e' e'') : Frame e e'' :=
  ⟨h'.iter.trans h.iter, h'.stag.trans h.stag, h'.och.trans h.och, h'.ip.trans h.ip,
   h'.id.trans h.id, h'.len.trans h.len⟩

theorem Frame.setP (e : Eng K W) (a) : Frame e (e.setP a) := by
  refine ⟨rfl, rfl, rfl, rfl, rfl, ?_⟩
  simp [Eng.setP, Eng.ma]

theorem Frame.ia {e e' : Eng K W} (h : Frame e e') : e'.ia = e.ia := by
  unfold Eng.ia; rw [h.ip]

theorem Frame.ma {e e' : Eng K W} (h : Frame e e') : e'.ma = e.ma := h.len

theorem Eng.setP_a (e : Eng K W) (a) (l : Nat) (h : l < e.ma) : (e.setP a).a l = a l := by
  simp only [Eng.a, Eng.setP]
  rw [List.getD_eq_getElem?_getD, List.getElem?_map, List.getElem?_range h]
  rfl

theorem Eng.setP_self (e : Eng K W) : (e.setP e.a).par.p = e.par.p := by
  apply List.ext_getElem
  · simp [Eng.setP, Eng.ma]
  · intro i h1 h2
    simp [Eng.setP, Eng.a, h2]

theorem setP_congr {e e' : Eng K W} (a b : Nat → K) (hma : e.ma = e'.ma)
    (h : ∀ l < e.ma, a l = b l) :
    (e.setP a).par.p = (e'.setP b).par.p := by
  simp only [Eng.setP, ← hma]
  apply List.map_congr_left
  intro l hl
  exact h l (List.mem_range.1 hl)

theorem mrqcof_frame (th : Theory K W) (e : Eng K W) (a al be) :
    Frame e (mrqcof th e a al be).1 := by
  unfold mrqcof
  have h := Frame.setP e a
  dsimp only
  split
  · exact ⟨h.iter, h.stag, h.och, h.ip, h.id, h.len⟩
  · exact ⟨h.iter, h.stag, h.och, h.ip, h.id, h.len⟩

theorem mrqInit_frame (th : Theory K W) (old) (e : Eng K W) :
    Frame e (mrqInit th old e).2.1 := by
  unfold mrqInit
  have h := mrqcof_frame th { e with alambda := 1/1000 } (Eng.a { e with alambda := 1/1000 })
    (Eng.alpha { e with alambda := 1/1000 }) (fun _ => 0)
  dsimp only at h ⊢
  split
  · rename_i heq
    rw [heq] at h
    exact ⟨h.iter, h.stag, h.och, h.ip, h.id, h.len⟩
  · rename_i heq
    rw [heq] at h
    exact ⟨h.iter, h.stag, h.och, h.ip, h.id, h.len⟩

theorem mrqTry_frame (th : Theory K W) (wk) (e : Eng K W) :
    Frame e (mrqTry th wk e).2.1 := by
  unfold mrqTry
  split
  · exact Frame.refl e
  · exact Frame.refl e
  · rename_i cov da hs
    split
    · split <;> exact ⟨rfl, rfl, rfl, rfl, rfl, rfl⟩
    · dsimp only
      have h := mrqcof_frame th { e with covar := cov }
        (fun l => if l < e.ma ∧ e.ia l = true then e.a l + da (nfree e.ia l) else wk.atry l) cov da
      split
      · rename_i heq
        rw [heq] at h
        exact ⟨h.iter, h.stag, h.och, h.ip, h.id, h.len⟩
      · rename_i e1 cov1 da1 heq
        rw [heq] at h
        have h2 : Frame e { e1 with covar := cov1 } := ⟨h.iter, h.stag, h.och, h.ip, h.id, h.len⟩
        split
        · have h3 := h2.trans (Frame.setP { e1 with covar := cov1 } (fun l => if l < e.ma ∧ e.ia l = true then e.a l + da (nfree e.ia l) else wk.atry l))
          exact ⟨h3.iter, h3.stag, h3.och, h3.ip, h3.id, h3.len⟩
        · have h3 := h2.trans (Frame.setP { e1 with covar := cov1 } e.a)
          exact ⟨h3.iter, h3.stag, h3.och, h3.ip, h3.id, h3.len⟩

theorem mrqmin_frame (th : Theory K W) (old) (e : Eng K W) :
    Frame e (mrqmin th old e).2.1 := by
  unfold mrqmin
  split
  · have h := mrqInit_frame th old e
    split
    · rename_i heq; rw [heq] at h; exact h
    · rename_i heq; rw [heq] at h; exact h.trans (mrqTry_frame _ _ _)
  · split
    · exact Frame.refl e
    · split
      · exact mrqTry_frame _ _ _
      · exact Frame.refl e

theorem mrqTry_ne_done (th : Theory K W) (wk) (e : Eng K W) : (mrqTry th wk e).2.2 ≠ .done := by
  unfold mrqTry
  split
  · simp
  · simp
  · split
    · split <;> simp
    · dsimp only; split
      · simp
      · split <;> simp

theorem mrqmin_ne_done (th : Theory K W) (old) (e : Eng K W) : (mrqmin th old e).2.2 ≠ .done := by
  unfold mrqmin
  split
  · split
    · simp
    · exact mrqTry_ne_done _ _ _
  · split
    · simp
    · split
      · exact mrqTry_ne_done _ _ _
      · simp

/-! ### termination -/

/-- effect of one body call on the counters. -/
theorem refineBody_counters (th : Theory K W) (toler : K) (work) (e : Eng K W) :
    let r := refineBody th toler work e
    (r.2.2 = .more → e.iter < 100 ∧ r.1.fitRunning = true ∧ r.2.1.iter = e.iter + 1 ∧
      (r.2.1.stagnating = 0 ∨ (e.iter ≠ 0 ∧ r.2.1.stagnating = e.stagnating + 1))) ∧
    (r.2.2 = .done → 3 ≤ e.iter ∧ (3 ≤ e.stagnating ∨ 100 ≤ e.iter) ∧
      r.1.fitRunning = false) := by
  unfold refineBody
  split
  · rename_i hc
    have h := mrqmin_frame th work { e with ochisq := e.chisq }
    have hd := mrqmin_ne_done th work { e with ochisq := e.chisq }
    split
    · rename_i wk e1 heq
      rw [heq] at h
      have hi : e1.iter = e.iter := h.iter
      have hs : e1.stagnating = e.stagnating := h.stag
      refine ⟨fun _ => ⟨by omega, rfl, ?_, ?_⟩, fun h => by simp at h⟩
      · simp [hi]
      · dsimp only
        split
        · rename_i h3; right; refine ⟨by rw [← hi]; exact h3.1, by rw [hs]⟩
        · left; rfl
    · rename_i wk e1 o hne heq
      rw [heq] at hd
      exact ⟨fun h' => absurd h' hne, fun h' => absurd h' hd⟩
  · rename_i hc
    have hd := mrqmin_ne_done th work { e with alambda := 0 }
    split
    · dsimp only
      split
      · simp
      · simp; omega
    · rename_i wk e1 o hne heq
      rw [heq] at hd
      exact ⟨fun h' => absurd h' hne, fun h' => absurd h' hd⟩

/-- The state from which `refine_step` continues: counters of the engine handed to the body. -/
def running (s : Statics K) (e : Eng K W) : Prop := s.fitRunning = true ∧ e.iter ≠ 0

theorem refineStep_counters (th : Theory K W) (toler : K) (s : Statics K) (e : Eng K W) :
    let r := refineStep th toler s e
    let it := if s.fitRunning = true ∧ e.iter ≠ 0 then e.iter else 0
    let st := if s.fitRunning = true ∧ e.iter ≠ 0 then e.stagnating else 0
    (r.2.2 = .more → it < 100 ∧ r.1.fitRunning = true ∧ r.2.1.iter = it + 1 ∧
      (r.2.1.stagnating = 0 ∨ (it ≠ 0 ∧ r.2.1.stagnating = st + 1))) ∧
    (r.2.2 = .done → 3 ≤ it ∧ (3 ≤ st ∨ 100 ≤ it) ∧ r.1.fitRunning = false) := by
  unfold refineStep
  split
  · exact refineBody_counters th toler s.work e
  · dsimp only
    split
    · simp
    · rename_i w heq
      exact refineBody_counters th toler s.work
        { e with iter := 0, alambda := -1, stagnating := 0, chisq := th.dmax, world := w }

theorem refineLoop_spec (th : Theory K W) (toler : K) (n : Nat) :
    ∀ (s : Statics K) (e : Eng K W) (it st : Nat),
    it = (if s.fitRunning = true ∧ e.iter ≠ 0 then e.iter else 0) →
    st = (if s.fitRunning = true ∧ e.iter ≠ 0 then e.stagnating else 0) →
    101 ≤ n + it →  it ≤ 100 →
    (refineLoop th toler n (s, e)).2.1 ≠ .more ∧
    (refineLoop th toler n (s, e)).2.2 + it ≤ 101 ∧
    refineLoop th toler (n+1) (s, e) = refineLoop th toler n (s, e) ∧
    (st ≤ it - 1 → (refineLoop th toler n (s, e)).2.1 = .done →
      5 ≤ (refineLoop th toler n (s, e)).2.2 + it) := by
  induction n with
  | zero => intro s e it st _ _ h1 h2; omega
  | succ n ih =>
    intro s e it st hit hst h1 h2
    have hc := refineStep_counters th toler s e
    dsimp only at hc
    rw [← hit, ← hst] at hc
    rw [refineLoop.eq_def th toler (n+1), refineLoop.eq_def th toler (n+1+1)]
    dsimp only
    generalize hr : refineStep th toler s e = r at hc ⊢
    obtain ⟨s1, e1, o⟩ := r
    cases o with
    | more =>
      dsimp only at hc ⊢
      obtain ⟨g1, g2, g3, g4⟩ := hc.1 rfl
      have hrun : s1.fitRunning = true ∧ e1.iter ≠ 0 := ⟨g2, by omega⟩
      have := ih s1 e1 (it+1) e1.stagnating (by rw [if_pos hrun]; omega) (by rw [if_pos hrun])
        (by omega) (by omega)
      obtain ⟨a1, a2, a3, a4⟩ := this
      refine ⟨a1, by omega, by rw [a3], fun hs hd => ?_⟩
      have := a4 (by omega) hd
      omega
    | done =>
      dsimp only at hc ⊢
      obtain ⟨g1, g2, g3⟩ := hc.2 rfl
      refine ⟨by simp, by omega, rfl, fun hs _ => by omega⟩
    | exc x => exact ⟨by simp, by simp; omega, rfl, by simp⟩
    | corrupt => exact ⟨by simp, by simp; omega, rfl, by simp⟩

theorem refineLoop_stable (th : Theory K W) (toler : K) (s : Statics K) (e : Eng K W)
    (h : (if s.fitRunning = true ∧ e.iter ≠ 0 then e.iter else 0) ≤ 100) (n : Nat) (hn : 101 ≤ n) :
    refineLoop th toler n (s, e) = refineLoop th toler 101 (s, e) := by
  induction n, hn using Nat.le_induction with
  | base => rfl
  | succ n hn ih =>
    rw [(refineLoop_spec th toler n s e _ _ rfl rfl (by omega) h).2.2.1, ih]

/-! ### fixed parameters -/

/-- Same parameters, flags and fixed values as the reference store. -/
structure FixOK (p0 : ParStore K) (e : Eng K W) : Prop where
  ip : e.par.ip = p0.ip
  id : e.par.id = p0.id
  len : e.par.p.length = p0.p.length
  val : ∀ l, l < p0.p.length → p0.ip.getD l false = false → e.par.p.getD l 0 = p0.p.getD l 0

def AtryOK (p0 : ParStore K) (wk : Work K) : Prop :=
  ∀ l, l < p0.p.length → p0.ip.getD l false = false → wk.atry l = p0.p.getD l 0

theorem FixOK.congr {p0 : ParStore K} {e e' : Eng K W} (h : FixOK p0 e) (hp : e'.par = e.par) :
    FixOK p0 e' := ⟨by rw [hp]; exact h.ip, by rw [hp]; exact h.id, by rw [hp]; exact h.len,
      by rw [hp]; exact h.val⟩

theorem FixOK.setP {p0 : ParStore K} {e : Eng K W} (h : FixOK p0 e) (a : Nat → K)
    (ha : ∀ l, l < p0.p.length → p0.ip.getD l false = false → a l = p0.p.getD l 0) :
    FixOK p0 (e.setP a) := by
  refine ⟨h.ip, h.id, by simp [Eng.setP, Eng.ma, h.len], fun l hl hf => ?_⟩
  have := Eng.setP_a e a l (by unfold Eng.ma; rw [h.len]; exact hl)
  unfold Eng.a at this
  rw [this, ha l hl hf]

theorem mrqcof_par (th : Theory K W) (e : Eng K W) (a al be) :
    (mrqcof th e a al be).1.par = (e.setP a).par := by
  unfold mrqcof
  dsimp only
  split <;> rfl

theorem mrqTry_fix (th : Theory K W) (p0 : ParStore K) (wk : Work K) (e : Eng K W)
    (h : FixOK p0 e) (ha : AtryOK p0 wk) :
    FixOK p0 (mrqTry th wk e).2.1 ∧ ∀ wk', (mrqTry th wk e).1 = some wk' → AtryOK p0 wk' := by
  unfold mrqTry
  split
  · exact ⟨h, fun wk' hw => by cases hw; exact ha⟩
  · exact ⟨h, fun wk' hw => by cases hw; exact ha⟩
  · rename_i cov da hs
    split
    · split
      · exact ⟨h.congr rfl, fun wk' hw => by cases hw⟩
      · exact ⟨h, fun wk' hw => by cases hw⟩
    · dsimp only
      have hat : ∀ l, l < p0.p.length → p0.ip.getD l false = false →
          (fun l => if l < e.ma ∧ e.ia l = true then e.a l + da (nfree e.ia l) else wk.atry l) l
            = p0.p.getD l 0 := by
        intro l hl hf
        have : ¬ e.ia l = true := by
          unfold Eng.ia; rw [h.ip, hf]; simp
        dsimp only
        rw [if_neg (fun h => this h.2)]
        exact ha l hl hf
      have hp := mrqcof_par th { e with covar := cov }
        (fun l => if l < e.ma ∧ e.ia l = true then e.a l + da (nfree e.ia l) else wk.atry l) cov da
      have hm : FixOK p0 (Eng.setP { e with covar := cov }
        (fun l => if l < e.ma ∧ e.ia l = true then e.a l + da (nfree e.ia l) else wk.atry l)) :=
        FixOK.setP (e := { e with covar := cov }) (h.congr rfl) _ hat
      split
      · rename_i heq
        rw [heq] at hp
        exact ⟨hm.congr hp, fun wk' hw => by cases hw; exact hat⟩
      · rename_i e1 cov1 da1 heq
        rw [heq] at hp
        have h1 := hm.congr hp
        have h2 : FixOK p0 { e1 with covar := cov1 } := h1.congr rfl
        split
        · refine ⟨(h2.setP _ hat).congr rfl, fun wk' hw => by cases hw; exact hat⟩
        · refine ⟨(h2.setP e.a h.val).congr rfl, fun wk' hw => by cases hw; exact hat⟩

theorem mrqInit_fix (th : Theory K W) (p0 : ParStore K) (old) (e : Eng K W) (h : FixOK p0 e) :
    FixOK p0 (mrqInit th old e).2.1 ∧
      ((mrqInit th old e).2.2 = none → AtryOK p0 (mrqInit th old e).1) := by
  unfold mrqInit
  dsimp only
  have hp := mrqcof_par th { e with alambda := 1 / 1000 } (Eng.a { e with alambda := 1/1000 })
    (Eng.alpha { e with alambda := 1/1000 }) (fun _ => 0)
  have hm : FixOK p0 (Eng.setP { e with alambda := 1/1000 } (Eng.a { e with alambda := 1/1000 })) :=
    FixOK.setP (e := { e with alambda := 1/1000 }) (h.congr rfl) _ h.val
  split
  · rename_i heq
    rw [heq] at hp
    exact ⟨hm.congr hp, by simp⟩
  · rename_i e2 al be heq
    rw [heq] at hp
    have h2 := hm.congr hp
    exact ⟨h2.congr rfl, fun _ => h2.val⟩

/-- Invariant over all calls on one object (not interleaved). -/
structure FixInv (p0 : ParStore K) (s : Statics K) (e : Eng K W) : Prop where
  ok : FixOK p0 e
  work : s.fitRunning = true → e.iter ≠ 0 →
    0 ≤ e.alambda ∧ ∀ wk, s.work = some wk → AtryOK p0 wk

variable [IsStrictOrderedRing K]

theorem mrqTry_alambda (th : Theory K W) (wk : Work K) (e : Eng K W) (h : 0 ≤ e.alambda) :
    0 ≤ (mrqTry th wk e).2.1.alambda := by
  unfold mrqTry
  split
  · exact h
  · exact h
  · split
    · split
      · exact h
      · exact h
    · rename_i cov da hs _
      dsimp only
      have hal : ∀ a al be, (mrqcof th { e with covar := cov } a al be).1.alambda = e.alambda := by
        intro a al be
        unfold mrqcof
        dsimp only
        split <;> rfl
      have hal := hal (fun l => if l < e.ma ∧ e.ia l = true then e.a l + da (nfree e.ia l) else wk.atry l) cov da
      split
      · rename_i heq
        rw [heq] at hal
        dsimp only at hal ⊢
        rw [hal]; exact h
      · rename_i heq
        rw [heq] at hal
        dsimp only at hal ⊢
        split
        · dsimp only; rw [hal]; positivity
        · dsimp only; rw [hal]; positivity

theorem mrqInit_alambda (th : Theory K W) (old) (e : Eng K W) :
    (mrqInit th old e).2.1.alambda = 1 / 1000 := by
  unfold mrqInit mrqcof
  dsimp only
  split
  · rename_i heq
    split at heq
    · cases heq; rfl
    · cases heq
  · rename_i heq
    split at heq
    · cases heq
    · cases heq; rfl

theorem refineBody_fix (th : Theory K W) (toler : K) (p0 : ParStore K) (work) (e : Eng K W)
    (h : FixOK p0 e)
    (ha : 0 ≤ e.alambda → ∀ wk, work = some wk → AtryOK p0 wk)
    (hi : e.alambda < 0 → e.iter = 0) :
    FixInv p0 (refineBody th toler work e).1 (refineBody th toler work e).2.1 := by
  have key : ∀ e1 : Eng K W, FixOK p0 e1 → (0 ≤ e1.alambda → ∀ wk, work = some wk → AtryOK p0 wk) →
      FixOK p0 (mrqmin th work e1).2.1 ∧
      ((e1.alambda < 0 → (mrqmin th work e1).2.2 = .more) →
        0 ≤ (mrqmin th work e1).2.1.alambda ∧
        ∀ wk, (mrqmin th work e1).1 = some wk → AtryOK p0 wk) := by
    intro e1 h1 h2
    unfold mrqmin
    split
    · rename_i hneg
      have hf := mrqInit_fix th p0 work e1 h1
      have hl := mrqInit_alambda th work e1
      split
      · rename_i heq
        rw [heq] at hf
        exact ⟨hf.1, fun h => by have := h hneg; simp at this⟩
      · rename_i wk1 e2 heq
        rw [heq] at hf hl
        have ht := mrqTry_fix th p0 wk1 e2 hf.1 (hf.2 rfl)
        refine ⟨ht.1, fun _ => ⟨mrqTry_alambda th _ _ ?_, ht.2⟩⟩
        dsimp only at hl; rw [hl]; positivity
    · rename_i hneg
      have hneg := not_lt.1 hneg
      split
      · exact ⟨h1, fun _ => ⟨hneg, fun wk hw => by cases hw⟩⟩
      · rename_i wk
        split
        · have ht := mrqTry_fix th p0 wk e1 h1 (h2 hneg wk rfl)
          exact ⟨ht.1, fun _ => ⟨mrqTry_alambda th _ _ hneg, ht.2⟩⟩
        · exact ⟨h1, fun _ => ⟨hneg, h2 hneg⟩⟩
  unfold refineBody
  split
  · have k := key { e with ochisq := e.chisq } (h.congr rfl) ha
    have hfr := mrqmin_frame th work { e with ochisq := e.chisq }
    split
    · rename_i heq
      rw [heq] at k hfr
      have k2 := k.2 (fun _ => rfl)
      exact ⟨k.1.congr rfl, fun _ _ => k2⟩
    · rename_i wk e1 o hne heq
      rw [heq] at k hfr
      refine ⟨k.1, fun _ hit => k.2 (fun hl => ?_)⟩
      exact absurd (hfr.iter.trans (hi hl)) hit
  · rename_i hc
    have k := key { e with alambda := 0 } (h.congr rfl) (by
      intro _
      by_cases hl : e.alambda < 0
      · exact absurd (Or.inl (by have := hi hl; omega)) hc
      · exact ha (not_lt.1 hl))
    have k2 := k.2 (fun hl => by simp at hl)
    split
    · rename_i wk e1 heq
      rw [heq] at k k2
      dsimp only
      split
      · exact ⟨k.1.congr rfl, fun _ _ => k2⟩
      · exact ⟨k.1.congr rfl, fun _ _ => k2⟩
    · rename_i wk e1 o hne heq
      rw [heq] at k k2
      exact ⟨k.1, fun _ _ => k2⟩

theorem refineStep_fix (th : Theory K W) (toler : K) (p0 : ParStore K) (s : Statics K)
    (e : Eng K W) (h : FixInv p0 s e) :
    FixInv p0 (refineStep th toler s e).1 (refineStep th toler s e).2.1 := by
  unfold refineStep
  split
  · rename_i hr
    have hw := h.work hr.1 hr.2
    exact refineBody_fix th toler p0 s.work e h.ok (fun _ => hw.2)
      (fun hl => absurd hw.1 (not_le.2 hl))
  · dsimp only
    split
    · exact ⟨h.ok.congr rfl, fun _ hi => absurd rfl hi⟩
    · refine refineBody_fix th toler p0 s.work _ (h.ok.congr rfl) (fun hl => ?_) (fun _ => rfl)
      dsimp only at hl
      exact absurd hl (by simp)

theorem stepN_fix (th : Theory K W) (toler : K) (p0 : ParStore K) (n : Nat) :
    ∀ st : Statics K × Eng K W, FixInv p0 st.1 st.2 →
    FixInv p0 (stepN th toler n st).1 (stepN th toler n st).2 := by
  induction n with
  | zero => intro st h; exact h
  | succ n ih => intro st h; exact ih _ (refineStep_fix th toler p0 _ _ h)

end Pdffit
