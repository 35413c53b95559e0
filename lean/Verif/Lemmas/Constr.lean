import Verif.Model.Constr
import Verif.Lemmas.Params
import Verif.Lemmas.Matrix

/-! Lemmas about `fill_variables`. -/

namespace Pdffit
set_option linter.unusedSectionVars false
variable {F K : Type} [Ring K]

/-- What one constraint does, when it can be evaluated: value to be stored, whether it depends on
a free parameter, derivatives to be stored. -/
def cres (parse : FParser F K) (par : ParStore K) (c : Constr F) :
    Except Exc (Option K × Bool × List (Nat × K)) :=
  match c.form with
  | some f =>
    match parse f par with
    | .error x => .error x
    | .ok (x, ders) => .ok (some x, ders.any (fun e => par.ip.getD e.1 false),
        ders.filter (fun e => par.ip.getD e.1 false))
  | none =>
    match par.parfind (toUnsigned c.idef) with
    | none => .error .constraint
    | some j =>
      match c.ctype with
      | .ident => .ok (some (par.p.getD j 0), par.ip.getD j false, [(j, 1)])
      | .fcomp => .ok (some (1 - par.p.getD j 0), par.ip.getD j false, [(j, -1)])
      | .fsqr => .ok (some (par.p.getD j 0 * par.p.getD j 0), par.ip.getD j false,
          [(j, 2 * par.p.getD j 0)])
      | .user => .ok (none, par.ip.getD j false, [])

/-- The evaluator only uses existing parameters. -/
def ParserOK (parse : FParser F K) : Prop :=
  ∀ f par x ders, par.Wf → parse f par = .ok (x, ders) → ∀ e ∈ ders, e.1 < par.p.length

/-- Element of a matrix object. -/
def Mat.ent (m : Mat K) (i j : Nat) : Option K := m.data[i * m.cols + j]?

/-- A row after writing entries in order. -/
def rowAfter (ents : List (Nat × K)) (j : Nat) (old : Option K) : Option K :=
  ents.foldl (fun o e => if e.1 = j then some e.2 else o) old

/-- Same shape. -/
structure SameDim (m m' : Mat K) : Prop where
  rows : m'.rows = m.rows
  cols : m'.cols = m.cols
  wf : m'.WF

theorem Mat.set_spec {m : Mat K} (h : m.WF) {i j : Nat} (hi : i < m.rows) (hj : j < m.cols) (d : K) :
    ∃ m', m.set i j d = .ok m' ∧ SameDim m m' ∧
      ∀ i' j', j' < m.cols → m'.ent i' j' = if i' = i ∧ j' = j then some d else m.ent i' j' := by
  have hlt : i * m.cols + j < m.data.length := by rw [h]; exact flat_lt hi hj
  refine ⟨{ m with data := m.data.set (i * m.cols + j) d }, ?_, ⟨rfl, rfl, ?_⟩, ?_⟩
  · unfold Mat.set; rw [wr_ok hlt]; rfl
  · simp only [Mat.WF, List.length_set]; exact h
  · intro i' j' hj'
    unfold Mat.ent
    dsimp only
    by_cases he : i' = i ∧ j' = j
    · rw [if_pos he, he.1, he.2, List.getElem?_set_self hlt]
    · rw [if_neg he, List.getElem?_set_ne]
      intro hh
      obtain ⟨e1, e2⟩ := flat_inj hj hj' hh
      exact he ⟨e1.symm, e2.symm⟩

theorem storeDers_spec (ip : List Bool) (i : Nat) (ders : List (Nat × K)) :
    ∀ (r : Bool) (m : Mat K), m.WF → i < m.rows → ip.length = m.cols →
    (∀ e ∈ ders, e.1 < m.cols) →
    ∃ m', storeDers ip i ders r m =
        (r || ders.any (fun e => ip.getD e.1 false), m', none) ∧ SameDim m m' ∧
      ∀ i' j', j' < m.cols → m'.ent i' j' = if i' = i
        then rowAfter (ders.filter (fun e => ip.getD e.1 false)) j' (m.ent i' j')
        else m.ent i' j' := by
  induction ders with
  | nil =>
    intro r m h _ _ _
    exact ⟨m, by simp [storeDers], ⟨rfl, rfl, h⟩, by intros; simp [rowAfter]⟩
  | cons e l ih =>
    obtain ⟨j, d⟩ := e
    intro r m h hi hl he
    have hj : j < m.cols := he (j, d) (by simp)
    have hlt : j < ip.length := by omega
    have hget : ip[j]? = some (ip[j]) := List.getElem?_eq_getElem hlt
    have hgd : ip.getD j false = ip[j] := by simp [List.getD, hget]
    rw [storeDers, hget]
    cases hb : ip[j] with
    | true =>
      obtain ⟨m1, h1, h2, h3⟩ := Mat.set_spec h hi hj d
      dsimp only
      rw [h1]
      dsimp only
      obtain ⟨m2, g1, g2, g3⟩ := ih true m1 h2.wf (by rw [h2.rows]; exact hi)
        (by rw [h2.cols]; exact hl) (by
          intro e hm; rw [h2.cols]; exact he e (List.mem_cons_of_mem _ hm))
      refine ⟨m2, ?_, ⟨by rw [g2.rows, h2.rows], by rw [g2.cols, h2.cols], g2.wf⟩, ?_⟩
      · rw [g1]
        simp only [Bool.true_or, List.any_cons, hgd, hb, Bool.or_true]
      · intro i' j' hj'
        rw [g3 i' j' (by rw [h2.cols]; exact hj'), h3 i' j' hj']
        by_cases hii : i' = i
        · rw [if_pos hii, if_pos hii, List.filter_cons_of_pos (by dsimp only; rw [hgd, hb])]
          simp only [rowAfter, List.foldl_cons, hii, true_and]
          congr 1
          by_cases hjj : j' = j
          · rw [if_pos hjj, if_pos hjj.symm]
          · rw [if_neg hjj, if_neg (Ne.symm hjj)]
        · rw [if_neg hii, if_neg hii, if_neg (by simp [hii])]
    | false =>
      obtain ⟨m2, g1, g2, g3⟩ := ih r m h hi hl (fun e hm => he e (List.mem_cons_of_mem _ hm))
      refine ⟨m2, ?_, g2, ?_⟩
      · dsimp only
        rw [g1]
        simp only [List.any_cons, hgd, hb, Bool.false_or]
      · intro i' j' hj'
        rw [g3 i' j' hj', List.filter_cons_of_neg (by dsimp only; rw [hgd, hb]; decide)]

/-- One round, when the constraint can be evaluated. -/
theorem fillOne_ok {parse : FParser F K} (hp : ParserOK parse) {par : ParStore K} (hw : par.Wf)
    (i : Nat) (c : Constr F) (v : Nat → K) (m : Mat K) (hm : m.WF) (hi : i < m.rows)
    (hc : m.cols = par.p.length) {val fr ents} (h : cres parse par c = .ok (val, fr, ents)) :
    ∃ m', fillOne parse par i c v m =
        ({ c with vref := fr }, val.elim v (upd v c.addr), m', none) ∧
      SameDim m m' ∧ ∀ i' j', j' < m.cols → m'.ent i' j' = if i' = i
        then rowAfter ents j' (m.ent i' j') else m.ent i' j' := by
  unfold fillOne
  unfold cres at h
  cases hf : c.form with
  | some f =>
    rw [hf] at h
    dsimp only at h ⊢
    cases hpf : parse f par with
    | error x => rw [hpf] at h; cases h
    | ok r =>
      obtain ⟨x, ders⟩ := r
      rw [hpf] at h
      dsimp only at h ⊢
      cases h
      obtain ⟨m', h1, h2, h3⟩ := storeDers_spec par.ip i ders false m hm hi
        (by rw [hc, hw.li, hw.lp]) (by rw [hc]; exact hp f par x ders hw hpf)
      refine ⟨m', ?_, h2, h3⟩
      rw [h1]
      simp
  | none =>
    rw [hf] at h
    dsimp only at h ⊢
    cases hpf : par.parfind (toUnsigned c.idef) with
    | none => rw [hpf] at h; cases h
    | some j =>
      rw [hpf] at h
      dsimp only at h ⊢
      obtain ⟨hj, _⟩ := ParStore.parfind_some hpf
      have hjp : j < par.p.length := by rw [hw.lp]; exact hj
      have hji : j < par.ip.length := by rw [hw.li]; exact hj
      have e1 : par.ip[j]? = some par.ip[j] := List.getElem?_eq_getElem hji
      have e2 : par.p[j]? = some par.p[j] := List.getElem?_eq_getElem hjp
      have e3 : par.ip.getD j false = par.ip[j] := by simp [List.getD, e1]
      have e4 : par.p.getD j 0 = par.p[j] := by simp [List.getD, e2]
      rw [e1, e2]
      rw [e3, e4] at h
      dsimp only
      cases ht : c.ctype with
      | user =>
        rw [ht] at h
        cases h
        exact ⟨m, rfl, ⟨rfl, rfl, hm⟩, by intros; simp [rowAfter]⟩
      | ident =>
        rw [ht] at h
        cases h
        obtain ⟨m', h1, h2, h3⟩ := Mat.set_spec hm hi (by rw [hc]; exact hjp) (1 : K)
        refine ⟨m', by dsimp only; rw [h1]; rfl, h2, ?_⟩
        intro i' j' hj'
        rw [h3 i' j' hj']
        simp only [rowAfter, List.foldl_cons, List.foldl_nil]
        by_cases hii : i' = i
        · by_cases hjj : j' = j
          · rw [if_pos ⟨hii, hjj⟩, if_pos hii, if_pos hjj.symm]
          · rw [if_neg (fun h => hjj h.2), if_pos hii, if_neg (Ne.symm hjj)]
        · rw [if_neg (fun h => hii h.1), if_neg hii]
      | fcomp =>
        rw [ht] at h
        cases h
        obtain ⟨m', h1, h2, h3⟩ := Mat.set_spec hm hi (by rw [hc]; exact hjp) (-1 : K)
        refine ⟨m', by dsimp only; rw [h1]; rfl, h2, ?_⟩
        intro i' j' hj'
        rw [h3 i' j' hj']
        simp only [rowAfter, List.foldl_cons, List.foldl_nil]
        by_cases hii : i' = i
        · by_cases hjj : j' = j
          · rw [if_pos ⟨hii, hjj⟩, if_pos hii, if_pos hjj.symm]
          · rw [if_neg (fun h => hjj h.2), if_pos hii, if_neg (Ne.symm hjj)]
        · rw [if_neg (fun h => hii h.1), if_neg hii]
      | fsqr =>
        rw [ht] at h
        cases h
        obtain ⟨m', h1, h2, h3⟩ := Mat.set_spec hm hi (by rw [hc]; exact hjp) (2 * par.p[j])
        refine ⟨m', by dsimp only; rw [h1]; rfl, h2, ?_⟩
        intro i' j' hj'
        rw [h3 i' j' hj']
        simp only [rowAfter, List.foldl_cons, List.foldl_nil]
        by_cases hii : i' = i
        · by_cases hjj : j' = j
          · rw [if_pos ⟨hii, hjj⟩, if_pos hii, if_pos hjj.symm]
          · rw [if_neg (fun h => hjj h.2), if_pos hii, if_neg (Ne.symm hjj)]
        · rw [if_neg (fun h => hii h.1), if_neg hii]

/-- One round, when the constraint cannot be evaluated. -/
theorem fillOne_err {parse : FParser F K} {par : ParStore K}
    (i : Nat) (c : Constr F) (v : Nat → K) (m : Mat K) {x : Exc} (h : cres parse par c = .error x) :
    fillOne parse par i c v m = ({ c with vref := false }, v, m, some (.exc x)) := by
  unfold fillOne
  unfold cres at h
  cases hf : c.form with
  | some f =>
    rw [hf] at h
    dsimp only at h ⊢
    cases hpf : parse f par with
    | error y => rw [hpf] at h; cases h; rfl
    | ok r => rw [hpf] at h; cases h
  | none =>
    rw [hf] at h
    dsimp only at h ⊢
    cases hpf : par.parfind (toUnsigned c.idef) with
    | none => rw [hpf] at h; cases h; rfl
    | some j =>
      rw [hpf] at h
      dsimp only at h
      cases ht : c.ctype <;> rw [ht] at h <;> cases h

/-- Effect of one constraint on the variables. -/
def cstep (parse : FParser F K) (par : ParStore K) (v : Nat → K) (c : Constr F) : Nat → K :=
  match cres parse par c with
  | .ok (some x, _, _) => upd v c.addr x
  | _ => v

/-- New flag of a constraint. -/
def cmark (parse : FParser F K) (par : ParStore K) (c : Constr F) : Constr F :=
  match cres parse par c with
  | .ok (_, fr, _) => { c with vref := fr }
  | _ => { c with vref := false }

/-- Derivatives that a constraint stores. -/
def cents (parse : FParser F K) (par : ParStore K) (c : Constr F) : List (Nat × K) :=
  match cres parse par c with
  | .ok (_, _, e) => e
  | _ => []

theorem fillOne_ok' {parse : FParser F K} (hp : ParserOK parse) {par : ParStore K} (hw : par.Wf)
    (i : Nat) (c : Constr F) (v : Nat → K) (m : Mat K) (hm : m.WF) (hi : i < m.rows)
    (hc : m.cols = par.p.length) (h : ∃ r, cres parse par c = .ok r) :
    ∃ m', fillOne parse par i c v m = (cmark parse par c, cstep parse par v c, m', none) ∧
      SameDim m m' ∧ ∀ i' j', j' < m.cols → m'.ent i' j' = if i' = i
        then rowAfter (cents parse par c) j' (m.ent i' j') else m.ent i' j' := by
  obtain ⟨⟨val, fr, ents⟩, h⟩ := h
  obtain ⟨m', h1, h2, h3⟩ := fillOne_ok hp hw i c v m hm hi hc h
  refine ⟨m', ?_, h2, ?_⟩
  · rw [h1]
    unfold cmark cstep
    rw [h]
    cases val <;> rfl
  · unfold cents
    rw [h]
    exact h3

theorem Mat.resize_spec {a : Mat K} (h : a.WF) (m n : Nat) (v : K) :
    ∃ r, a.resize m n v = .ok r ∧ r.rows = m ∧ r.cols = n ∧ r.WF ∧
      ∀ i j, i < m → j < n → r.ent i j = if i < a.rows ∧ j < a.cols then a.ent i j else some v := by
  unfold Mat.resize
  by_cases he : m = a.rows ∧ n = a.cols
  · rw [if_pos he]
    refine ⟨a, rfl, he.1.symm, he.2.symm, h, ?_⟩
    intro i j hi hj
    rw [if_pos ⟨by omega, by omega⟩]
  · rw [if_neg he]
    have key : ∀ i j, i < min m a.rows → j < min n a.cols →
        ∃ w, a.get i j = .ok w ∧ a.data[i * a.cols + j]? = some w :=
      fun i j hi hj => Mat.get_ok h (by omega) (by omega)
    obtain ⟨d, h1, h2, h3, h4⟩ := fill2 n (min m a.rows) (min n a.cols) (List.replicate (m * n) v)
      (by omega) (by
        rw [List.length_replicate]
        exact Nat.mul_le_mul_right n (by omega))
      (fun i j d => a.get i j >>= fun x => Res.wr d (i * n + j) x)
      (fun i j => (a.data[i * a.cols + j]?).getD v) (by
        intro i j d hi hj
        obtain ⟨w, k1, k2⟩ := key i j hi hj
        rw [k1, k2]
        rfl)
    refine ⟨⟨m, n, d⟩, ?_, rfl, rfl, ?_, ?_⟩
    · show (Res.forN _ _ _ >>= _) = _
      rw [h1]
      rfl
    · simp only [Mat.WF]; rw [h2, List.length_replicate]
    · intro i j hi hj
      unfold Mat.ent
      dsimp only
      by_cases hin : i < a.rows ∧ j < a.cols
      · rw [if_pos hin, h3 i j (by omega) (by omega)]
        obtain ⟨w, k1, k2⟩ := key i j (by omega) (by omega)
        rw [k2]
        rfl
      · rw [if_neg hin, h4 i j hj (by omega), List.getElem?_replicate, if_pos (flat_lt hi hj)]

/-- The loop, when all constraints can be evaluated. -/
theorem fillLoop_ok {parse : FParser F K} (hp : ParserOK parse) {par : ParStore K} (hw : par.Wf)
    (cs : List (Constr F)) : ∀ (i : Nat) (v : Nat → K) (m : Mat K), m.WF → i + cs.length ≤ m.rows →
    m.cols = par.p.length → (∀ c ∈ cs, ∃ r, cres parse par c = .ok r) →
    ∃ m', fillLoop parse par i cs v m =
        (cs.map (cmark parse par), cs.foldl (cstep parse par) v, m', none) ∧ SameDim m m' ∧
      ∀ i' j', j' < m.cols → m'.ent i' j' = if i ≤ i' then
        (match cs[i' - i]? with
         | some c => rowAfter (cents parse par c) j' (m.ent i' j')
         | none => m.ent i' j') else m.ent i' j' := by
  induction cs with
  | nil =>
    intro i v m h _ _ _
    exact ⟨m, rfl, ⟨rfl, rfl, h⟩, by intros; simp⟩
  | cons c cs ih =>
    intro i v m h hi hc ha
    rw [List.length_cons] at hi
    obtain ⟨m1, h1, h2, h3⟩ := fillOne_ok' hp hw i c v m h (by omega) hc (ha c (by simp))
    obtain ⟨m2, g1, g2, g3⟩ := ih (i + 1) (cstep parse par v c) m1 h2.wf (by rw [h2.rows]; omega)
      (by rw [h2.cols]; exact hc) (fun c' hc' => ha c' (List.mem_cons_of_mem _ hc'))
    refine ⟨m2, ?_, ⟨by rw [g2.rows, h2.rows], by rw [g2.cols, h2.cols], g2.wf⟩, ?_⟩
    · rw [fillLoop, h1]
      dsimp only
      rw [g1]
      rfl
    · intro i' j' hj'
      rw [g3 i' j' (by rw [h2.cols]; exact hj'), h3 i' j' hj']
      by_cases hlt : i' < i
      · rw [if_neg (by omega), if_neg (by omega), if_neg (by omega)]
      · by_cases he : i' = i
        · subst he
          rw [if_neg (by omega), if_pos rfl, if_pos (Nat.le_refl _)]
          simp
        · rw [if_pos (by omega), if_neg he, if_pos (by omega)]
          have : i' - i = (i' - (i + 1)) + 1 := by omega
          rw [this, List.getElem?_cons_succ]

/-- The loop, when some constraint cannot be evaluated. -/
theorem fillLoop_err {parse : FParser F K} (hp : ParserOK parse) {par : ParStore K} (hw : par.Wf)
    (cs : List (Constr F)) : ∀ (i : Nat) (v : Nat → K) (m : Mat K), m.WF → i + cs.length ≤ m.rows →
    m.cols = par.p.length → (¬ ∀ c ∈ cs, ∃ r, cres parse par c = .ok r) →
    ∃ l c r x m', cs = l ++ c :: r ∧ (∀ c ∈ l, ∃ r, cres parse par c = .ok r) ∧
      cres parse par c = .error x ∧
      fillLoop parse par i cs v m =
        (l.map (cmark parse par) ++ cmark parse par c :: r, l.foldl (cstep parse par) v, m',
          some (.exc x)) ∧ SameDim m m' ∧
      ∀ i' j', j' < m.cols → m'.ent i' j' = if i ≤ i' then
        (match l[i' - i]? with
         | some c => rowAfter (cents parse par c) j' (m.ent i' j')
         | none => m.ent i' j') else m.ent i' j' := by
  induction cs with
  | nil => intro i v m _ _ _ hn; exact absurd (by simp) hn
  | cons c cs ih =>
    intro i v m h hi hc hn
    rw [List.length_cons] at hi
    cases hres : cres parse par c with
    | error x =>
      refine ⟨[], c, cs, x, m, rfl, by simp, hres, ?_, ⟨rfl, rfl, h⟩, by intros; simp⟩
      rw [fillLoop, fillOne_err i c v m hres]
      unfold cmark
      rw [hres]
      rfl
    | ok r =>
      obtain ⟨m1, h1, h2, h3⟩ := fillOne_ok' hp hw i c v m h (by omega) hc ⟨r, hres⟩
      obtain ⟨l, c', r', x, m2, e1, e2, e3, g1, g2, g3⟩ :=
        ih (i + 1) (cstep parse par v c) m1 h2.wf (by rw [h2.rows]; omega)
        (by rw [h2.cols]; exact hc) (by
          intro ha
          apply hn
          intro c' hc'
          rcases List.mem_cons.1 hc' with rfl | hm
          · exact ⟨r, hres⟩
          · exact ha c' hm)
      refine ⟨c :: l, c', r', x, m2, by rw [e1]; rfl, ?_, e3, ?_,
        ⟨by rw [g2.rows, h2.rows], by rw [g2.cols, h2.cols], g2.wf⟩, ?_⟩
      · intro c'' hc''
        rcases List.mem_cons.1 hc'' with rfl | hm
        · exact ⟨r, hres⟩
        · exact e2 c'' hm
      · rw [fillLoop, h1]
        dsimp only
        rw [g1]
        rfl
      · intro i' j' hj'
        rw [g3 i' j' (by rw [h2.cols]; exact hj'), h3 i' j' hj']
        by_cases hlt : i' < i
        · rw [if_neg (by omega), if_neg (by omega), if_neg (by omega)]
        · by_cases he : i' = i
          · subst he
            rw [if_neg (by omega), if_pos rfl, if_pos (Nat.le_refl _)]
            simp
          · rw [if_pos (by omega), if_neg he, if_pos (by omega)]
            have : i' - i = (i' - (i + 1)) + 1 := by omega
            rw [this, List.getElem?_cons_succ]

/-- Entry of the derivative matrix before the loop of `fill_variables`. -/
def oldEnt (m : Mat K) (i j : Nat) : Option K :=
  if i < m.rows ∧ j < m.cols then m.ent i j else some 0

/-- `fill_variables`, when all constraints can be evaluated. -/
theorem fillVariables_ok {parse : FParser F K} (hp : ParserOK parse) {par : ParStore K}
    (hw : par.Wf) (cs : List (Constr F)) (v : Nat → K) (m : Mat K) (hm : m.WF)
    (ha : ∀ c ∈ cs, ∃ r, cres parse par c = .ok r) :
    ∃ m', fillVariables parse par cs v m =
        (cs.map (cmark parse par), cs.foldl (cstep parse par) v, m', none) ∧
      m'.rows = cs.length ∧ m'.cols = par.p.length ∧ m'.WF ∧
      ∀ (i j : Nat) (hi : i < cs.length), j < par.p.length →
        m'.ent i j = rowAfter (cents parse par cs[i]) j (oldEnt m i j) := by
  obtain ⟨m1, h1, h2, h3, h4, h5⟩ := Mat.resize_spec hm cs.length par.p.length 0
  obtain ⟨m2, g1, g2, g3⟩ := fillLoop_ok hp hw cs 0 v m1 h4 (by omega) h3 ha
  refine ⟨m2, ?_, by rw [g2.rows, h2], by rw [g2.cols, h3], g2.wf, ?_⟩
  · unfold fillVariables
    rw [h1]
    exact g1
  · intro i j hi hj
    rw [g3 i j (by omega), if_pos (Nat.zero_le _), Nat.sub_zero, List.getElem?_eq_getElem hi]
    dsimp only
    rw [h5 i j hi hj]
    rfl

/-- `fill_variables`, when some constraint cannot be evaluated. -/
theorem fillVariables_err {parse : FParser F K} (hp : ParserOK parse) {par : ParStore K}
    (hw : par.Wf) (cs : List (Constr F)) (v : Nat → K) (m : Mat K) (hm : m.WF)
    (ha : ¬ ∀ c ∈ cs, ∃ r, cres parse par c = .ok r) :
    ∃ l c r x m', cs = l ++ c :: r ∧ (∀ c ∈ l, ∃ r, cres parse par c = .ok r) ∧
      cres parse par c = .error x ∧
      fillVariables parse par cs v m =
        (l.map (cmark parse par) ++ cmark parse par c :: r, l.foldl (cstep parse par) v, m',
          some (.exc x)) ∧
      m'.rows = cs.length ∧ m'.cols = par.p.length ∧ m'.WF ∧
      ∀ (i j : Nat), i < cs.length → j < par.p.length →
        m'.ent i j = match l[i]? with
          | some c => rowAfter (cents parse par c) j (oldEnt m i j)
          | none => oldEnt m i j := by
  obtain ⟨m1, h1, h2, h3, h4, h5⟩ := Mat.resize_spec hm cs.length par.p.length 0
  obtain ⟨l, c, r, x, m2, e1, e2, e3, g1, g2, g3⟩ :=
    fillLoop_err hp hw cs 0 v m1 h4 (by omega) h3 ha
  refine ⟨l, c, r, x, m2, e1, e2, e3, ?_, by rw [g2.rows, h2], by rw [g2.cols, h3], g2.wf, ?_⟩
  · unfold fillVariables
    rw [h1]
    exact g1
  · intro i j hi hj
    rw [g3 i j (by omega), if_pos (Nat.zero_le _), Nat.sub_zero, h5 i j hi hj]
    rfl

end Pdffit
