import Verif.Lemmas.PyHeap
import Mathlib.Data.Finset.Card

/-! # C78: the objects made by a call are freed when the caller gives up the result -/

namespace Pdffit.C78
open PyHeap

/-- The objects of `h` are as they were, and all others are freed. -/
def Clean (h h' : Heap) : Prop := (∀ a, a < h.length → h'[a]? = h[a]?) ∧ ∀ a, h.length ≤ a → look h' a = none

theorem use_of {py_none : ℕ} {h : Heap} {n : ℕ} {k : Kind} {r : ℕ} {h1 h2 : Heap} (e1 : k.run py_none h n = .ok (r, h1))
    (e2 : decs h1 [r] = .ok h2) : k.use py_none h n = .ok h2 := by
  unfold Kind.use
  rw [e1]
  exact e2

/-- `None` gets a reference and loses it. -/
theorem use_none {py_none : ℕ} {h : Heap} {ext : ℕ → ℕ} (hx : Exact h ext) {c : Cell} (e : look h py_none = some c) (n : ℕ) :
    Kind.none.use py_none h n = .ok h := by
  have h0 := hx.live _ c e
  have h1 : incref h py_none = .ok (h.set py_none (some { c with rc := c.rc + 1 })) := by
    unfold incref
    rw [e]
  have h2 : Kind.none.run py_none h n = .ok (py_none, h.set py_none (some { c with rc := c.rc + 1 })) := by
    unfold Kind.run
    rw [h1]
    rfl
  refine use_of h2 ?_
  have h3 : look (h.set py_none (some { c with rc := c.rc + 1 })) py_none = some { c with rc := c.rc + 1 } := by
    rw [look_set e, if_pos rfl]
  rw [decs]
  split
  · rename_i e'
    rw [h3] at e'
    simp at e'
  · rename_i c' e'
    rw [h3] at e'
    obtain rfl : _ = c' := by simpa using e'
    rw [if_neg (by dsimp only; omega), decs]
    congr 1
    refine List.ext_getElem? fun b => ?_
    simp only [List.set_set, List.getElem?_set]
    have := look_lt e
    split_ifs with hb
    · subst hb
      rw [look_eq e]
      rfl
    · rfl

/-- From the end of a call to the state after the result is given up. -/
theorem clean_of {h : Heap} {ext : ℕ → ℕ} (hx : Exact h ext) {r : ℕ} {h1 : Heap} (g : Good h ext [r] h1) (hr : h.length ≤ r) :
    ∃ h', decs h1 [r] = .ok h' ∧ Exact h' ext ∧ Clean h h' := by
  obtain ⟨h', e, g', -⟩ := good_drop g hr
  exact ⟨h', e, by simpa using g'.ex, g'.old, freed hx g'⟩

/-- **C78, the part that holds**: every function of the module except two. For every heap with right counts and every number of items, a call
whose result is given up leaves every other object as it was, and every object it made is freed. -/
theorem C78_balanced_partial (py_none : ℕ) (h : Heap) (ext : ℕ → ℕ) (hx : Exact h ext) (hn : look h py_none ≠ none) (f : String)
    (ks : List Kind) (hf : (f, ks) ∈ table) (h1 : f ≠ "bond_length_types") (h2 : f ≠ "phase_fractions") (k : Kind) (hk : k ∈ ks) (n : ℕ) :
    ∃ h', k.use py_none h n = .ok h' ∧ Exact h' ext ∧ Clean h h' := by
  have hb : k = .none ∨ k = .value ∨ k = .pair ∨ k = .list := by
    simp only [table, List.mem_append, List.mem_map, List.mem_cons, List.not_mem_nil, or_false, Prod.mk.injEq] at hf
    rcases hf with ((((⟨-, -, -, rfl⟩ | ⟨-, -, -, rfl⟩) | ⟨-, -, -, rfl⟩) | ⟨-, -, -, rfl⟩) | ⟨-, -, -, rfl⟩) | hf | hf
    · simp at hk; simp [hk]
    · simp at hk; simp [hk]
    · simp at hk
      rcases hk with rfl | rfl <;> simp
    · simp at hk; simp [hk]
    · simp at hk; simp [hk]
    · exact absurd hf.1 h1
    · exact absurd hf.1 h2
  have g := Good.start hx
  rcases hb with rfl | rfl | rfl | rfl
  · obtain ⟨c, hc⟩ := Option.ne_none_iff_exists'.1 hn
    refine ⟨h, use_none hx hc n, hx, fun _ _ => rfl, fun a ha => ?_⟩
    cases e : look h a with
    | none => rfl
    | some c => exact absurd (look_lt e) (by omega)
  · obtain ⟨g1, -, -⟩ := good_new g 0 0
    obtain ⟨h', e, h3, h4⟩ := clean_of hx g1 le_rfl
    exact ⟨h', use_of rfl e, h3, h4⟩
  · obtain ⟨h', e1, g1, -⟩ := good_mkPair g
    obtain ⟨h', e, h3, h4⟩ := clean_of hx g1 le_rfl
    exact ⟨h', use_of e1 e, h3, h4⟩
  · obtain ⟨h', e1, g1, -⟩ := good_mkList g n
    obtain ⟨h', e, h3, h4⟩ := clean_of hx g1 le_rfl
    exact ⟨h', use_of e1 e, h3, h4⟩

/-- A kind that some function other than the two returns. -/
def Fine (k : Kind) : Prop := ∃ f ks, (f, ks) ∈ table ∧ f ≠ "bond_length_types" ∧ f ≠ "phase_fractions" ∧ k ∈ ks

/-- **C78** for sequences of such calls. -/
theorem C78_sequence_partial (py_none : ℕ) : ∀ (l : List (Kind × ℕ)) (h : Heap) (ext : ℕ → ℕ), Exact h ext → look h py_none ≠ none →
    (∀ x ∈ l, Fine x.1) → ∃ h', uses py_none h l = .ok h' ∧ Exact h' ext ∧ Clean h h'
  | [], h, ext, hx, _, _ => ⟨h, rfl, hx, fun _ _ => rfl, fun a ha => by
      cases e : look h a with
      | none => rfl
      | some c => exact absurd (look_lt e) (by omega)⟩
  | x :: l, h, ext, hx, hn, hl => by
    obtain ⟨f, ks, h1, h2, h3, h4⟩ := hl x (by simp)
    obtain ⟨h', e, hx', hc⟩ := C78_balanced_partial py_none h ext hx hn f ks h1 h2 h3 x.1 h4 x.2
    have hp : look h' py_none ≠ none := by
      obtain ⟨c, hc'⟩ := Option.ne_none_iff_exists'.1 hn
      have : look h' py_none = look h py_none := by
        unfold look
        rw [hc.1 _ (look_lt hc')]
      rw [this]
      exact hn
    obtain ⟨h'', e', hx'', hc'⟩ := C78_sequence_partial py_none l h' ext hx' hp fun y hy => hl y (by simp [hy])
    refine ⟨h'', ?_, hx'', ?_, ?_⟩
    · unfold uses
      rw [e]
      exact e'
    · intro a ha
      have : a < h'.length := by
        have h5 := hc.1 a ha
        by_contra h6
        rw [List.getElem?_eq_none (by omega)] at h5
        rw [List.getElem?_eq_getElem ha] at h5
        simp at h5
      rw [hc'.1 a this, hc.1 a ha]
    · intro a ha
      by_cases h5 : a < h'.length
      · have := hc.2 a ha
        unfold look at this ⊢
        rw [hc'.1 a h5]
        exact this
      · exact hc'.2 a (by omega)

/-- After a call whose result was given up, `m` new lists of `n` items are still there with all their items; the objects that were there
before are unchanged, so that none of them refers to these lists. -/
def Leak (h h' : Heap) (m n : ℕ) : Prop :=
  (∀ a, a < h.length → h'[a]? = h[a]?) ∧ h.length ≤ h'.length ∧
  ∃ L : List ℕ, L.length = m ∧ L.Nodup ∧ ∀ a ∈ L, h.length ≤ a ∧
    ∃ c, look h' a = some c ∧ c.lvl = 2 ∧ c.kids.length = n ∧ ∀ o ∈ c.kids, ∃ b cb, o = some b ∧ look h' b = some cb

theorem leak_of {h : Heap} {ext : ℕ → ℕ} {r n : ℕ} {L : List ℕ} {h1 : Heap} (g : Good h ext (r :: L) h1) (hr : h.length ≤ r)
    (hL : L.Nodup) (hs : ∀ a ∈ L, h.length ≤ a ∧ Shape h1 a 2 n 0) :
    ∃ h', decs h1 [r] = .ok h' ∧ (∃ ext', Exact h' ext') ∧ Leak h h' L.length n := by
  obtain ⟨h', e, g', hk⟩ := good_drop g hr
  refine ⟨h', e, ⟨_, g'.ex⟩, g'.old, g'.len, L, rfl, hL, fun a ha => ?_⟩
  obtain ⟨h2, c, hc, hc2, F, hF, hF'⟩ := hs a ha
  refine ⟨h2, ?_⟩
  cases ea : look h' a with
  | none =>
    have := (g'.ex.dead a ea).1
    have h3 : 0 < L.count a := List.count_pos_iff.2 ha
    omega
  | some c' =>
    obtain ⟨d, hd, hd1, hd2⟩ := hk a c' ea
    rw [hc] at hd
    obtain rfl : c = d := by simpa using hd
    refine ⟨c', rfl, by omega, by rw [hd1, hF]; simp [hF'], fun o ho => ?_⟩
    rw [hd1, hF] at ho
    obtain ⟨b, hb, rfl⟩ : ∃ b ∈ F, some b = o := by simpa using ho
    refine ⟨b, ?_⟩
    cases eb : look h' b with
    | some cb => exact ⟨cb, rfl, rfl⟩
    | none =>
      exfalso
      have h3 := (g'.ex.dead b eb).2
      have h4 : some b ∈ refs h' := List.mem_flatMap.2 ⟨some c', List.mem_of_getElem? (look_eq ea), by
        show some b ∈ c'.kids
        rw [hd1, hF]
        simp [hb]⟩
      have h5 : 0 < slots h' b := List.count_pos_iff.2 h4
      omega

theorem bonds_leak (py_none : ℕ) (h : Heap) (ext : ℕ → ℕ) (hx : Exact h ext) (n : ℕ) :
    ∃ h', Kind.bonds.use py_none h n = .ok h' ∧ (∃ ext', Exact h' ext') ∧ Leak h h' 4 n := by
  have g := Good.start hx
  obtain ⟨g1, s1, l1⟩ := good_new g 2 n
  set ha := (new h 2 n).2 with hha
  have n1 : ha.length = h.length + 1 := by simp [hha, new]
  obtain ⟨g2, s2, l2⟩ := good_new g1 2 n
  set hb := (new ha 2 n).2 with hhb
  have n2 : hb.length = ha.length + 1 := by simp [hhb, new]
  obtain ⟨g3, s3, l3⟩ := good_new g2 2 n
  set hc := (new hb 2 n).2 with hhc
  have n3 : hc.length = hb.length + 1 := by simp [hhc, new]
  obtain ⟨g4, s4, l4⟩ := good_new g3 2 n
  set hd := (new hc 2 n).2 with hhd
  have n4 : hd.length = hc.length + 1 := by simp [hhd, new]
  have sa : Shape hd h.length 2 0 n := s1.congr ((l4 _ (by omega)).trans ((l3 _ (by omega)).trans (l2 _ (by omega))))
  have sb : Shape hd ha.length 2 0 n := s2.congr ((l4 _ (by omega)).trans (l3 _ (by omega)))
  have sc : Shape hd hb.length 2 0 n := s3.congr (l4 _ (by omega))
  obtain ⟨h5, e5, g5, ta, tb, tc, td, n5⟩ := good_pairs (a := h.length) (b := ha.length) (c := hb.length) (d := hc.length) le_rfl
    (by omega) (by omega) (by omega) n 0 hd g4 sa sb sc s4
  rw [Nat.zero_add] at ta tb tc td
  obtain ⟨g6, s6, l6⟩ := good_new g5 3 0
  set h6 := (new h5 3 0).2 with hh6
  have n6 : h6.length = h5.length + 1 := by simp [hh6, new]
  obtain ⟨c6, e6, hc6, -⟩ := s6
  obtain ⟨h7, c7, e7, g7, d7, hc7, t7, l7, n7⟩ := good_dictSet g6 e6 hc6 (ta.congr (l6 _ (by omega))) (by omega) le_rfl
  have tb7 := tb.congr ((l7 ha.length (by omega) (by omega)).trans (l6 _ (by omega)))
  have tc7 := tc.congr ((l7 hb.length (by omega) (by omega)).trans (l6 _ (by omega)))
  have td7 := td.congr ((l7 hc.length (by omega) (by omega)).trans (l6 _ (by omega)))
  obtain ⟨h8, c8, e8, g8, d8, hc8, t8, l8, n8⟩ := good_dictSet g7 d7 hc7 tb7 (by omega) (by omega)
  have ta8 := t7.congr (l8 h.length (by omega) (by omega))
  have tc8 := tc7.congr (l8 hb.length (by omega) (by omega))
  have td8 := td7.congr (l8 hc.length (by omega) (by omega))
  obtain ⟨h9, c9, e9, g9, d9, hc9, t9, l9, n9⟩ := good_dictSet g8 d8 hc8 tc8 (by omega) (by omega)
  have ta9 := ta8.congr (l9 h.length (by omega) (by omega))
  have tb9 := t8.congr (l9 ha.length (by omega) (by omega))
  have td9 := td8.congr (l9 hc.length (by omega) (by omega))
  obtain ⟨h10, c10, e10, g10, d10, hc10, t10, l10, n10⟩ := good_dictSet g9 d9 hc9 td9 (by omega) (by omega)
  have ta10 := ta9.congr (l10 h.length (by omega) (by omega))
  have tb10 := tb9.congr (l10 ha.length (by omega) (by omega))
  have tc10 := t9.congr (l10 hb.length (by omega) (by omega))
  obtain ⟨h', e, he, hl⟩ := leak_of (n := n) g10 (by omega)
    (by simp only [List.nodup_cons, List.mem_cons, List.not_mem_nil, or_false, not_false_eq_true, List.nodup_nil, and_true]; omega)
    (by
      intro a hm
      simp only [List.mem_cons, List.not_mem_nil, or_false] at hm
      rcases hm with rfl | rfl | rfl | rfl
      · exact ⟨by omega, t10⟩
      · exact ⟨by omega, tc10⟩
      · exact ⟨by omega, tb10⟩
      · exact ⟨by omega, ta10⟩)
  refine ⟨h', use_of (r := h5.length) (h1 := h10) ?_ e, he, hl⟩
  show bondTypes h n = _
  unfold bondTypes
  dsimp only
  show (pairLoop h.length ha.length hb.length hc.length hd 0 n >>= _) = _
  rw [e5]
  show (dictSet h6 h5.length h.length >>= _) = _
  rw [e7]
  show (dictSet h7 h5.length ha.length >>= _) = _
  rw [e8]
  show (dictSet h8 h5.length hb.length >>= _) = _
  rw [e9]
  show (dictSet h9 h5.length hc.length >>= _) = _
  rw [e10]
  rfl

theorem good_keys {h0 : Heap} {ext : ℕ → ℕ} {r n : ℕ} (hr : h0.length ≤ r) : ∀ (k : ℕ) (h : Heap) (L : List ℕ) (c : Cell),
    Good h0 ext (r :: L) h → look h r = some c → c.lvl = 3 → L.Nodup → r ∉ L → (∀ a ∈ L, h0.length ≤ a ∧ Shape h a 2 n 0) →
    ∃ h' L', keyLoop r n h k = .ok h' ∧ Good h0 ext (r :: L') h' ∧ L'.length = L.length + k ∧ L'.Nodup ∧
      ∀ a ∈ L', h0.length ≤ a ∧ Shape h' a 2 n 0
  | 0, h, L, c, g, _, _, hn, _, hL => ⟨h, L, rfl, g, rfl, hn, hL⟩
  | k + 1, h, L, c, g, hc, h3, hn, hm, hL => by
    have hrl := look_lt hc
    have hlen := g.len
    obtain ⟨h1, e1, g1, s1, l1, n1⟩ := good_mkList g n
    obtain ⟨h2, c2, e2, g2, d2, hc2, t2, l2, n2⟩ := good_dictSet g1 ((l1 r hrl).trans hc) h3 s1 hr (by omega)
    have hLt : ∀ a ∈ L, a < h.length := fun a ha => (hL a ha).2.lt
    obtain ⟨h', L', e3, g3, q1, q2, q3⟩ := good_keys hr k h2 (h.length :: L) c2 (g2.perm (List.Perm.swap _ _ _)) d2 hc2
      (List.nodup_cons.2 ⟨fun hx => absurd (hLt _ hx) (by omega), hn⟩)
      (by
        intro hx
        rcases List.mem_cons.1 hx with hx | hx
        · omega
        · exact hm hx)
      (by
        intro a ha
        rcases List.mem_cons.1 ha with rfl | ha
        · exact ⟨by omega, t2⟩
        · have h4 := hLt a ha
          have h5 : a ≠ r := fun hx => hm (hx ▸ ha)
          exact ⟨(hL a ha).1, (hL a ha).2.congr ((l2 a h5 (by omega)).trans (l1 a h4))⟩)
    refine ⟨h', L', ?_, g3, by simpa [Nat.add_assoc, Nat.add_comm 1 k] using q1, q2, q3⟩
    unfold keyLoop
    rw [e1]
    show (dictSet h1 r h.length >>= _) = _
    rw [e2]
    exact e3

theorem fractions_leak (py_none : ℕ) (h : Heap) (ext : ℕ → ℕ) (hx : Exact h ext) (n : ℕ) (hn : 0 < n) :
    ∃ h', Kind.fractions.use py_none h n = .ok h' ∧ (∃ ext', Exact h' ext') ∧ Leak h h' 6 n := by
  have g := Good.start hx
  obtain ⟨g1, s1, l1⟩ := good_new g 3 0
  obtain ⟨c1, e1, hc1, -⟩ := s1
  obtain ⟨h2, L, e2, g2, q1, q2, q3⟩ := good_keys (n := n) le_rfl 6 _ [] c1 g1 e1 hc1 (by simp) (by simp) (by simp)
  obtain ⟨h', e, he, hl⟩ := leak_of g2 le_rfl q2 q3
  have h6 : L.length = 6 := by simpa using q1
  refine ⟨h', use_of (r := h.length) (h1 := h2) ?_ e, he, by rwa [h6] at hl⟩
  show PyHeap.fractions h n = _
  unfold PyHeap.fractions
  dsimp only
  rw [if_neg (by omega)]
  show (keyLoop h.length n (new h 3 0).2 6 >>= _) = _
  rw [e2]
  rfl

/-- **C78 is violated by `bond_length_types`**: every call leaves four lists behind, with all their items. -/
theorem C78_bonds (py_none : ℕ) (h : Heap) (ext : ℕ → ℕ) (hx : Exact h ext) (n : ℕ) :
    ∃ k h', ("bond_length_types", [k]) ∈ table ∧ k.use py_none h n = .ok h' ∧ (∃ ext', Exact h' ext') ∧ Leak h h' 4 n :=
  let ⟨h', e⟩ := bonds_leak py_none h ext hx n
  ⟨.bonds, h', by simp [table], e⟩

/-- **C78 is violated by `phase_fractions`**: every call with at least one phase leaves six lists behind, with all their items. -/
theorem C78_fractions (py_none : ℕ) (h : Heap) (ext : ℕ → ℕ) (hx : Exact h ext) (n : ℕ) (hn : 0 < n) :
    ∃ k h', ("phase_fractions", [k]) ∈ table ∧ k.use py_none h n = .ok h' ∧ (∃ ext', Exact h' ext') ∧ Leak h h' 6 n :=
  let ⟨h', e⟩ := fractions_leak py_none h ext hx n hn
  ⟨.fractions, h', by simp [table], e⟩

/-- Lists with `n` items that are alive. -/
def lists (h : Heap) (n : ℕ) : ℕ := h.countP fun o => match o with
  | none => false
  | some c => c.lvl == 2 && c.kids.length == n

theorem card_le_countP {α : Type} (P : α → Bool) (l : List α) : ∀ s : Finset ℕ, (∀ i ∈ s, ∃ x, l[i]? = some x ∧ P x = true) →
    s.card ≤ l.countP P := by
  induction l using List.reverseRecOn with
  | nil =>
    intro s hs
    have : s = ∅ := Finset.eq_empty_of_forall_notMem fun i hi => by
      obtain ⟨x, hx, -⟩ := hs i hi
      simp at hx
    simp [this]
  | append_singleton l x ih =>
    intro s hs
    have h1 := ih (s.erase l.length) (by
      intro i hi
      rw [Finset.mem_erase] at hi
      obtain ⟨y, hy, hp⟩ := hs i hi.2
      refine ⟨y, ?_, hp⟩
      have : i < l.length := by
        have := (List.getElem?_eq_some_iff.1 hy).1
        simp at this
        omega
      rwa [List.getElem?_append_left this] at hy)
    rw [List.countP_append]
    by_cases hm : l.length ∈ s
    · obtain ⟨y, hy, hp⟩ := hs _ hm
      have hxy : x = y := by simpa using hy
      have h2 : [x].countP P = 1 := by simp [hxy, hp]
      rw [Finset.card_erase_of_mem hm] at h1
      omega
    · rw [Finset.erase_eq_of_notMem hm] at h1
      omega

theorem leak_count {h h' : Heap} {m n : ℕ} (hl : Leak h h' m n) : lists h n + m ≤ lists h' n := by
  obtain ⟨h1, h2, L, h3, h4, h5⟩ := hl
  have e : h' = h ++ h'.drop h.length := by
    have : h'.take h.length = h := by
      refine List.ext_getElem? fun i => ?_
      rw [List.getElem?_take]
      split_ifs with hi
      · exact h1 i hi
      · rw [List.getElem?_eq_none (by omega)]
    conv_lhs => rw [← List.take_append_drop h.length h', this]
  have hc : (L.map (· - h.length)).toFinset.card = m := by
    rw [List.toFinset_card_of_nodup, List.length_map, h3]
    refine List.Nodup.map_on ?_ h4
    intro x hx y hy hxy
    have := (h5 x hx).1
    have := (h5 y hy).1
    omega
  unfold lists
  conv_rhs => rw [e]
  rw [List.countP_append]
  refine Nat.add_le_add_left ?_ _
  rw [← hc]
  refine card_le_countP _ _ _ fun i hi => ?_
  rw [List.mem_toFinset, List.mem_map] at hi
  obtain ⟨a, ha, rfl⟩ := hi
  obtain ⟨h6, c, hc, h7, h8, -⟩ := h5 a ha
  refine ⟨some c, ?_, by simp [h7, h8]⟩
  rw [List.getElem?_drop, Nat.add_sub_cancel' h6]
  exact look_eq hc

/-- **C78 is violated without bound**: after `k` calls of `bond_length_types` with `n` pairs, whose results were all given up, there are at least `4 k`
more lists of `n` items than before. -/
theorem C78_unbounded (py_none n : ℕ) : ∀ (k : ℕ) (h : Heap) (ext : ℕ → ℕ), Exact h ext →
    ∃ h', uses py_none h (List.replicate k (.bonds, n)) = .ok h' ∧ lists h n + 4 * k ≤ lists h' n
  | 0, h, ext, hx => ⟨h, rfl, by omega⟩
  | k + 1, h, ext, hx => by
    obtain ⟨h1, e1, ⟨ext1, hx1⟩, hl⟩ := bonds_leak py_none h ext hx n
    obtain ⟨h2, e2, h3⟩ := C78_unbounded py_none n k h1 ext1 hx1
    refine ⟨h2, ?_, ?_⟩
    · rw [List.replicate_succ]
      unfold uses
      rw [e1]
      exact e2
    · have := leak_count hl
      omega

/-! ## Example: a heap with `None` and a list of the user that contains `None` twice -/

def heap : Heap := [some ⟨3, 0, []⟩, some ⟨1, 2, [some 0, some 0]⟩]

theorem heap_exact : Exact heap fun a => if a ≤ 1 then 1 else 0 := by
  constructor
  · intro a c hc
    have := look_lt hc
    have h2 : a = 0 ∨ a = 1 := by simp [heap] at this; omega
    rcases h2 with rfl | rfl
    · obtain rfl : _ = c := by simpa [heap, look] using hc
      decide
    · obtain rfl : _ = c := by simpa [heap, look] using hc
      decide
  · intro a ha
    have h2 : ¬ a ≤ 1 := by
      intro h3
      have : a = 0 ∨ a = 1 := by omega
      rcases this with rfl | rfl <;> simp [heap, look] at ha
    have : slots heap a = 0 := by
      simp [slots, refs, heap, kidsOf, List.count_cons]
      omega
    exact ⟨if_neg h2, this⟩

example : ∃ h', uses 0 heap [(.list, 3), (.none, 0), (.pair, 0), (.value, 0)] = .ok h' ∧ Clean heap h' := by
  have hf : ∀ k : Kind, k = .list ∨ k = .none ∨ k = .pair ∨ k = .value → Fine k := by
    rintro k (rfl | rfl | rfl | rfl)
    · exact ⟨"getcrw", [.list], by simp [table], by decide, by decide, by simp⟩
    · exact ⟨"calc", [.none], by simp [table], by decide, by decide, by simp⟩
    · exact ⟨"bond_angle", [.pair], by simp [table], by decide, by decide, by simp⟩
    · exact ⟨"getrw", [.value], by simp [table], by decide, by decide, by simp⟩
  obtain ⟨h', h1, -, h2⟩ := C78_sequence_partial 0 [(.list, 3), (.none, 0), (.pair, 0), (.value, 0)] heap _ heap_exact (by simp [heap, look])
    (by
      intro x hx
      refine hf x.1 ?_
      simp only [List.mem_cons, List.not_mem_nil, or_false] at hx
      rcases hx with rfl | rfl | rfl | rfl <;> simp)
  exact ⟨h', h1, h2⟩

example : ∃ h', uses 0 heap (List.replicate 1000 (.bonds, 5)) = .ok h' ∧ 4000 ≤ lists h' 5 := by
  obtain ⟨h', h1, h2⟩ := C78_unbounded 0 5 1000 heap _ heap_exact
  exact ⟨h', h1, by omega⟩

end Pdffit.C78
