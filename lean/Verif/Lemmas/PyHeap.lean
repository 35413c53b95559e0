import Verif.Model.PyHeap
import Mathlib.Tactic.Ring
import Mathlib.Data.List.Count

/-! # Reference counts and references: lemmas for C78 -/

namespace Pdffit.PyHeap

/-- Number of slots that refer to an object. -/
def slots (h : Heap) (a : ℕ) : ℕ := (refs h).count (some a)

/-- Every count is the number of references: `ext` of them are held elsewhere, the others are in slots; there are no references to freed objects. -/
structure Exact (h : Heap) (ext : ℕ → ℕ) : Prop where
  live : ∀ a c, look h a = some c → c.rc = ext a + slots h a ∧ 0 < c.rc
  dead : ∀ a, look h a = none → ext a = 0 ∧ slots h a = 0

theorem count_set : ∀ (h : Heap) (a : ℕ) (x y : Option Cell) (r : Option ℕ), h[a]? = some y →
    (refs (h.set a x)).count r + (kidsOf y).count r = (refs h).count r + (kidsOf x).count r
  | [], _, _, _, _, hy => by simp at hy
  | z :: h, 0, x, y, r, hy => by
    obtain rfl : z = y := by simpa using hy
    simp [refs, List.count_append]
    omega
  | z :: h, a + 1, x, y, r, hy => by
    have := count_set h a x y r (by simpa using hy)
    simp [refs, List.count_append] at this ⊢
    omega

theorem look_set {h : Heap} {a : ℕ} {c : Cell} (e : look h a = some c) (x : Option Cell) (b : ℕ) :
    look (h.set a x) b = if a = b then x else look h b := by
  have hl : a < h.length := by
    have := look_eq e
    exact (List.getElem?_eq_some_iff.1 this).1
  unfold look
  rw [List.getElem?_set]
  split_ifs with h1
  · rfl
  · rfl

theorem slots_set {h : Heap} {a : ℕ} {c : Cell} (e : look h a = some c) (x : Option Cell) (b : ℕ) :
    slots (h.set a x) b + c.kids.count (some b) = slots h b + (kidsOf x).count (some b) :=
  count_set h a x (some c) (some b) (look_eq e)

theorem count_held (l : List (Option ℕ)) (b : ℕ) : (held l).count b = l.count (some b) := by
  induction l with
  | nil => rfl
  | cons a l ih =>
    cases a with
    | none => simpa [held] using ih
    | some a =>
      have : held (some a :: l) = a :: held l := rfl
      rw [this, List.count_cons, List.count_cons, ih]
      simp

theorem mem_held {l : List (Option ℕ)} {b : ℕ} : b ∈ held l ↔ some b ∈ l := by simp [held]

/-- New objects refer to new objects only. -/
def NewOnly (N : ℕ) (h : Heap) : Prop := ∀ a c, N ≤ a → look h a = some c → ∀ b, some b ∈ c.kids → N ≤ b

/-- Giving up references keeps the counts right, changes no slots of objects that stay, and does not touch objects that cannot be reached. -/
theorem decs_spec (h : Heap) (w : List ℕ) (ext : ℕ → ℕ) (hx : Exact h fun a => ext a + w.count a) :
    ∃ h', decs h w = .ok h' ∧ Exact h' ext ∧ h'.length = h.length ∧
      (∀ a c', look h' a = some c' → ∃ c, look h a = some c ∧ c'.kids = c.kids ∧ c'.lvl = c.lvl) ∧
      ∀ N, (∀ a ∈ w, N ≤ a) → NewOnly N h → ∀ a, a < N → h'[a]? = h[a]? := by
  induction h, w using decs.induct with
  | case1 h =>
    refine ⟨h, by unfold decs; rfl, by simpa using hx, rfl, fun a c' hc => ⟨c', hc, rfl, rfl⟩, fun _ _ _ _ _ => rfl⟩
  | case2 h a w e =>
    have := (hx.dead a e).1
    simp at this
  | case3 h a w c e hrc ih =>
    have h0 := hx.live a c e
    simp only [List.count_cons_self] at h0
    have hk : c.kids.count (some a) ≤ slots h a := by
      have := slots_set e none a
      simp [kidsOf] at this
      omega
    have hx' : Exact (h.set a none) (fun b => ext b + (held c.kids ++ w).count b) := by
      constructor
      · intro b cb hb
        rw [look_set e] at hb
        split_ifs at hb with hab
        have h6 := hx.live b cb hb
        have h7 := slots_set e none b
        simp only [kidsOf, List.count_nil] at h7
        rw [List.count_cons_of_ne hab] at h6
        rw [List.count_append, count_held]
        omega
      · intro b hb
        have h7 := slots_set e none b
        simp only [kidsOf, List.count_nil] at h7
        rw [List.count_append, count_held]
        rw [look_set e] at hb
        split_ifs at hb with hab
        · subst hab
          omega
        · have h6 := hx.dead b hb
          rw [List.count_cons_of_ne hab] at h6
          omega
    obtain ⟨h', h1, h2, h3, h4, h5⟩ := ih hx'
    refine ⟨h', ?_, h2, by simpa using h3, ?_, ?_⟩
    · rw [decs]
      split
      · rename_i e'
        rw [e] at e'
        simp at e'
      · rename_i c' e'
        rw [e] at e'
        obtain rfl : c = c' := by simpa using e'
        rw [if_pos hrc]
        exact h1
    · intro b c' hb
      obtain ⟨d, hd, hd1, hd2⟩ := h4 b c' hb
      rw [look_set e] at hd
      split_ifs at hd
      exact ⟨d, hd, hd1, hd2⟩
    · intro N hw hN b hb
      rw [h5 N ?_ ?_ b hb, List.getElem?_set_ne]
      · have := hw a (by simp)
        omega
      · intro d hd
        rcases List.mem_append.1 hd with hd | hd
        · exact hN a c (hw a (by simp)) e d (mem_held.1 hd)
        · exact hw d (by simp [hd])
      · intro d cd h6 hd
        rw [look_set e] at hd
        split_ifs at hd
        exact hN d cd h6 hd
  | case4 h a w c e hrc ih =>
    have h0 := hx.live a c e
    have hx' : Exact (h.set a (some { c with rc := c.rc - 1 })) (fun b => ext b + (w).count b) := by
      constructor
      · intro b cb hb
        have h7 := slots_set e (some { c with rc := c.rc - 1 }) b
        simp only [kidsOf] at h7
        rw [look_set e] at hb
        split_ifs at hb with hab
        · subst hab
          obtain rfl : _ = cb := by simpa using hb
          simp only [List.count_cons_self] at h0
          dsimp only
          omega
        · have h6 := hx.live b cb hb
          rw [List.count_cons_of_ne hab] at h6
          omega
      · intro b hb
        have h7 := slots_set e (some { c with rc := c.rc - 1 }) b
        simp only [kidsOf] at h7
        rw [look_set e] at hb
        split_ifs at hb with hab
        have h6 := hx.dead b hb
        rw [List.count_cons_of_ne hab] at h6
        omega
    obtain ⟨h', h1, h2, h3, h4, h5⟩ := ih hx'
    refine ⟨h', ?_, h2, by simpa using h3, ?_, ?_⟩
    · rw [decs]
      split
      · rename_i e'
        rw [e] at e'
        simp at e'
      · rename_i c' e'
        rw [e] at e'
        obtain rfl : c = c' := by simpa using e'
        rw [if_neg hrc]
        exact h1
    · intro b c' hb
      obtain ⟨d, hd, hd1, hd2⟩ := h4 b c' hb
      rw [look_set e] at hd
      split_ifs at hd with hab
      · subst hab
        obtain rfl : _ = d := by simpa using hd
        exact ⟨c, e, hd1, hd2⟩
      · exact ⟨d, hd, hd1, hd2⟩
    · intro N hw hN b hb
      rw [h5 N ?_ ?_ b hb, List.getElem?_set_ne]
      · have := hw a (by simp)
        omega
      · exact fun d hd => hw d (by simp [hd])
      · intro d cd h6 hd
        rw [look_set e] at hd
        split_ifs at hd with hab
        · subst hab
          obtain rfl : _ = cd := by simpa using hd
          exact hN a c h6 e
        · exact hN d cd h6 hd

theorem look_append (h : Heap) (x : Option Cell) (b : ℕ) : look (h ++ [x]) b = if b = h.length then x else look h b := by
  unfold look
  split_ifs with hb
  · subst hb
    simp
  · rcases Nat.lt_or_gt_of_ne hb with hb | hb
    · rw [List.getElem?_append_left hb]
    · rw [List.getElem?_eq_none (by simp; omega), List.getElem?_eq_none (by omega)]

theorem look_lt {h : Heap} {a : ℕ} {c : Cell} (e : look h a = some c) : a < h.length :=
  (List.getElem?_eq_some_iff.1 (look_eq e)).1

/-- State in the middle of a call: `h0` is the heap at its beginning, when `ext` references were held elsewhere; the call owns the references `L`. -/
structure Good (h0 : Heap) (ext : ℕ → ℕ) (L : List ℕ) (h : Heap) : Prop where
  ex : Exact h fun a => ext a + L.count a
  new : ∀ a c, h0.length ≤ a → look h a = some c → ∀ b, some b ∈ c.kids → h0.length ≤ b ∧ ∀ cb, look h b = some cb → cb.lvl < c.lvl
  old : ∀ a, a < h0.length → h[a]? = h0[a]?
  len : h0.length ≤ h.length

theorem Good.start {h : Heap} {ext : ℕ → ℕ} (hx : Exact h ext) : Good h ext [] h where
  ex := by simpa using hx
  new a c h1 h2 := absurd (look_lt h2) (by omega)
  old _ _ := rfl
  len := le_rfl

theorem Good.perm {h0 : Heap} {ext : ℕ → ℕ} {L M : List ℕ} {h : Heap} (g : Good h0 ext L h) (e : L.Perm M) : Good h0 ext M h :=
  ⟨by
    have : (fun a => ext a + M.count a) = fun a => ext a + L.count a := funext fun a => by rw [e.count_eq]
    rw [this]
    exact g.ex, g.new, g.old, g.len⟩

/-- The object at `a` has level `lvl` and `i` filled slots followed by `k` empty ones. -/
def Shape (h : Heap) (a lvl i k : ℕ) : Prop :=
  ∃ c, look h a = some c ∧ c.lvl = lvl ∧ ∃ F : List ℕ, c.kids = F.map some ++ List.replicate k none ∧ F.length = i

theorem Shape.congr {h h' : Heap} {a lvl i k : ℕ} (s : Shape h a lvl i k) (e : look h' a = look h a) : Shape h' a lvl i k := by
  obtain ⟨c, h1, h2⟩ := s
  exact ⟨c, e.trans h1, h2⟩

theorem Shape.lt {h : Heap} {a lvl i k : ℕ} (s : Shape h a lvl i k) : a < h.length := by
  obtain ⟨c, h1, h2⟩ := s
  exact look_lt h1

theorem good_new {h0 : Heap} {ext : ℕ → ℕ} {L : List ℕ} {h : Heap} (g : Good h0 ext L h) (lvl n : ℕ) :
    Good h0 ext (h.length :: L) (new h lvl n).2 ∧ Shape (new h lvl n).2 h.length lvl 0 n ∧
      (∀ b, b ≠ h.length → look (new h lvl n).2 b = look h b) := by
  have hl : ∀ b, look (new h lvl n).2 b = if b = h.length then some ⟨1, lvl, List.replicate n none⟩ else look h b :=
    look_append h _
  have hs : ∀ b, slots (new h lvl n).2 b = slots h b := by
    intro b
    simp [slots, refs, new, kidsOf, List.count_append, List.count_replicate]
  have hd : look h h.length = none := by
    cases e : look h h.length with
    | none => rfl
    | some c => exact absurd (look_lt e) (by omega)
  refine ⟨⟨⟨?_, ?_⟩, ?_, ?_, ?_⟩, ?_, ?_⟩
  · intro a c ha
    rw [hl] at ha
    rw [hs]
    split_ifs at ha with h1
    · obtain rfl : _ = c := by simpa using ha
      subst h1
      have := g.ex.dead _ hd
      simp only [List.count_cons_self]
      omega
    · rw [List.count_cons_of_ne (Ne.symm h1)]
      exact g.ex.live a c ha
  · intro a ha
    rw [hl] at ha
    rw [hs]
    split_ifs at ha with h1
    rw [List.count_cons_of_ne (Ne.symm h1)]
    exact g.ex.dead a ha
  · intro a c h1 ha b hb
    rw [hl] at ha
    split_ifs at ha with h2
    · obtain rfl : _ = c := by simpa using ha
      simp [List.mem_replicate] at hb
    · obtain ⟨h3, h4⟩ := g.new a c h1 ha b hb
      refine ⟨h3, fun cb hcb => ?_⟩
      rw [hl] at hcb
      split_ifs at hcb with h5
      · exfalso
        subst h5
        have h6 := (g.ex.dead _ hd).2
        have h7 := slots_set ha none h.length
        have h8 : 0 < c.kids.count (some h.length) := List.count_pos_iff.2 hb
        simp only [kidsOf, List.count_nil] at h7
        omega
      · exact h4 cb hcb
  · intro a ha
    have := g.len
    rw [← g.old a ha]
    exact List.getElem?_append_left (by omega)
  · have := g.len
    simp [new]
    omega
  · exact ⟨_, by rw [hl, if_pos rfl], rfl, [], by simp, rfl⟩
  · intro b hb
    rw [hl, if_neg hb]

theorem good_set {h0 : Heap} {ext : ℕ → ℕ} {L : List ℕ} {h : Heap} {v l lvl i k : ℕ} (g : Good h0 ext (v :: L) h)
    (hs : Shape h l lvl i (k + 1)) (hl : h0.length ≤ l) (hv : h0.length ≤ v) (hlv : ∀ c, look h v = some c → c.lvl < lvl) :
    ∃ h', setItem h l i v = .ok h' ∧ Good h0 ext L h' ∧ Shape h' l lvl (i + 1) k ∧ (∀ b, b ≠ l → look h' b = look h b) ∧
      h'.length = h.length := by
  obtain ⟨c, e, hc, F, hk, hF⟩ := hs
  have hvl : v ≠ l := by
    rintro rfl
    have := hlv c e
    omega
  have hi : c.kids[i]? = some none := by
    rw [hk, List.getElem?_append_right (by simp [hF])]
    simp [hF]
  have hi' : i < c.kids.length := (List.getElem?_eq_some_iff.1 hi).1
  have hset : c.kids.set i (some v) = (F ++ [v]).map some ++ List.replicate k none := by
    rw [hk, List.set_append_right _ _ (by simp [hF])]
    simp [hF, List.replicate_succ]
  have hcount : ∀ b, ((F ++ [v]).map some ++ List.replicate k none).count (some b) =
      c.kids.count (some b) + if v = b then 1 else 0 := by
    intro b
    rw [hk, List.map_append, List.count_append, List.count_append, List.count_append]
    simp [List.count_replicate, List.count_cons]
  set c' : Cell := { c with kids := c.kids.set i (some v) } with hc'
  have hsl : ∀ b, slots (h.set l (some c')) b = slots h b + if v = b then 1 else 0 := by
    intro b
    have := slots_set e (some c') b
    have h2 : kidsOf (some c') = (F ++ [v]).map some ++ List.replicate k none := hset
    rw [h2, hcount] at this
    omega
  have hlk : ∀ b, look (h.set l (some c')) b = if l = b then some c' else look h b := look_set e (some c')
  refine ⟨h.set l (some c'), ?_, ⟨⟨?_, ?_⟩, ?_, ?_, ?_⟩, ?_, ?_, by simp⟩
  · unfold setItem
    rw [e]
    dsimp only
    rw [hi]
    dsimp only [Option.toList]
    rw [decs]
  · intro a ca ha
    rw [hlk] at ha
    rw [hsl]
    have hcc : ∀ ca', look h a = some ca' → ca'.rc = ext a + L.count a + (slots h a + if v = a then 1 else 0) ∧ 0 < ca'.rc := by
      intro ca' h1
      have h2 := g.ex.live a ca' h1
      rw [List.count_cons] at h2
      simp only [beq_iff_eq] at h2
      exact ⟨by omega, h2.2⟩
    split_ifs at ha with h1
    · subst h1
      obtain rfl : c' = ca := by simpa using ha
      exact hcc c e
    · exact hcc ca ha
  · intro a ha
    rw [hlk] at ha
    rw [hsl]
    split_ifs at ha with h1
    have h2 := g.ex.dead a ha
    rw [List.count_cons] at h2
    simp only [beq_iff_eq] at h2
    omega
  · intro a ca h1 ha b hb
    have hlvl : ∀ x cx, look (h.set l (some c')) x = some cx → ∃ cx', look h x = some cx' ∧ cx'.lvl = cx.lvl := by
      intro x cx hx
      rw [hlk] at hx
      split_ifs at hx with h2
      · subst h2
        obtain rfl : c' = cx := by simpa using hx
        exact ⟨c, e, rfl⟩
      · exact ⟨cx, hx, rfl⟩
    rw [hlk] at ha
    split_ifs at ha with h2
    · subst h2
      obtain rfl : c' = ca := by simpa using ha
      have hb' : some b ∈ c.kids ∨ b = v := by
        have h3 : some b ∈ c.kids.set i (some v) := hb
        rcases List.mem_or_eq_of_mem_set h3 with h3 | h3
        · exact .inl h3
        · exact .inr (by simpa using h3)
      rcases hb' with hb' | rfl
      · obtain ⟨h3, h4⟩ := g.new l c h1 e b hb'
        refine ⟨h3, fun cb hcb => ?_⟩
        obtain ⟨cx, h5, h6⟩ := hlvl b cb hcb
        rw [← h6]
        exact h4 cx h5
      · refine ⟨hv, fun cb hcb => ?_⟩
        obtain ⟨cx, h5, h6⟩ := hlvl b cb hcb
        rw [← h6]
        show cx.lvl < c.lvl
        rw [hc]
        exact hlv cx h5
    · obtain ⟨h3, h4⟩ := g.new a ca h1 ha b hb
      refine ⟨h3, fun cb hcb => ?_⟩
      obtain ⟨cx, h5, h6⟩ := hlvl b cb hcb
      rw [← h6]
      exact h4 cx h5
  · intro a ha
    rw [List.getElem?_set_ne (by omega)]
    exact g.old a ha
  · simpa using g.len
  · exact ⟨c', by rw [hlk, if_pos rfl], hc, F ++ [v], hset, by simp [hF]⟩
  · intro b hb
    rw [hlk, if_neg (Ne.symm hb)]

/-- Making an item and storing it. -/
theorem good_fill {h0 : Heap} {ext : ℕ → ℕ} {L : List ℕ} {l lvl : ℕ} (hlvl : 0 < lvl) (hl : h0.length ≤ l) :
    ∀ (k i : ℕ) (h : Heap), Good h0 ext L h → Shape h l lvl i k →
      ∃ h', fill l h i k = .ok h' ∧ Good h0 ext L h' ∧ Shape h' l lvl (i + k) 0 ∧ (∀ b, b < h.length → b ≠ l → look h' b = look h b) ∧
        h.length ≤ h'.length
  | 0, i, h, g, hs => ⟨h, rfl, g, hs, fun _ _ _ => rfl, le_rfl⟩
  | k + 1, i, h, g, hs => by
    obtain ⟨g1, s1, l1⟩ := good_new g 0 0
    have hlt := hs.lt
    have hlen : (new h 0 0).2.length = h.length + 1 := by simp [new]
    obtain ⟨h2, e2, g2, s2, l2, n2⟩ := good_set g1 (hs.congr (l1 l (by omega))) hl (by have := g.len; omega) (by
      obtain ⟨c, hc, hc', -⟩ := s1
      intro c1 h1
      rw [hc] at h1
      obtain rfl : c = c1 := by simpa using h1
      omega)
    obtain ⟨h3, e3, g3, s3, l3, n3⟩ := good_fill hlvl hl k (i + 1) h2 g2 s2
    refine ⟨h3, ?_, g3, by rwa [show i + (k + 1) = i + 1 + k by omega], ?_, by omega⟩
    · have : fill l h i (k + 1) = (setItem (new h 0 0).2 l i h.length >>= fun h' => fill l h' (i + 1) k) := rfl
      rw [this, e2]
      exact e3
    · intro b hb hb'
      rw [l3 b (by omega) hb', l2 b hb', l1 b (by omega)]

theorem good_make {h0 : Heap} {ext : ℕ → ℕ} {L : List ℕ} {h : Heap} (g : Good h0 ext L h) {lvl : ℕ} (hlvl : 0 < lvl) (n : ℕ) :
    ∃ h', fill (new h lvl n).1 (new h lvl n).2 0 n = .ok h' ∧ Good h0 ext (h.length :: L) h' ∧ Shape h' h.length lvl n 0 ∧
      (∀ b, b < h.length → look h' b = look h b) ∧ h.length < h'.length := by
  obtain ⟨g1, s1, l1⟩ := good_new g lvl n
  have hlen : (new h lvl n).2.length = h.length + 1 := by simp [new]
  obtain ⟨h2, e2, g2, s2, l2, n2⟩ := good_fill hlvl g.len n 0 _ g1 s1
  refine ⟨h2, e2, g2, by rwa [Nat.zero_add] at s2, fun b hb => ?_, by omega⟩
  rw [l2 b (by omega) (by omega), l1 b (by omega)]

theorem good_mkList {h0 : Heap} {ext : ℕ → ℕ} {L : List ℕ} {h : Heap} (g : Good h0 ext L h) (n : ℕ) :
    ∃ h', mkList h n = .ok (h.length, h') ∧ Good h0 ext (h.length :: L) h' ∧ Shape h' h.length 2 n 0 ∧
      (∀ b, b < h.length → look h' b = look h b) ∧ h.length < h'.length := by
  obtain ⟨h', e, r⟩ := good_make g (lvl := 2) (by omega) n
  refine ⟨h', ?_, r⟩
  unfold mkList
  dsimp only
  rw [e]
  rfl

theorem good_mkPair {h0 : Heap} {ext : ℕ → ℕ} {L : List ℕ} {h : Heap} (g : Good h0 ext L h) :
    ∃ h', mkPair h = .ok (h.length, h') ∧ Good h0 ext (h.length :: L) h' ∧ Shape h' h.length 1 2 0 ∧
      (∀ b, b < h.length → look h' b = look h b) ∧ h.length < h'.length := by
  obtain ⟨h', e, r⟩ := good_make g (lvl := 1) (by omega) 2
  refine ⟨h', ?_, r⟩
  unfold mkPair
  dsimp only
  rw [e]
  rfl

theorem Shape.lvl {h : Heap} {a lvl i k : ℕ} (s : Shape h a lvl i k) : ∀ c, look h a = some c → c.lvl = lvl := by
  obtain ⟨c, h1, h2, -⟩ := s
  intro c' h3
  rw [h1] at h3
  obtain rfl : c = c' := by simpa using h3
  exact h2

theorem good_pairs {h0 : Heap} {ext : ℕ → ℕ} {L : List ℕ} {a b c d : ℕ} (ha : h0.length ≤ a) (hab : a < b) (hbc : b < c) (hcd : c < d) :
    ∀ (k i : ℕ) (h : Heap), Good h0 ext L h → Shape h a 2 i k → Shape h b 2 i k → Shape h c 2 i k → Shape h d 2 i k →
      ∃ h', pairLoop a b c d h i k = .ok h' ∧ Good h0 ext L h' ∧ Shape h' a 2 (i + k) 0 ∧ Shape h' b 2 (i + k) 0 ∧
        Shape h' c 2 (i + k) 0 ∧ Shape h' d 2 (i + k) 0 ∧ h.length ≤ h'.length
  | 0, i, h, g, s1, s2, s3, s4 => ⟨h, rfl, g, s1, s2, s3, s4, le_rfl⟩
  | k + 1, i, h, g, sa, sb, sc, sd => by
    have hd := sd.lt
    have hlen := g.len
    -- dij
    obtain ⟨g1, s1, l1⟩ := good_new g 0 0
    have n1 : (new h 0 0).2.length = h.length + 1 := by simp [new]
    obtain ⟨h2, e2, g2, sa2, l2, n2⟩ := good_set g1 (sa.congr (l1 a (by omega))) ha (by omega)
      (fun x hx => by rw [s1.lvl x hx]; omega)
    have sb2 := sb.congr ((l2 b (by omega)).trans (l1 b (by omega)))
    have sc2 := sc.congr ((l2 c (by omega)).trans (l1 c (by omega)))
    have sd2 := sd.congr ((l2 d (by omega)).trans (l1 d (by omega)))
    -- ddij
    obtain ⟨g3, s3, l3⟩ := good_new g2 0 0
    have n3 : (new h2 0 0).2.length = h2.length + 1 := by simp [new]
    obtain ⟨h4, e4, g4, sb4, l4, n4⟩ := good_set g3 (sb2.congr (l3 b (by omega))) (by omega) (by omega)
      (fun x hx => by rw [s3.lvl x hx]; omega)
    have sa4 := sa2.congr ((l4 a (by omega)).trans (l3 a (by omega)))
    have sc4 := sc2.congr ((l4 c (by omega)).trans (l3 c (by omega)))
    have sd4 := sd2.congr ((l4 d (by omega)).trans (l3 d (by omega)))
    -- ij0
    obtain ⟨h5, e5, g5, s5, l5, n5⟩ := good_mkPair g4
    obtain ⟨h6, e6, g6, sc6, l6, n6⟩ := good_set g5 (sc4.congr (l5 c (by omega))) (by omega) (by omega)
      (fun x hx => by rw [s5.lvl x hx]; omega)
    have sa6 := sa4.congr ((l6 a (by omega)).trans (l5 a (by omega)))
    have sb6 := sb4.congr ((l6 b (by omega)).trans (l5 b (by omega)))
    have sd6 := sd4.congr ((l6 d (by omega)).trans (l5 d (by omega)))
    -- ij1
    obtain ⟨h7, e7, g7, s7, l7, n7⟩ := good_mkPair g6
    obtain ⟨h8, e8, g8, sd8, l8, n8⟩ := good_set g7 (sd6.congr (l7 d (by omega))) (by omega) (by omega)
      (fun x hx => by rw [s7.lvl x hx]; omega)
    have sa8 := sa6.congr ((l8 a (by omega)).trans (l7 a (by omega)))
    have sb8 := sb6.congr ((l8 b (by omega)).trans (l7 b (by omega)))
    have sc8 := sc6.congr ((l8 c (by omega)).trans (l7 c (by omega)))
    obtain ⟨h9, e9, g9, r1, r2, r3, r4, n9⟩ := good_pairs ha hab hbc hcd k (i + 1) h8 g8 sa8 sb8 sc8 sd8
    rw [show i + 1 + k = i + (k + 1) by omega] at r1 r2 r3 r4
    refine ⟨h9, ?_, g9, r1, r2, r3, r4, by omega⟩
    have e : pairLoop a b c d h i (k + 1) = (setItem (new h 0 0).2 a i h.length >>= fun h =>
        setItem (new h 0 0).2 b i h.length >>= fun h => mkPair h >>= fun x => setItem x.2 c i x.1 >>= fun h =>
        mkPair h >>= fun x => setItem x.2 d i x.1 >>= fun h => pairLoop a b c d h (i + 1) k) := rfl
    rw [e, e2]
    show (setItem (new h2 0 0).2 b i h2.length >>= _) = _
    rw [e4]
    show (mkPair h4 >>= _) = _
    rw [e5]
    show (setItem h5 c i h4.length >>= _) = _
    rw [e6]
    show (mkPair h6 >>= _) = _
    rw [e7]
    show (setItem h7 d i h6.length >>= _) = _
    rw [e8]
    exact e9

theorem good_dictSet {h0 : Heap} {ext : ℕ → ℕ} {L : List ℕ} {h : Heap} {d v n : ℕ} (g : Good h0 ext L h) {cd : Cell}
    (ed : look h d = some cd) (hd3 : cd.lvl = 3) (hs : Shape h v 2 n 0) (hd : h0.length ≤ d) (hv : h0.length ≤ v) :
    ∃ h' cd', dictSet h d v = .ok h' ∧ Good h0 ext L h' ∧ look h' d = some cd' ∧ cd'.lvl = 3 ∧ Shape h' v 2 n 0 ∧
      (∀ b, b ≠ d → b ≠ v → look h' b = look h b) ∧ h'.length = h.length := by
  obtain ⟨cv, ev, hcv, F, hk, hF⟩ := hs
  have hvd : v ≠ d := by
    rintro rfl
    rw [ed] at ev
    obtain rfl : cd = cv := by simpa using ev
    omega
  set cv' : Cell := { cv with rc := cv.rc + 1 } with hcv'
  set h1 := h.set v (some cv') with hh1
  have lk1 : ∀ b, look h1 b = if v = b then some cv' else look h b := look_set ev (some cv')
  have ed1 : look h1 d = some cd := by rw [lk1, if_neg hvd, ed]
  set cd' : Cell := { cd with kids := cd.kids ++ [some v] } with hcd'
  have lk2 : ∀ b, look (h1.set d (some cd')) b = if d = b then some cd' else if v = b then some cv' else look h b := by
    intro b
    rw [look_set ed1, lk1]
  have hsl : ∀ b, slots (h1.set d (some cd')) b = slots h b + if v = b then 1 else 0 := by
    intro b
    have h2 := slots_set ev (some cv') b
    have h3 := slots_set ed1 (some cd') b
    have h4 : kidsOf (some cv') = cv.kids := rfl
    have h5 : kidsOf (some cd') = cd.kids ++ [some v] := rfl
    rw [h4] at h2
    rw [h5, List.count_append, List.count_singleton] at h3
    simp only [beq_iff_eq, Option.some.injEq] at h3
    rw [← hh1] at h2
    split_ifs at h3 ⊢ <;> omega
  have hlvl : ∀ x cx, look (h1.set d (some cd')) x = some cx → ∃ cx', look h x = some cx' ∧ cx'.lvl = cx.lvl := by
    intro x cx hx
    rw [lk2] at hx
    split_ifs at hx with h2 h3
    · subst h2
      obtain rfl : cd' = cx := by simpa using hx
      exact ⟨cd, ed, rfl⟩
    · subst h3
      obtain rfl : cv' = cx := by simpa using hx
      exact ⟨cv, ev, rfl⟩
    · exact ⟨cx, hx, rfl⟩
  refine ⟨h1.set d (some cd'), cd', ?_, ⟨⟨?_, ?_⟩, ?_, ?_, ?_⟩, by rw [lk2, if_pos rfl], hd3, ?_, ?_, by simp [hh1]⟩
  · have e1 : incref h v = .ok h1 := by
      unfold incref
      rw [ev]
    unfold dictSet
    rw [e1]
    dsimp only
    rw [ed1]
  · intro a ca ha
    rw [lk2] at ha
    rw [hsl]
    split_ifs at ha with h2 h3
    · subst h2
      obtain rfl : cd' = ca := by simpa using ha
      have := g.ex.live d cd ed
      rw [if_neg hvd]
      exact this
    · subst h3
      obtain rfl : cv' = ca := by simpa using ha
      have := g.ex.live v cv ev
      rw [if_pos rfl]
      show cv.rc + 1 = _ ∧ 0 < cv.rc + 1
      omega
    · rw [if_neg h3]
      exact g.ex.live a ca ha
  · intro a ha
    rw [lk2] at ha
    rw [hsl]
    split_ifs at ha with h2 h3
    rw [if_neg h3]
    exact g.ex.dead a ha
  · intro a ca h2 ha b hb
    have key : (some b ∈ cd.kids ∨ b = v) ∧ a = d ∧ ca = cd' ∨ ∃ ca', look h a = some ca' ∧ ca'.lvl = ca.lvl ∧ some b ∈ ca'.kids := by
      rw [lk2] at ha
      split_ifs at ha with h3 h4
      · obtain rfl : cd' = ca := by simpa using ha
        refine .inl ⟨?_, h3.symm, rfl⟩
        have : some b ∈ cd.kids ++ [some v] := hb
        simpa using this
      · subst h4
        obtain rfl : cv' = ca := by simpa using ha
        exact .inr ⟨cv, ev, rfl, hb⟩
      · exact .inr ⟨ca, ha, rfl, hb⟩
    rcases key with ⟨h3 | h3, rfl, rfl⟩ | ⟨ca', h3, h4, h5⟩
    · obtain ⟨h4, h5⟩ := g.new _ cd h2 ed b h3
      refine ⟨h4, fun cb hcb => ?_⟩
      obtain ⟨cx, h6, h7⟩ := hlvl b cb hcb
      rw [← h7]
      exact h5 cx h6
    · subst h3
      refine ⟨hv, fun cb hcb => ?_⟩
      obtain ⟨cx, h6, h7⟩ := hlvl _ cb hcb
      rw [ev] at h6
      obtain rfl : cv = cx := by simpa using h6
      show cb.lvl < cd.lvl
      omega
    · obtain ⟨h6, h7⟩ := g.new a ca' h2 h3 b h5
      refine ⟨h6, fun cb hcb => ?_⟩
      obtain ⟨cx, h8, h9⟩ := hlvl b cb hcb
      rw [← h9, ← h4]
      exact h7 cx h8
  · intro a ha
    rw [List.getElem?_set_ne (by omega), hh1, List.getElem?_set_ne (by omega)]
    exact g.old a ha
  · simpa [hh1] using g.len
  · exact ⟨cv', by rw [lk2, if_neg (Ne.symm hvd), if_pos rfl], hcv, F, hk, hF⟩
  · intro b h2 h3
    rw [lk2, if_neg (Ne.symm h2), if_neg (Ne.symm h3)]

/-- Giving up the result of a call. -/
theorem good_drop {h0 : Heap} {ext : ℕ → ℕ} {L : List ℕ} {h : Heap} {r : ℕ} (g : Good h0 ext (r :: L) h) (hr : h0.length ≤ r) :
    ∃ h', decs h [r] = .ok h' ∧ Good h0 ext L h' ∧
      ∀ a c', look h' a = some c' → ∃ c, look h a = some c ∧ c'.kids = c.kids ∧ c'.lvl = c.lvl := by
  have hx : Exact h fun a => (ext a + L.count a) + [r].count a := by
    have : (fun a => (ext a + L.count a) + [r].count a) = fun a => ext a + (r :: L).count a := funext fun a => by
      simp only [List.count_cons, List.count_nil]
      omega
    rw [this]
    exact g.ex
  obtain ⟨h', h1, h2, h3, h4, h5⟩ := decs_spec h [r] _ hx
  refine ⟨h', h1, ⟨h2, ?_, ?_, by rw [h3]; exact g.len⟩, h4⟩
  · intro a c' ha hc b hb
    obtain ⟨c, e1, e2, e3⟩ := h4 a c' hc
    rw [e2] at hb
    obtain ⟨h6, h7⟩ := g.new a c ha e1 b hb
    refine ⟨h6, fun cb hcb => ?_⟩
    obtain ⟨cb', f1, f2, f3⟩ := h4 b cb hcb
    rw [e3, f3]
    exact h7 cb' f1
  · intro a ha
    rw [h5 h0.length (by simpa using hr) (fun a c h6 h7 b hb => (g.new a c h6 h7 b hb).1) a ha]
    exact g.old a ha

/-- If nobody holds a reference to a new object, all new objects are freed. -/
theorem freed {h0 : Heap} {ext : ℕ → ℕ} {h : Heap} (hx : Exact h0 ext) (g : Good h0 ext [] h) (a : ℕ) (ha : h0.length ≤ a) :
    look h a = none := by
  have hdead : ∀ b, h0.length ≤ b → look h0 b = none := by
    intro b hb
    cases e : look h0 b with
    | none => rfl
    | some c => exact absurd (look_lt e) (by omega)
  obtain ⟨B, hB⟩ : ∃ B, ∀ b c, look h b = some c → c.lvl < B := by
    have : ∀ l : Heap, ∃ B, ∀ c, some c ∈ l → c.lvl < B := by
      intro l
      induction l with
      | nil => exact ⟨0, by simp⟩
      | cons o l ih =>
        obtain ⟨B, hB⟩ := ih
        refine ⟨B + (match o with | none => 0 | some c => c.lvl + 1), fun c hc => ?_⟩
        rcases List.mem_cons.1 hc with rfl | hc
        · dsimp only
          omega
        · have := hB c hc
          omega
    obtain ⟨B, hB⟩ := this h
    exact ⟨B, fun b c e => hB c (List.mem_of_getElem? (look_eq e))⟩
  have key : ∀ k b c, h0.length ≤ b → look h b = some c → B ≤ c.lvl + k → False := by
    intro k
    induction k with
    | zero =>
      intro b c h1 h2 h3
      have := hB b c h2
      omega
    | succ k ih =>
      intro b c h1 h2 h3
      have h4 := g.ex.live b c h2
      have h5 := (hx.dead b (hdead b h1))
      simp only [List.count_nil] at h4
      have h6 : 0 < slots h b := by omega
      obtain ⟨o, ho, hm⟩ := List.mem_flatMap.1 (List.count_pos_iff.1 h6)
      obtain ⟨j, hj⟩ := List.mem_iff_getElem?.1 ho
      cases o with
      | none => simp [kidsOf] at hm
      | some cj =>
        have hl : look h j = some cj := by
          unfold look
          rw [hj]
          rfl
        by_cases hjn : h0.length ≤ j
        · have := (g.new j cj hjn hl b hm).2 c h2
          exact ih j cj hjn hl (by omega)
        · have h7 := g.old j (by omega)
          rw [hj] at h7
          have h8 : some b ∈ refs h0 := List.mem_flatMap.2 ⟨some cj, List.mem_of_getElem? h7.symm, hm⟩
          have h9 : 0 < slots h0 b := List.count_pos_iff.2 h8
          omega
  cases e : look h a with
  | none => rfl
  | some c => exact (key B a c ha e (by omega)).elim

end Pdffit.PyHeap
