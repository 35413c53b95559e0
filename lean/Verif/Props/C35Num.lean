import Verif.Props.C35
import Verif.Lemmas.StruNum
import Mathlib.Tactic.Linarith

/-!
# C35 for decimal numbers and the table of the program

`roundtrip_partial` combines C35 for the printing of the program; `error_bound` says how far the printed values are from the values.
`not_identical`: the proviso on shape parameters is needed, because a positive diameter below 0.0000005 is printed as zero, and
saving the structure that has been read leaves the line out.
-/

namespace Pdffit.C35
open Stru DataRead

/-- The positive shape parameters are not printed as zero. -/
def ShapeKept (s : Stru Num Entry) : Prop :=
  ∀ x ∈ [s.hdr.spdiameter, s.hdr.stepcut], x.neg = false → 0 < x.mag → 0 < rhe (x.mag * 10 ^ 6)

/-- **C35** as stated: reading what has been saved succeeds with the printed values, and saving that gives the same text. -/
def Claim (p : Scat.PT) (eight : ℚ) : Prop :=
  ∀ (s : Stru Num Entry), Good s →
    Stru.read (env p eight) (fun _ => .ok ()) (save (env p eight) s) = .ok (round (env p eight) rndNum s) ∧
      save (env p eight) (round (env p eight) rndNum s) = save (env p eight) s

/-- The part that holds. What is missing: identical text when a positive shape parameter is printed as zero; success when the cell
with the printed values is not a cell any more (`lat`). -/
theorem roundtrip_partial {p : Scat.PT} (hp : Scat.PT.init Scat.table = .ok p) (eight : ℚ) (lat : Hdr Num → Res Unit)
    (s : Stru Num Entry) (hs : Good s) :
    (Stru.read (env p eight) lat (save (env p eight) s) =
      (lat (round (env p eight) rndNum s).hdr >>= fun _ => .ok (round (env p eight) rndNum s))) ∧
    (ShapeKept s → save (env p eight) (round (env p eight) rndNum s) = save (env p eight) s) := by
  refine ⟨read_save (fmt_env hp eight) lat s hs, fun hk => ?_⟩
  have key : ∀ x : Num, (x.neg = false → 0 < x.mag → 0 < rhe (x.mag * 10 ^ 6)) → (env p eight).pos x = true →
      (env p eight).pos (rndNum 6 x) = true := by
    intro x hx h
    simp only [env, Bool.and_eq_true, Bool.not_eq_true', decide_eq_true_eq] at h ⊢
    refine ⟨h.1, ?_⟩
    have := hx h.1 h.2
    have h' : (0 : ℚ) < rhe (x.mag * 10 ^ 6) := by exact_mod_cast this
    unfold rndNum
    positivity
  refine save_again (fmt_env hp eight) ?_ s (key _ (hk _ (by simp))) (key _ (hk _ (by simp)))
  simp [env]

/-- The closest integer. -/
theorem rhe_close (q : ℚ) (hq : 0 ≤ q) : |(rhe q : ℚ) - q| ≤ 1 / 2 := by
  have h0 : 0 ≤ ⌊q⌋ := Int.floor_nonneg.2 hq
  have h1 : ((⌊q⌋.toNat : ℕ) : ℚ) = (⌊q⌋ : ℚ) := by
    rw [← Int.cast_natCast, Int.toNat_of_nonneg h0]
  have h2 := Int.floor_le q
  have h3 := Int.lt_floor_add_one q
  unfold rhe
  rw [abs_le]
  split_ifs <;> push_cast <;> rw [h1] <;> constructor <;> linarith

/-- The printed value differs by at most half a unit of the last digit, and has the same sign. -/
theorem error_bound (d : ℕ) (x : Num) (hx : 0 ≤ x.mag) : (rndNum d x).neg = x.neg ∧ |(rndNum d x).mag - x.mag| ≤ 1 / 2 / 10 ^ d := by
  refine ⟨rfl, ?_⟩
  have hp : (0 : ℚ) < 10 ^ d := by positivity
  have h := rhe_close (x.mag * 10 ^ d) (by positivity)
  have he : (rndNum d x).mag - x.mag = ((rhe (x.mag * 10 ^ d) : ℚ) - x.mag * 10 ^ d) / 10 ^ d := by
    unfold rndNum
    field_simp
  rw [he, abs_div, abs_of_pos hp]
  exact div_le_div_of_nonneg_right h hp.le

/-- A structure without atoms and a particle diameter of 0.0000001. -/
def tiny : Stru Num Entry where
  hdr := { name := "x".toList, spcgr := "P1".toList, pscale := ⟨false, 1⟩, sharp := [⟨false, 0⟩, ⟨false, 0⟩, ⟨false, 1⟩, ⟨false, 0⟩],
           spdiameter := ⟨false, 1 / 10000000⟩, stepcut := ⟨false, 0⟩, cell := List.replicate 6 ⟨false, 90⟩,
           dcell := List.replicate 6 ⟨false, 0⟩, ncell := [1, 1, 1, 0], discus := false }
  atoms := []

theorem tiny_good : Good tiny :=
  ⟨by decide, by decide, by decide, rfl, rfl, rfl, rfl, by simp [tiny], rfl⟩

theorem tiny_rhe : rhe ((1 / 10000000 : ℚ) * 10 ^ 6) = 0 := by
  have : ⌊(1 / 10000000 : ℚ) * 10 ^ 6⌋ = 0 := by
    rw [Int.floor_eq_iff]
    norm_num
  unfold rhe
  rw [this]
  norm_num

/-- The text saved the second time is shorter. -/
theorem not_identical {p : Scat.PT} (hp : Scat.PT.init Scat.table = .ok p) (eight : ℚ) :
    save (env p eight) (round (env p eight) rndNum tiny) ≠ save (env p eight) tiny := by
  have F := fmt_env hp eight
  set E := env p eight with hE
  have hpos : E.pos tiny.hdr.spdiameter = true := by
    simp only [hE, env, tiny, Bool.not_false, Bool.true_and, decide_eq_true_eq]
    norm_num
  have hr : (rndNum 6 tiny.hdr.spdiameter) = ⟨false, 0⟩ := by
    unfold rndNum tiny
    dsimp only
    rw [tiny_rhe]
    norm_num
  have hz : E.pos ⟨false, 0⟩ = false := by simp [hE, env]
  have hzero : E.zero = ⟨false, 0⟩ := rfl
  have hcut : E.pos tiny.hdr.stepcut = false := hz
  have hs1 : (round E rndNum tiny).hdr.spdiameter = ⟨false, 0⟩ := by
    change roundShape E rndNum tiny.hdr.spdiameter = _
    unfold roundShape
    rw [if_pos hpos, hr]
  have hs2 : (round E rndNum tiny).hdr.stepcut = ⟨false, 0⟩ := by
    change roundShape E rndNum tiny.hdr.stepcut = _
    unfold roundShape
    rw [hcut]
    exact hzero
  have hcount : ∀ s : Stru Num Entry, s.atoms = [] →
      save E s = unlines ((("title  ".toList ++ s.hdr.name) :: headLines E s.hdr) ++ ["atoms".toList]) := by
    intro s h
    unfold save unlines
    rw [h]
    simp only [List.flatMap_nil, List.append_nil]
  have hl : ∀ (t : List Char) (a x b c : List (List Char)), (unlines (t :: (a ++ x ++ b) ++ c)).length =
      (unlines (t :: a)).length + (unlines x).length + (unlines (b ++ c)).length := by
    intro t a x b c
    rw [show t :: (a ++ x ++ b) ++ c = (t :: a) ++ x ++ (b ++ c) by simp only [List.cons_append, List.append_assoc],
      unlines_append, unlines_append, List.length_append, List.length_append]
  have hu : ∀ x : List Char, 0 < (unlines [x]).length := fun x => by simp [unlines]
  intro heq
  rw [hcount _ rfl, hcount _ rfl] at heq
  have hh : headLines E (round E rndNum tiny).hdr =
      ["format pdffit".toList, "scale  ".toList ++ pad 9 (E.fix 6 tiny.hdr.pscale), "sharp  ".toList ++ row E tiny.hdr.sharp,
        "spcgr   ".toList ++ tiny.hdr.spcgr] ++ [] ++
      ["cell   ".toList ++ row E tiny.hdr.cell, "dcell  ".toList ++ row E tiny.hdr.dcell,
        "ncell  ".toList ++ commas (tiny.hdr.ncell.map fun x => pad 9 (E.int x))] := by
    unfold headLines
    rw [hs1, hs2, hz]
    unfold round
    simp only [row_round F, F.again 6 _ (by decide : 0 < 6), Bool.false_eq_true, if_false, List.append_nil]
  have hh' : headLines E tiny.hdr =
      ["format pdffit".toList, "scale  ".toList ++ pad 9 (E.fix 6 tiny.hdr.pscale), "sharp  ".toList ++ row E tiny.hdr.sharp,
        "spcgr   ".toList ++ tiny.hdr.spcgr] ++ ["shape   sphere, ".toList ++ E.fix 6 tiny.hdr.spdiameter] ++
      ["cell   ".toList ++ row E tiny.hdr.cell, "dcell  ".toList ++ row E tiny.hdr.dcell,
        "ncell  ".toList ++ commas (tiny.hdr.ncell.map fun x => pad 9 (E.int x))] := by
    unfold headLines
    simp only [hcut, if_pos hpos, Bool.false_eq_true, if_false, List.append_nil]
  have hn : (round E rndNum tiny).hdr.name = tiny.hdr.name := rfl
  rw [hh, hh', hn] at heq
  have hlen := congrArg List.length heq
  rw [hl, hl] at hlen
  have h1 := hu ("shape   sphere, ".toList ++ E.fix 6 tiny.hdr.spdiameter)
  have h2 : (unlines []).length = 0 := rfl
  omega

theorem not_claim {p : Scat.PT} (hp : Scat.PT.init Scat.table = .ok p) (eight : ℚ) : ¬ Claim p eight :=
  fun h => not_identical hp eight (h tiny tiny_good).2

/-- The hypotheses of `roundtrip_partial` can be satisfied: a structure with a diameter of 35 and one atom of the table. -/
example (e : Entry) : ∃ s : Stru Num Entry, Good s ∧ ShapeKept s ∧ s.atoms.length = 1 ∧ 0 < s.hdr.spdiameter.mag := by
  refine ⟨⟨{ tiny.hdr with spdiameter := ⟨false, 35⟩, ncell := [1, 1, 1, 1] }, [(e, List.replicate 20 ⟨true, 1 / 3⟩)]⟩,
    ⟨tiny_good.nl, tiny_good.strip, tiny_good.spcgr, rfl, rfl, rfl, rfl, by simp, rfl⟩, ?_, rfl, by norm_num⟩
  intro x hx _ h0
  simp only [List.mem_cons, List.not_mem_nil, or_false] at hx
  rcases hx with rfl | rfl
  · have : (35 : ℚ) * 10 ^ 6 = ((35000000 : ℕ) : ℚ) := by norm_num
    dsimp only
    rw [this, rhe_nat]
    norm_num
  · exact absurd h0 (by simp [tiny])

/-- A negative third with precision 8: the text "-0.33333333". -/
example : fixNum 8 ⟨true, 33333333 / 100000000⟩ = "-0.33333333".toList := by
  have : (33333333 / 100000000 : ℚ) * 10 ^ 8 = ((33333333 : ℕ) : ℚ) := by norm_num
  unfold fixNum
  dsimp only
  rw [this, rhe_nat]
  rw [natStr]
  decide

end Pdffit.C35
