import Verif.Model.LatticeText
import Verif.Model.CellErr
import Verif.Props.C45
import Verif.Props.C70

/-!
# C95: the printed description of a cell

The description that is printed when a structure is read can be read back and describes the cell.
-/

namespace Pdffit.C95
open RText LatText
open DataRead (isSpace)
open Stru (natStr)

/-- What can be read of a value and its standard deviation: six and two digits. -/
def look (x dx : Val) : Val × Option Val := (rnd 6 x, seen 2 x dx)

def look3 (x dx : Fin 3 → Val) : List (Val × Option Val) := [look (x 0) (dx 0), look (x 1) (dx 1), look (x 2) (dx 2)]

/-- What can be read of the description. -/
def summary (p : LatR) : LatS where
  iphase := p.iphase
  name := p.name
  a0 := look3 p.a0 p.da0
  win := look3 p.win p.dwin
  v := [look p.v p.dv]
  rho0 := [look p.rho0 p.drho0]
  gten := [look3 (fun i => p.gten i 0) fun i => p.dgten i 0, look3 (fun i => p.gten i 1) fun i => p.dgten i 1, look3 (fun i => p.gten i 2) fun i => p.dgten i 2]
  ar := look3 p.ar p.dar
  wrez := look3 p.wrez p.dwrez
  vr := [look p.vr p.dvr]
  rten := [look3 (fun i => p.rten i 0) fun i => p.drten i 0, look3 (fun i => p.rten i 1) fun i => p.drten i 1, look3 (fun i => p.rten i 2) fun i => p.drten i 2]

/-- The values are numbers with a magnitude that is not negative, infinite or not numbers; the title is one line. -/
structure OkLat (p : LatR) : Prop where
  name : '\n' ∉ p.name
  a0 : ∀ i, Ok (p.a0 i) ∧ Ok (p.da0 i)
  win : ∀ i, Ok (p.win i) ∧ Ok (p.dwin i)
  v : Ok p.v ∧ Ok p.dv
  rho0 : Ok p.rho0 ∧ Ok p.drho0
  gten : ∀ i j, Ok (p.gten i j) ∧ Ok (p.dgten i j)
  ar : ∀ i, Ok (p.ar i) ∧ Ok (p.dar i)
  wrez : ∀ i, Ok (p.wrez i) ∧ Ok (p.dwrez i)
  vr : Ok p.vr ∧ Ok p.dvr
  rten : ∀ i j, Ok (p.rten i j) ∧ Ok (p.drten i j)

theorem row_cells (x dx : Fin 3 → Val) : row x dx = cellsText [(20, x 0, dx 0), (20, x 1, dx 1), (0, x 2, dx 2)] := by
  simp [row, cellsText]

theorem vals_row (lab : List Char) (hl : lab.length = 25) (x dx : Fin 3 → Val) (h : ∀ i, Ok (x i) ∧ Ok (dx i)) :
    vals 3 (lab ++ row x dx) = some (look3 x dx) := by
  obtain ⟨w, -, hr⟩ := readCells_text [(20, x 0, dx 0), (20, x 1, dx 1), (0, x 2, dx 2)] (by
    intro c hc
    simp only [List.mem_cons, List.not_mem_nil, or_false] at hc
    rcases hc with rfl | rfl | rfl
    · exact h 0
    · exact h 1
    · exact h 2) [] after_nil [] (by simp)
  rw [List.nil_append, List.append_nil] at hr
  unfold vals
  rw [List.drop_left' hl, row_cells]
  exact (congrArg (Option.map Prod.fst) hr).trans rfl

theorem vals_one (lab : List Char) (hl : lab.length = 25) (x dx : Val) (h : Ok x ∧ Ok dx) : vals 1 (lab ++ cell true 0 x dx) = some [look x dx] := by
  obtain ⟨w, -, hr⟩ := readCells_text [(0, x, dx)] (by simpa using h) [] after_nil [] (by simp)
  rw [List.nil_append, List.append_nil] at hr
  have e : cell true 0 x dx = cellsText [(0, x, dx)] := by simp [cellsText]
  unfold vals
  rw [List.drop_left' hl, e]
  exact (congrArg (Option.map Prod.fst) hr).trans rfl

theorem lab_row_nl {lab : List Char} (h : '\n' ∉ lab) (x dx : Fin 3 → Val) : '\n' ∉ lab ++ row x dx := by
  rw [row_cells, List.mem_append, not_or]
  exact ⟨h, cells_nl _⟩

theorem lab_one_nl {lab : List Char} (h : '\n' ∉ lab) (x dx : Val) : '\n' ∉ lab ++ cell true 0 x dx := by
  rw [List.mem_append, not_or]
  exact ⟨h, cell_nl _ _ _ _⟩

theorem latLines_nl (p : LatR) (h : '\n' ∉ p.name) : ∀ l ∈ latLines p, '\n' ∉ l := by
  intro l hl
  simp only [latLines, List.mem_cons, List.not_mem_nil, or_false] at hl
  rcases hl with rfl | rfl | rfl | rfl | rfl | rfl | rfl | rfl | rfl | rfl | rfl | rfl | rfl | rfl | rfl | rfl | rfl | rfl
  · rw [List.mem_append, not_or]; exact ⟨by decide, C70.nat_nl _⟩
  · rw [List.mem_append, not_or]; exact ⟨by decide, h⟩
  · simp
  · exact lab_row_nl (by decide) _ _
  · exact lab_row_nl (by decide) _ _
  · exact lab_one_nl (by decide) _ _
  · exact lab_one_nl (by decide) _ _
  · exact lab_row_nl (by decide) _ _
  · exact lab_row_nl (by decide) _ _
  · exact lab_row_nl (by decide) _ _
  · simp
  · exact lab_row_nl (by decide) _ _
  · exact lab_row_nl (by decide) _ _
  · exact lab_one_nl (by decide) _ _
  · exact lab_row_nl (by decide) _ _
  · exact lab_row_nl (by decide) _ _
  · exact lab_row_nl (by decide) _ _
  · simp

theorem readLat_of {s l0 l1 l2 l3 l4 l5 l6 l7 l8 l9 l10 l11 l12 l13 l14 l15 l16 l17 : List Char}
    (hs : lines s = [l0, l1, l2, l3, l4, l5, l6, l7, l8, l9, l10, l11, l12, l13, l14, l15, l16, l17]) {n : ℤ × List Char} {a0 win v rho0 g0 g1 g2 ar wrez vr r0 r1 r2}
    (h0 : Stru.scanInt (l0.drop 25) = some n) (h3 : vals 3 l3 = some a0) (h4 : vals 3 l4 = some win) (h5 : vals 1 l5 = some v) (h6 : vals 1 l6 = some rho0)
    (h7 : vals 3 l7 = some g0) (h8 : vals 3 l8 = some g1) (h9 : vals 3 l9 = some g2) (h11 : vals 3 l11 = some ar) (h12 : vals 3 l12 = some wrez)
    (h13 : vals 1 l13 = some vr) (h14 : vals 3 l14 = some r0) (h15 : vals 3 l15 = some r1) (h16 : vals 3 l16 = some r2) :
    readLat s = some ⟨n.1.toNat, l1.drop 26, a0, win, v, rho0, [g0, g1, g2], ar, wrez, vr, [r0, r1, r2]⟩ := by
  unfold readLat
  rw [hs]
  simp only [h0, h3, h4, h5, h6, h7, h8, h9, h11, h12, h13, h14, h15, h16, Option.bind_eq_bind, Option.bind_some]

/-- The description can be read back. -/
theorem C95_read (p : LatR) (h : OkLat p) : readLat (latText p) = some (summary p) := by
  have h0 : Stru.scanInt ((" Phase number           : ".toList ++ natStr p.iphase).drop 25) = some ((p.iphase : ℤ), []) := by
    have e : " Phase number           : ".toList ++ natStr p.iphase = " Phase number           :".toList ++ ([' '] ++ (natStr p.iphase ++ [])) := by
      rw [List.append_nil, ← List.append_assoc]
      refine congrArg (· ++ natStr p.iphase) ?_
      decide
    rw [e, List.drop_left' (by decide)]
    exact C64.scanNat p.iphase [' '] [] (by decide) (by simp)
  have h1 : (" Phase title            : ".toList ++ p.name).drop 26 = p.name := List.drop_left' (by decide)
  have l25 : "                         ".toList.length = 25 := by decide
  have e := readLat_of (lines_unlines _ (latLines_nl p h.name)) h0 (vals_row _ (by decide) _ _ h.a0) (vals_row _ (by decide) _ _ h.win)
    (vals_one _ (by decide) _ _ h.v) (vals_one _ (by decide) _ _ h.rho0) (vals_row _ (by decide) _ _ fun i => h.gten i 0) (vals_row _ l25 _ _ fun i => h.gten i 1)
    (vals_row _ l25 _ _ fun i => h.gten i 2) (vals_row _ (by decide) _ _ h.ar) (vals_row _ (by decide) _ _ h.wrez) (vals_one _ (by decide) _ _ h.vr)
    (vals_row _ (by decide) _ _ fun i => h.rten i 0) (vals_row _ l25 _ _ fun i => h.rten i 1) (vals_row _ l25 _ _ fun i => h.rten i 2)
  rw [h1] at e
  exact e

/-! ## The cell -/

/-- The number that is read. -/
noncomputable def value : Val → ℝ
  | .num n => if n.neg then -(n.mag : ℝ) else n.mag
  | _ => 0

theorem value_near {v : Val} {x : ℝ} (h : C70.Shows v x) : |value (rnd 6 v) - x| ≤ |x| * (5 / 10 ^ 6) := by
  obtain ⟨⟨s, m⟩, rfl, h0, rfl⟩ := h
  dsimp only at h0 ⊢
  have h1 := gVal_rel (p := 6) (by norm_num) h0
  have h2 : |(gVal 6 m : ℝ) - m| ≤ m * (5 / 10 ^ 6) := by
    have e : m * 10 ^ (1 - (6 : ℕ) : ℤ) / 2 = m * (5 / 10 ^ 6) := by norm_num [zpow_neg]; ring
    rw [e] at h1
    have h4 : ((|gVal 6 m - m| : ℚ) : ℝ) ≤ ((m * (5 / 10 ^ 6) : ℚ) : ℝ) := Rat.cast_le.2 h1
    push_cast at h4
    exact h4
  have h3 : (0 : ℝ) ≤ m := by exact_mod_cast h0
  cases s
  · show |(gVal 6 m : ℝ) - m| ≤ |(m : ℝ)| * _
    rw [abs_of_nonneg h3]
    exact h2
  · show |-(gVal 6 m : ℝ) - -m| ≤ |-(m : ℝ)| * _
    rw [abs_neg, abs_of_nonneg h3, show -(gVal 6 m : ℝ) - -(m : ℝ) = -((gVal 6 m : ℝ) - m) by ring, abs_neg]
    exact h2

/-- The number in row `j` and column `i` of a table. -/
noncomputable def entry (t : List (List (Val × Option Val))) (i j : Fin 3) : ℝ := value (((t.getD j []).getD i (.nan false, none)).1)

theorem entry_look (x dx : Fin 3 → Fin 3 → Val) (i j : Fin 3) :
    entry [look3 (fun i => x i 0) fun i => dx i 0, look3 (fun i => x i 1) fun i => dx i 1, look3 (fun i => x i 2) fun i => dx i 2] i j = value (rnd 6 (x i j)) := by
  fin_cases i <;> fin_cases j <;> rfl

theorem prod_near {x y g r : ℝ} (n1 : |x - g| ≤ |g| * (5 / 10 ^ 6)) (n2 : |y - r| ≤ |r| * (5 / 10 ^ 6)) : |x * y - g * r| ≤ 2 / 10 ^ 5 * (|g| * |r|) := by
  have : x * y - g * r = (x - g) * (y - r) + (x - g) * r + g * (y - r) := by ring
  rw [this]
  have p1 : |(x - g) * (y - r)| ≤ (|g| * (5 / 10 ^ 6)) * (|r| * (5 / 10 ^ 6)) := by
    rw [abs_mul]
    exact mul_le_mul n1 n2 (abs_nonneg _) (by positivity)
  have p2 : |(x - g) * r| ≤ (|g| * (5 / 10 ^ 6)) * |r| := by
    rw [abs_mul]
    exact mul_le_mul_of_nonneg_right n1 (abs_nonneg _)
  have p3 : |g * (y - r)| ≤ |g| * (|r| * (5 / 10 ^ 6)) := by
    rw [abs_mul]
    exact mul_le_mul_of_nonneg_left n2 (abs_nonneg _)
  have q : 0 ≤ |g| * |r| := by positivity
  refine (abs_add_le _ _).trans ((add_le_add ((abs_add_le _ _).trans (add_le_add p1 p2)) p3).trans ?_)
  nlinarith

/-- The two tables that are printed are inverse to one another, up to the printed digits.
Missing: cells with small elements of the tensors (`C95_large`). -/
theorem C95_inverse_partial (c : Geom.Cell) (m : Geom.Metric) (hm : Geom.lattice c = .ok m) (ha : ∀ i, c.a0 i ≠ 0) (hg : C45.NoSmall c.a0 c.win)
    (hr : C45.NoSmall m.ar m.wrez) (p : LatR) (h : OkLat p) (sg : ∀ i j, C70.Shows (p.gten i j) (m.gten i j)) (sr : ∀ i j, C70.Shows (p.rten i j) (m.rten i j)) :
    ∃ S, readLat (latText p) = some S ∧ ∀ i k, |∑ j, entry S.gten i j * entry S.rten j k - if i = k then 1 else 0| ≤
      2 / 10 ^ 5 * ∑ j, |m.gten i j| * |m.rten j k| := by
  refine ⟨_, C95_read p h, fun i k => ?_⟩
  have hx : ∑ j, m.gten i j * m.rten j k = if i = k then 1 else 0 := by
    have := congrFun (congrFun (C45.metric_partial c m hm ha hg hr).2.2.1 i) k
    rw [Matrix.mul_apply, Matrix.one_apply] at this
    exact this
  rw [← hx, ← Finset.sum_sub_distrib, Finset.mul_sum]
  refine (Finset.abs_sum_le_sum_abs _ _).trans (Finset.sum_le_sum fun j _ => ?_)
  have e1 : entry (summary p).gten i j = value (rnd 6 (p.gten i j)) := entry_look p.gten p.dgten i j
  have e2 : entry (summary p).rten j k = value (rnd 6 (p.rten j k)) := entry_look p.rten p.drten j k
  rw [e1, e2]
  have n1 := value_near (sg i j)
  have n2 := value_near (sr j k)
  generalize value (rnd 6 (p.gten i j)) = x at *
  generalize value (rnd 6 (p.rten j k)) = y at *
  generalize m.gten i j = g at *
  generalize m.rten j k = r at *
  exact prod_near n1 n2

/-- Volume times reciprocal volume is one, number density times volume is the number of atoms in a cell, up to the printed digits. -/
theorem C95_volume (c : Geom.Cell) (m : Geom.Metric) (hm : Geom.lattice c = .ok m) (ha : ∀ i, c.a0 i ≠ 0) (ncc : ℕ) (_hn : 0 < ncc) (np : ℝ) (p : LatR) (h : OkLat p)
    (sv : C70.Shows p.v m.v) (sr : C70.Shows p.vr (CellErr.vr c)) (sn : C70.Shows p.rho0 (CellErr.rho0 ncc np m.v)) :
    ∃ S x y z, readLat (latText p) = some S ∧ S.v.map Prod.fst = [x] ∧ S.vr.map Prod.fst = [y] ∧ S.rho0.map Prod.fst = [z] ∧
      |value x * value y - 1| ≤ 2 / 10 ^ 5 ∧ |value x * value z - np / ncc| ≤ 2 / 10 ^ 5 * |np / ncc| := by
  have hv : m.v = Geom.vol c ∧ m.v ≠ 0 := by
    unfold Geom.lattice at hm
    split_ifs at hm with hw
    have hp : 0 < Geom.voll c := lt_trans (by unfold Geom.eps; norm_num) (not_le.1 hw)
    cases hm
    exact ⟨rfl, mul_ne_zero (mul_ne_zero (mul_ne_zero (Real.sqrt_pos.2 hp).ne' (ha 0)) (ha 1)) (ha 2)⟩
  refine ⟨_, rnd 6 p.v, rnd 6 p.vr, rnd 6 p.rho0, C95_read p h, rfl, rfl, rfl, ?_, ?_⟩
  · have n := prod_near (value_near sv) (value_near sr)
    have e : m.v * CellErr.vr c = 1 := by unfold CellErr.vr; rw [← hv.1]; exact mul_one_div_cancel hv.2
    rw [← abs_mul, e, abs_one, mul_one] at n
    exact n
  · have n := prod_near (value_near sv) (value_near sn)
    have e : m.v * CellErr.rho0 ncc np m.v = np / ncc := by
      unfold CellErr.rho0
      rw [mul_comm (ncc : ℝ), ← div_div, div_right_comm, mul_div_assoc', mul_div_cancel_left₀ _ hv.2]
    rw [← abs_mul, e] at n
    exact n

/-- A hexagonal cell. -/
noncomputable def hex (a c : ℝ) : Geom.Cell := ⟨![a, a, c], ![90, 90, 120]⟩

section
open Geom C45
open _root_.Pdffit.Parser (bcosd bsind bacosd)

theorem hex_voll (a c : ℝ) : voll (hex a c) = 3 / 4 := by simp [voll, hex, cosd90, cosd120]; norm_num

theorem hex_edges {a c : ℝ} (ha : 0 < a) (hc : 0 < c) :
    (∀ i j : Fin 3, i ≠ 2 → j ≠ 2 → recEdge (hex a c) i * recEdge (hex a c) j = 4 / (3 * a ^ 2)) ∧ recEdge (hex a c) 2 * recEdge (hex a c) 2 = 1 / c ^ 2 := by
  have hs : √(3 / 4 : ℝ) ^ 2 = 3 / 4 := Real.sq_sqrt (by norm_num)
  have hs0 : √(3 / 4 : ℝ) ≠ 0 := (Real.sqrt_pos.2 (by norm_num)).ne'
  have ha' := ha.ne'
  have hc' := hc.ne'
  have e0 : recEdge (hex a c) 0 = 1 / (√(3 / 4 : ℝ) * a) := by
    simp only [recEdge, vol, hex_voll]
    simp [hex, sind90, -Real.sqrt_div']
    field_simp
  have e1 : recEdge (hex a c) 1 = 1 / (√(3 / 4 : ℝ) * a) := by
    simp only [recEdge, vol, hex_voll]
    simp [hex, sind90, -Real.sqrt_div']
    field_simp
  have q : bsind 120 ^ 2 = 3 / 4 := by rw [sind_sq, cosd120]; norm_num
  have e2 : recEdge (hex a c) 2 = bsind 120 / (√(3 / 4 : ℝ) * c) := by
    simp only [recEdge, vol, hex_voll]
    simp [hex, -Real.sqrt_div']
    field_simp
  have k : 1 / (√(3 / 4 : ℝ) * a) * (1 / (√(3 / 4 : ℝ) * a)) = 4 / (3 * a ^ 2) := by
    rw [div_mul_div_comm, show √(3 / 4 : ℝ) * a * (√(3 / 4 : ℝ) * a) = √(3 / 4 : ℝ) ^ 2 * a ^ 2 by ring, hs]
    field_simp
  refine ⟨fun i j hi hj => ?_, ?_⟩
  · fin_cases i <;> fin_cases j
    · exact (congrArg₂ (· * ·) e0 e0).trans k
    · exact (congrArg₂ (· * ·) e0 e1).trans k
    · exact absurd rfl hj
    · exact (congrArg₂ (· * ·) e1 e0).trans k
    · exact (congrArg₂ (· * ·) e1 e1).trans k
    · exact absurd rfl hj
    · exact absurd rfl hi
    · exact absurd rfl hi
    · exact absurd rfl hi
  · rw [e2, div_mul_div_comm, show √(3 / 4 : ℝ) * c * (√(3 / 4 : ℝ) * c) = √(3 / 4 : ℝ) ^ 2 * c ^ 2 by ring, hs, ← sq, q]
    field_simp

/-- The tensors of a hexagonal cell. -/
theorem hex_tensors {a c : ℝ} (ha : 0 < a) (hc : 0 < c) : ∃ m, lattice (hex a c) = .ok m ∧
    (∀ i j, m.gten i j = if i = j then (if i = 2 then c ^ 2 else a ^ 2) else if i = 2 ∨ j = 2 then 0 else if a ^ 2 / 2 < eps then 0 else -(a ^ 2 / 2)) ∧
    ∀ i j, m.rten i j = if i = j then (if i = 2 then 1 / c ^ 2 else 4 / (3 * a ^ 2)) else if i = 2 ∨ j = 2 then 0 else
      if 2 / (3 * a ^ 2) < eps then 0 else 2 / (3 * a ^ 2) := by
  obtain ⟨e, e2⟩ := hex_edges ha hc
  have r0 : recArg (hex a c) 0 = 0 := by simp [recArg, hex, cosd90]
  have r1 : recArg (hex a c) 1 = 0 := by simp [recArg, hex, cosd90]
  have r2 : recArg (hex a c) 2 = 1 / 2 := by simp [recArg, hex, cosd90, cosd120, sind90]
  have q0 : bcosd (bacosd 0) = 0 := cosd_acosd (by norm_num) (by norm_num)
  have q2 : bcosd (bacosd (1 / 2)) = 1 / 2 := cosd_acosd (by norm_num) (by norm_num)
  have k : |a * a * -(1 / 2)| = a ^ 2 / 2 := by rw [mul_neg, abs_neg, abs_of_pos (by positivity)]; ring
  have k' : |4 / (3 * a ^ 2) * (1 / 2)| = 2 / (3 * a ^ 2) := by rw [abs_of_pos (by positivity)]; field_simp; norm_num
  have k2 : 4 / (3 * a ^ 2) * (1 / 2) = 2 / (3 * a ^ 2) := by field_simp; norm_num
  unfold lattice
  refine ⟨_, if_neg (by rw [hex_voll]; unfold Geom.eps; norm_num), fun i j => ?_, fun i j => ?_⟩
  · have k3 : a * a * -(1 / 2) = -(a ^ 2 / 2) := by ring
    dsimp only
    fin_cases i <;> fin_cases j
    · show tensor _ _ 0 0 = _
      simp [tensor, hex]; ring
    · show tensor _ _ 0 1 = _
      unfold tensor
      rw [if_pos (by decide), t01]
      simp only [hex, Matrix.cons_val, cosd120, k]
      rw [k3]
      simp
    · show tensor _ _ 0 2 = _
      unfold tensor
      rw [if_pos (by decide), t02]
      simp [hex, cosd90]
    · show tensor _ _ 1 0 = _
      unfold tensor
      rw [if_pos (by decide), t10]
      simp only [hex, Matrix.cons_val, cosd120, k]
      rw [k3]
      simp
    · show tensor _ _ 1 1 = _
      simp [tensor, hex]; ring
    · show tensor _ _ 1 2 = _
      unfold tensor
      rw [if_pos (by decide), t12]
      simp [hex, cosd90]
    · show tensor _ _ 2 0 = _
      unfold tensor
      rw [if_pos (by decide), t20]
      simp [hex, cosd90]
    · show tensor _ _ 2 1 = _
      unfold tensor
      rw [if_pos (by decide), t21]
      simp [hex, cosd90]
    · show tensor _ _ 2 2 = _
      simp [tensor, hex]; ring
  · dsimp only
    fin_cases i <;> fin_cases j
    · show tensor _ _ 0 0 = _
      unfold tensor
      rw [if_neg (by decide), e 0 0 (by decide) (by decide)]
      simp
    · show tensor _ _ 0 1 = _
      unfold tensor
      rw [if_pos (by decide), t01]
      beta_reduce
      rw [r2, q2, e 0 1 (by decide) (by decide), k', k2]
      simp
    · show tensor _ _ 0 2 = _
      unfold tensor
      rw [if_pos (by decide), t02]
      beta_reduce
      rw [r1, q0]
      simp
    · show tensor _ _ 1 0 = _
      unfold tensor
      rw [if_pos (by decide), t10]
      beta_reduce
      rw [r2, q2, e 1 0 (by decide) (by decide), k', k2]
      simp
    · show tensor _ _ 1 1 = _
      unfold tensor
      rw [if_neg (by decide), e 1 1 (by decide) (by decide)]
      simp
    · show tensor _ _ 1 2 = _
      unfold tensor
      rw [if_pos (by decide), t12]
      beta_reduce
      rw [r0, q0]
      simp
    · show tensor _ _ 2 0 = _
      unfold tensor
      rw [if_pos (by decide), t20]
      beta_reduce
      rw [r1, q0]
      simp
    · show tensor _ _ 2 1 = _
      unfold tensor
      rw [if_pos (by decide), t21]
      beta_reduce
      rw [r0, q0]
      simp
    · show tensor _ _ 2 2 = _
      unfold tensor
      rw [if_neg (by decide), e2]
      simp

end

/-- Violation: for a hexagonal cell with edges of 20000 A the elements of the reciprocal metric tensor beside the diagonal are zero, and the tensors are not
inverse to one another. -/
theorem C95_large : ∃ m, Geom.lattice (hex 20000 20000) = .ok m ∧ m.rten 0 1 = 0 ∧ ∑ j, m.gten 0 j * m.rten j 0 = 4 / 3 := by
  obtain ⟨m, h, g, r⟩ := hex_tensors (a := 20000) (c := 20000) (by norm_num) (by norm_num)
  have e : (2 / (3 * 20000 ^ 2) : ℝ) < Geom.eps := by unfold Geom.eps; norm_num
  refine ⟨m, h, ?_, ?_⟩
  · rw [r]; simp [e]
  · rw [Fin.sum_univ_three, r, r, r, g, g, g]
    simp [e]
    norm_num

/-- The same in the text: for every description of this cell. -/
theorem C95_large_text : ∃ m, Geom.lattice (hex 20000 20000) = .ok m ∧ ∀ p, OkLat p → (∀ i j, C70.Shows (p.gten i j) (m.gten i j)) →
    (∀ i j, C70.Shows (p.rten i j) (m.rten i j)) → ∃ S, readLat (latText p) = some S ∧ entry S.rten 0 1 = 0 ∧ 1.3 < ∑ j, entry S.gten 0 j * entry S.rten j 0 := by
  obtain ⟨m, h, g, r⟩ := hex_tensors (a := 20000) (c := 20000) (by norm_num) (by norm_num)
  have e : (2 / (3 * 20000 ^ 2) : ℝ) < Geom.eps := by unfold Geom.eps; norm_num
  refine ⟨m, h, fun p hp sg sr => ⟨_, C95_read p hp, ?_⟩⟩
  have eg : ∀ i j, entry (summary p).gten i j = value (rnd 6 (p.gten i j)) := entry_look p.gten p.dgten
  have er : ∀ i j, entry (summary p).rten i j = value (rnd 6 (p.rten i j)) := entry_look p.rten p.drten
  have z : ∀ i j, i ≠ j → value (rnd 6 (p.rten i j)) = 0 := fun i j hij => by
    have n := value_near (sr i j)
    have : m.rten i j = 0 := by rw [r, if_neg hij, if_pos e, ite_self]
    rw [this, abs_zero, zero_mul, sub_zero] at n
    exact abs_nonpos_iff.1 n
  refine ⟨by rw [er, z 0 1 (by decide)], ?_⟩
  rw [Fin.sum_univ_three, er, er, er, z 1 0 (by decide), z 2 0 (by decide), mul_zero, mul_zero, add_zero, add_zero, eg]
  have n1 := value_near (sg 0 0)
  have n2 := value_near (sr 0 0)
  rw [g, if_pos rfl, if_neg (by decide)] at n1
  rw [r, if_pos rfl, if_neg (by decide)] at n2
  generalize value (rnd 6 (p.gten 0 0)) = x at *
  generalize value (rnd 6 (p.rten 0 0)) = y at *
  rw [abs_of_pos (by norm_num : (0 : ℝ) < 20000 ^ 2), abs_le] at n1
  rw [abs_of_pos (by norm_num : (0 : ℝ) < 4 / (3 * 20000 ^ 2)), abs_le] at n2
  have hx : (3.999e8 : ℝ) ≤ x := by norm_num at n1 ⊢; linarith
  have hy : (3.333e-9 : ℝ) ≤ y := by norm_num at n2 ⊢; linarith
  nlinarith

/-! ## Example -/

def q (x : ℚ) : Val := .num ⟨decide (x < 0), |x|⟩

theorem q_ok (x : ℚ) : Ok (q x) := abs_nonneg x

theorem q_shows (x : ℚ) : C70.Shows (q x) x := by
  refine ⟨_, rfl, abs_nonneg x, ?_⟩
  dsimp only
  by_cases h : x < 0
  · rw [decide_eq_true h, abs_of_neg h]; simp
  · rw [decide_eq_false h, abs_of_nonneg (not_lt.1 h)]; simp

/-- A hexagonal cell with edges 3, 3 and 5 A. -/
def exG (i j : Fin 3) : ℚ := if i = j then (if i = 2 then 25 else 9) else if i = 2 ∨ j = 2 then 0 else -(9 / 2)
def exR (i j : Fin 3) : ℚ := if i = j then (if i = 2 then 1 / 25 else 4 / 27) else if i = 2 ∨ j = 2 then 0 else 2 / 27

def exLat : LatR where
  iphase := 1
  name := "Zn".toList
  a0 := ![q 3, q 3, q 5]
  da0 := ![q 0, q (1 / 1000), q 0]
  win := ![q 90, q 90, q 120]
  dwin := fun _ => q 0
  v := q (3897 / 100)
  dv := q 0
  rho0 := q (5132 / 100000)
  drho0 := q 0
  gten := fun i j => q (exG i j)
  dgten := fun _ _ => q 0
  ar := ![q (3849 / 10000), q (3849 / 10000), q (1 / 5)]
  dar := fun _ => q 0
  wrez := ![q 90, q 90, q 60]
  dwrez := fun _ => q 0
  vr := q (2566 / 100000)
  dvr := q 0
  rten := fun i j => q (exR i j)
  drten := fun _ _ => q 0

theorem exLat_ok : OkLat exLat := by
  refine ⟨by decide, fun i => ?_, fun i => ?_, ⟨q_ok _, q_ok _⟩, ⟨q_ok _, q_ok _⟩, fun i j => ⟨q_ok _, q_ok _⟩, fun i => ?_, fun i => ?_, ⟨q_ok _, q_ok _⟩,
    fun i j => ⟨q_ok _, q_ok _⟩⟩ <;> fin_cases i <;> exact ⟨q_ok _, q_ok _⟩

example : ∃ S, readLat (latText exLat) = some S ∧ S.name = "Zn".toList ∧ S.a0.length = 3 := ⟨_, C95_read exLat exLat_ok, rfl, rfl⟩

example : ∃ m S, Geom.lattice (hex 3 5) = .ok m ∧ readLat (latText exLat) = some S ∧ ∀ i k, |∑ j, entry S.gten i j * entry S.rten j k - if i = k then 1 else 0| ≤
    2 / 10 ^ 5 * ∑ j, |m.gten i j| * |m.rten j k| := by
  obtain ⟨m, h, g, r⟩ := hex_tensors (a := 3) (c := 5) (by norm_num) (by norm_num)
  obtain ⟨m', h', ng, nr⟩ := C45.hexagonal
  have hm : m' = m := Res.ok.inj (h'.symm.trans h)
  subst hm
  have e : ¬ (2 / (3 * 3 ^ 2) : ℝ) < Geom.eps := by unfold Geom.eps; norm_num
  have e' : ¬ (3 ^ 2 / 2 : ℝ) < Geom.eps := by unfold Geom.eps; norm_num
  obtain ⟨S, hS, hx⟩ := C95_inverse_partial (hex 3 5) m' h (fun i => by fin_cases i <;> simp [hex]) ng nr exLat exLat_ok
    (fun i j => by
      have : m'.gten i j = (exG i j : ℝ) := by
        rw [g, if_neg e']
        unfold exG
        split_ifs <;> norm_num
      rw [this]
      exact q_shows _)
    (fun i j => by
      have : m'.rten i j = (exR i j : ℝ) := by
        rw [r, if_neg e]
        unfold exR
        split_ifs <;> norm_num
      rw [this]
      exact q_shows _)
  exact ⟨m', S, h, hS, hx⟩

end Pdffit.C95
