import Verif.Model.Export
import Mathlib.Tactic.Common

/-!
# C110: names exported by `_exportAll`

Observable content: after `_exportAll(namespace)` each public method of the object can be called by its name, and the constants have their own names as
values (`C110_methods`, `C110_constants`); when two objects are exported, the last one is used (`C110_last`). All other names of the script keep their
values (`C110_others_partial`). The lists `stru_files` and `data_files` are those of the object (`C110_files_partial`).

The last two parts are not true: a plain dictionary obtains the name `__builtins__` (`C110_others_violated`), and after `reset()` the exported lists
stay as they were before it, while the object uses others (`C110_files_violated`).
-/

namespace Pdffit.C110
open Export

/-- The public methods of the documentation. -/
def methods : List String :=
  [
    "intro", "add_structure", "read_struct", "read_struct_string", "read_data", "read_data_string",
    "read_data_lists", "pdfrange", "reset", "alloc", "calc", "refine", "refine_step", "save_pdf",
    "save_pdf_string", "save_dif", "save_dif_string", "save_res", "save_res_string", "get_structure",
    "save_struct", "save_struct_string", "show_struct", "constrain", "setpar", "setvar", "getvar", "getrw",
    "getcrw", "getR", "getpdf_fit", "getpdf_obs", "getpdf_diff", "get_atoms", "get_atom_types", "getpar",
    "fixpar", "freepar", "setphase", "setdata", "psel", "pdesel", "selectAtomType", "selectAtomIndex",
    "selectAll", "selectNone", "bang", "bond_angle", "blen", "bond_length_atoms", "bond_length_types",
    "show_scat", "get_scat_string", "get_scat", "set_scat", "reset_scat", "num_atoms", "num_phases",
    "num_datasets", "phase_fractions", "lat", "x", "y", "z", "u11", "u22", "u33", "u12", "u13", "u23", "occ",
    "pscale", "sratio", "delta1", "delta2", "dscale", "qdamp", "qbroad", "spdiameter", "stepcut", "rcut"]

/-- The constants of the documentation. -/
def constants : List String := ["ALL", "USER", "IDENT", "FCOMP", "FSQR", "X", "N"]

theorem fold_update {α : Type} (f : String → α) (l : List String) (ns : String → Option α) (a : String) :
    l.foldl (fun ns a => Function.update ns a (some (f a))) ns a = if a ∈ l then some (f a) else ns a := by
  induction l generalizing ns with
  | nil => simp
  | cons b l ih =>
    rw [List.foldl_cons, ih]
    by_cases h : a ∈ l
    · simp [h]
    · by_cases hb : a = b
      · subst hb
        simp [h]
      · simp [h, hb]

theorem fold_exec (l : List String) (ns : Names) (a : String) (ha : a ≠ "__builtins__") :
    l.foldl execAlias ns a = if a ∈ l then some (.text a) else ns a := by
  induction l generalizing ns with
  | nil => simp
  | cons b l ih =>
    rw [List.foldl_cons, ih]
    by_cases h : a ∈ l
    · simp [h]
    · by_cases hb : a = b
      · subst hb
        simp [h, execAlias]
      · simp only [h, if_false, List.mem_cons, hb, or_self, execAlias]
        split <;> simp [hb, ha]

theorem public_eq : public_ = methods ++ ["stru_files", "data_files"] := by decide +kernel

/-- **C110.** Each public method is bound to its name. -/
theorem C110_methods (o : Obj) (ns : Names) (a : String) (ha : a ∈ methods) : exportAll o ns a = some (.attr o.id a) := by
  unfold exportAll
  rw [fold_update, public_eq, if_pos (List.mem_append_left _ ha)]
  have h1 : a ≠ "stru_files" := fun h => absurd (h ▸ ha) (by decide +kernel)
  have h2 : a ≠ "data_files" := fun h => absurd (h ▸ ha) (by decide +kernel)
  rw [Obj.get, if_neg h1, if_neg h2]

/-- **C110.** The constants are strings with their own names. -/
theorem C110_constants (o : Obj) (ns : Names) (a : String) (ha : a ∈ constants) : exportAll o ns a = some (.text a) := by
  have h0 : ∀ a ∈ constants, a ∉ public_ ∧ a ≠ "__builtins__" ∧ a ∈ aliases := by decide +kernel
  obtain ⟨h1, h2, h3⟩ := h0 a ha
  unfold exportAll
  rw [fold_update, if_neg h1, fold_exec _ _ _ h2, if_pos h3]

/-- **C110.** Other names keep their values. Missing: `__builtins__`, see `C110_others_violated`. -/
theorem C110_others_partial (o : Obj) (ns : Names) (a : String) (h1 : a ∉ methods) (h2 : a ∉ constants)
    (h3 : a ∉ ["stru_files", "data_files", "__builtins__"]) : exportAll o ns a = ns a := by
  simp only [List.mem_cons, List.not_mem_nil, or_false, not_or] at h3
  unfold exportAll
  rw [fold_update, if_neg, fold_exec _ _ _ h3.2.2, if_neg (show a ∉ aliases from h2)]
  rw [public_eq, List.mem_append]
  simp [h1, h3]

/-- **C110.** When two objects are exported, the methods and the lists are those of the last one, as if the other had not been exported. -/
theorem C110_last (o p : Obj) (ns : Names) (a : String) (ha : a ≠ "__builtins__") : exportAll p (exportAll o ns) a = exportAll p ns a := by
  unfold exportAll
  rw [fold_update, fold_update, fold_exec _ _ _ ha, fold_exec _ _ _ ha, fold_update, fold_exec _ _ _ ha]
  by_cases h1 : a ∈ public_ <;> by_cases h2 : a ∈ aliases <;> simp [h1, h2]

theorem stru_files (o : Obj) (ns : Names) : exportAll o ns "stru_files" = some (.files o.stru) := by
  unfold exportAll
  rw [fold_update, if_pos (by decide +kernel)]
  rfl

theorem data_files (o : Obj) (ns : Names) : exportAll o ns "data_files" = some (.files o.data) := by
  unfold exportAll
  rw [fold_update, if_pos (by decide +kernel)]
  rfl

/-- Names of the structures and of the data sets read by the calls. -/
def structs : List Op → List String
  | [] => []
  | .readStruct f :: l => f :: structs l
  | _ :: l => structs l

def datas : List Op → List String
  | [] => []
  | .readData f :: l => f :: datas l
  | _ :: l => datas l

theorem run_cons (s : Obj × Heap) (op : Op) (ops : List Op) : run s (op :: ops) = run (step s op) ops := rfl

/-- Without `reset` the calls add to the two lists. -/
theorem run_reads (o : Obj) (h : Heap) (ops : List Op) (hr : .reset ∉ ops) (hne : o.stru ≠ o.data) (s d : List String)
    (hs : h[o.stru]? = some s) (hd : h[o.data]? = some d) :
    (run (o, h) ops).1 = o ∧ (run (o, h) ops).2[o.stru]? = some (s ++ structs ops) ∧
      (run (o, h) ops).2[o.data]? = some (d ++ datas ops) ∧ (run (o, h) ops).2.length = h.length := by
  induction ops generalizing h s d with
  | nil => simp [run, structs, datas, hs, hd]
  | cons op ops ih =>
    have hr' : .reset ∉ ops := fun h => hr (List.mem_cons_of_mem _ h)
    rw [run_cons]
    cases op with
    | reset => exact absurd List.mem_cons_self hr
    | readStruct f =>
      have := ih (h.modify o.stru (· ++ [f])) hr' (s ++ [f]) d (by simp [hs]) (by simp [hd, hne])
      simpa [step, structs, datas] using this
    | readData f =>
      have := ih (h.modify o.data (· ++ [f])) hr' s (d ++ [f]) (by simp [hs, hne.symm]) (by simp [hd])
      simpa [step, structs, datas] using this

/-- A list that is not used by the object is not changed. -/
theorem run_stale (o : Obj) (h : Heap) (ops : List Op) (c : ℕ) (hc : c < h.length) (h1 : o.stru ≠ c) (h2 : o.data ≠ c) :
    (run (o, h) ops).2[c]? = h[c]? := by
  induction ops generalizing o h with
  | nil => rfl
  | cons op ops ih =>
    rw [run_cons]
    cases op with
    | readStruct f =>
      rw [show step (o, h) (.readStruct f) = (o, h.modify o.stru (· ++ [f])) from rfl, ih _ _ (by simpa using hc) h1 h2]
      simp [h1]
    | readData f =>
      rw [show step (o, h) (.readData f) = (o, h.modify o.data (· ++ [f])) from rfl, ih _ _ (by simpa using hc) h1 h2]
      simp [h2]
    | reset =>
      rw [show step (o, h) .reset = ({ o with stru := h.length, data := h.length + 1 }, h ++ [[], []]) from rfl,
        ih _ _ (by simp; omega) (show h.length ≠ c by omega) (show h.length + 1 ≠ c by omega), List.getElem?_append_left hc]

/-- **C110.** The exported lists are those of the object, with all files read before and after. Missing: calls of `reset`, see
`C110_files_violated`. -/
theorem C110_files_partial (o : Obj) (h : Heap) (ns : Names) (ops : List Op) (hr : .reset ∉ ops) (hne : o.stru ≠ o.data) (s d : List String)
    (hs : h[o.stru]? = some s) (hd : h[o.data]? = some d) :
    seen (exportAll o ns) (run (o, h) ops).2 "stru_files" = some (s ++ structs ops) ∧
      seen (exportAll o ns) (run (o, h) ops).2 "data_files" = some (d ++ datas ops) ∧
      (run (o, h) ops).2[(run (o, h) ops).1.stru]? = some (s ++ structs ops) ∧
      (run (o, h) ops).2[(run (o, h) ops).1.data]? = some (d ++ datas ops) := by
  obtain ⟨h1, h2, h3, -⟩ := run_reads o h ops hr hne s d hs hd
  rw [h1]
  refine ⟨?_, ?_, h2, h3⟩
  · simpa only [seen, stru_files] using h2
  · simpa only [seen, data_files] using h3

/-- **C110 fails** after `reset()`: whatever is read afterwards, the exported lists are those from before `reset()`, while the lists of the object
begin anew. -/
theorem C110_files_violated (o : Obj) (h : Heap) (ns : Names) (ops later : List Op) (hr : .reset ∉ ops) (hl : .reset ∉ later)
    (hne : o.stru ≠ o.data) (s d : List String) (hs : h[o.stru]? = some s) (hd : h[o.data]? = some d) :
    let r := run (o, h) (ops ++ .reset :: later)
    seen (exportAll o ns) r.2 "stru_files" = some (s ++ structs ops) ∧ seen (exportAll o ns) r.2 "data_files" = some (d ++ datas ops) ∧
      r.2[r.1.stru]? = some (structs later) ∧ r.2[r.1.data]? = some (datas later) := by
  obtain ⟨h1, h2, h3, h4⟩ := run_reads o h ops hr hne s d hs hd
  have e : run (o, h) (ops ++ .reset :: later) = run (step (run (o, h) ops) .reset) later := by
    simp only [run, List.foldl_append, List.foldl_cons]
  rcases hh : run (o, h) ops with ⟨o', h'⟩
  rw [hh] at h1 h2 h3 h4 e
  dsimp only at h1 h2 h3 h4
  subst h1
  have b1 : o'.stru < h'.length := (List.getElem?_eq_some_iff.mp h2).1
  have b2 : o'.data < h'.length := (List.getElem?_eq_some_iff.mp h3).1
  intro r
  have hrr : r = run ({ o' with stru := h'.length, data := h'.length + 1 }, h' ++ [[], []]) later := e
  have st : ∀ c, c < h'.length → r.2[c]? = h'[c]? := by
    intro c hc
    rw [hrr, run_stale _ _ later c (by simp; omega) (show h'.length ≠ c by omega) (show h'.length + 1 ≠ c by omega),
      List.getElem?_append_left hc]
  obtain ⟨k1, k2, k3, -⟩ := run_reads { o' with stru := h'.length, data := h'.length + 1 } (h' ++ [[], []]) later hl
    (show h'.length ≠ h'.length + 1 by omega) [] [] (by simp) (by simp)
  refine ⟨?_, ?_, ?_, ?_⟩
  · simp only [seen, stru_files]
    rw [st _ b1, h2]
  · simp only [seen, data_files]
    rw [st _ b2, h3]
  · rw [hrr, k1]
    simpa using k2
  · rw [hrr, k1]
    simpa using k3

/-- **C110 fails** for `__builtins__`, which a dictionary obtains that does not have it. -/
theorem C110_others_violated (o : Obj) (ns : Names) (h : ns "__builtins__" = none) : exportAll o ns "__builtins__" = some .builtins := by
  have hu : ∀ (l : List String) (ns : Names), "__builtins__" ∉ l → ns "__builtins__" = some .builtins →
      l.foldl execAlias ns "__builtins__" = some .builtins := by
    intro l
    induction l with
    | nil => exact fun ns _ h => h
    | cons b l ih =>
      intro ns hb h
      rw [List.foldl_cons]
      refine ih _ (fun h => hb (List.mem_cons_of_mem _ h)) ?_
      have hne : "__builtins__" ≠ b := fun h => hb (h ▸ List.mem_cons_self)
      simp [execAlias, h, hne]
  unfold exportAll
  rw [fold_update, if_neg (by decide +kernel), aliases, List.foldl_cons]
  refine hu _ _ (by decide +kernel) ?_
  simp [execAlias, h]

/-- A script with a name of its own, and the files after `reset()`. -/
def script : Names := fun a => if a = "N" ∨ a = "total" then some (.user 5) else none

example : exportAll ⟨1, 0, 1⟩ script "total" = some (.user 5) ∧ exportAll ⟨1, 0, 1⟩ script "N" = some (.text "N") ∧
    exportAll ⟨1, 0, 1⟩ script "refine" = some (.attr 1 "refine") ∧ exportAll ⟨1, 0, 1⟩ script "_handle" = none := by
  refine ⟨?_, ?_, ?_, ?_⟩
  · exact C110_others_partial _ _ _ (by decide +kernel) (by decide +kernel) (by decide +kernel)
  · exact C110_constants _ _ _ (by decide +kernel)
  · exact C110_methods _ _ _ (by decide +kernel)
  · exact C110_others_partial _ _ _ (by decide +kernel) (by decide +kernel) (by decide +kernel)

example : let r := run (⟨1, 0, 1⟩, [[], []]) [.readStruct "Ni.stru", .reset, .readStruct "Au.stru"]
    seen (exportAll ⟨1, 0, 1⟩ script) r.2 "stru_files" = some ["Ni.stru"] ∧ r.2[r.1.stru]? = some ["Au.stru"] := by
  have := C110_files_violated ⟨1, 0, 1⟩ [[], []] script [.readStruct "Ni.stru"] [.readStruct "Au.stru"] (by simp) (by simp) (by decide) [] []
    rfl rfl
  exact ⟨this.1, this.2.2.1⟩

end Pdffit.C110
