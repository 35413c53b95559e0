# Formal model of diffpy.pdffit2

Source modelled: `/repo/src/extensions/libpdffit2` (C++ engine), parts of
`/repo/src/extensions/pdffit2module/misc.cc` (bindings) and of
`/repo/src/diffpy/pdffit2/pdffit.py`.
The properties are in `properties.jsonl`, the claim table in `MANIFEST.json`,
the Lean sources in `lean/Verif/`.

## 1. Trusted base

* Lean 4.33.0 kernel and the Mathlib that is installed on the box.
* Axioms: only `propext`, `Classical.choice`, `Quot.sound` (checked with `#print axioms` on every property theorem; see
  section 6).  No axiom, `sorry`, `native_decide`, `bv_decide`, `implemented_by` or `unsafe` in the development.
* The correspondence between the C++ text and the Lean definitions.  It was made by reading; every Lean definition cites
  file and lines.  It is not checked by a machine.
* Numbers.  `double` is idealised as an exact ordered field: a generic linearly ordered field `K` where only field
  operations and comparisons are used (instantiated with `ℚ` in the concrete cases), or `ℝ` where `sqrt`, `exp`, `cos` are needed.
  Rounding is modelled for the refinement loop in `Model/Arith.lean` and `Model/Binary.lean` (C82, C83) and for the grid of a data set in `Model/FGrid.lean` (C86) and for bond angles in `Model/FAngle.lean` (C88) and for the search of lattice points in `Model/FSphere.lean` (C89); overflow, infinities and NaN in `Model/Arith.lean`, `Model/Nan.lean` (C81) and `Model/Special.lean` (C87).  Division by zero is never relied on: either the code's own guard is
  modelled, or the theorem has a hypothesis that excludes it, or it is a distinct outcome.
  `int` is `Int`/`Nat` without wrap-around, except where a conversion `int`/`unsigned` matters (parameter ids).
* Undefined behaviour (out-of-range index, null or dangling pointer) is a separate outcome `Res.ub` of the modelled functions,
  an exception is `Res.err`.  Non-termination appears as a loop that has no finite run.
* Not modelled anywhere: memory exhaustion, text of messages other than those of C57, C61, C64, C65, C70 and C109 (report of
  the fit, redirected standard output, result file), the reference counting of the Python C interface other than what C61 and C78 say, threads
  (the GIL is held except inside refine/calc; schedules are modelled at the level of whole `refine_step` calls).

## 2. How properties are treated

When the code violates the property as stated, the development contains (a) a theorem with a concrete witness that the model of the
code violates it, and (b) a theorem with suffix `_partial` for the part that does hold, with the missing part described.
The theorems of property `Cnn` are in `lean/Verif/Props/Cnn.lean` (or `Cnn*.lean`), namespace `Pdffit.Cnn`.

## 3. Plan per property

| id | model | proof plan |
|----|-------|------------|
| C01 | parameter store `p/ip/id` vectors, int/unsigned conversion of ids | refinement to a finite map, induction over operations |
| C02 | `mrqmin`, `mrqcof`, `refine_step` over an oracle for the theory evaluation that may throw | invariant by induction over steps |
| C03 | `refine_step` iteration logic, `refine` loop | measure on `iter`, invariant `stagnating < iter` |
| C04 | as C02 | invariant `chisq = CHI(p)`, `chisq` non-increasing |
| C05 | `refine_step` + `fill_variables` | final step re-evaluates with the best parameters |
| C06 | `mrqcof` cumulative sums, `getcrw` | monotone sums; negation: last trial rejected; partial: last trial accepted |
| C07 | `constrain`, `vfind`, `fill_variables` | negation with witness; partial: holds while the old constraint is refinable |
| C08 | `fill_variables`, `dvdp` | negation with witness (stale entries); partial: rows of constraints never replaced and with no parameter fixed after its first use |
| C09, C10 | character level model of `parse`, `compute`, `getnum`, `substitute_pars` | round trip from syntax trees: printing followed by parsing gives the value and forward derivatives; derivatives shown to be `HasDerivAt` |
| C11 | as C09 | negation: `(1)2` reads outside the stack; partial: no out-of-range access when no `)` is directly followed by a digit; termination for every string |
| C12 | `MathUtils.h` functions over ℝ | `HasDerivAt` |
| C13 | `gaussj` on arrays | invariant: rows are obtained by invertible row operations; singular iff zero pivot |
| C14 | `covsrt` | loop invariant |
| C15 | `mrqcof` | sums; positive semidefinite as sum of squares |
| C16, C17 | statics `fit_running`, `mfit`, `ochisq`, work arrays as global state | negation with schedules; partial: independent if no other fit is unfinished |
| C18 | `PointsInSphere` iterator | completing the square; lexicographic enumeration |
| C19 | `bond_length_types`, `circum_diameter` | from C18 and convexity of the norm; negation for supercells |
| C20, C21 | `make_nearest`, `bond_length_atoms` | negation with witnesses; partial: result is a periodic image, symmetric in orthogonal cells |
| C22 | `bond_angle` | Cauchy-Schwarz for the metric |
| C23, C24, C40, C41 | `determine` with abstract peak profile | finite sum identities |
| C25-C29, C49 | API state machine | invariants by induction over operations; negations of C28 (`lists_trace`, `write_trace`) with the models of C77 and C61 |
| C30, C31 | index computations of `determine`, `getR` ...; addressing of `fit_a`, `fit_b` (`DerivMat`) | monotonicity of rounding; each column of the matrix is the one of its own variable (`Deriv`); negations for C31 before the first calculation, for C30 with a phase that `fit_setup` has not seen |
| C32-C34 | `read_data_stream`, `read_data_arrays`, `isRegular` | negations and partial theorems |
| C35, C36 | `save_struct`, `read_struct_stream` at character level | round trip; negation for C36 |
| C37, C38 | periodic tables | refinement to a map; table lemma over the complete table |
| C39 | phase fractions | algebra |
| C42 | `applyQmaxCutoff` with exact DFT sums | linearity, index symmetry |
| C43 | `ShapeFactors.h` | real analysis |
| C44 | `determine`, `pdf_derivative`, `fit_setup_derivatives` | `HasDerivAt`; negations for several phases and for non-orthogonal cells |
| C45 | `lattice`, `tensor`, `skalpro` | algebra |
| C46 | `order_by_id` | sortedness, permutation |
| C47 | `fit_setup` | offsets |
| C48 | `matrix.h` | flat index arithmetic |
| C50 | exception lists of the bindings | negation for the calls whose handlers are incomplete; partial for the others |
| C51 | `read_header`, `read_atoms` in the old format | equality of the results |
| C52 | `save_pdf`, `save_dif`, `build_pdf_file`, `build_dif_file` | partial; negation without a calculation |
| C53 | `fit_errors`, `fill_errors`, correlations of `Fit::output` | inverse of a positive semidefinite matrix is one; negations: deviations are never cleared, replaced constraints |
| C54 | as C02 with C13 | augmented matrix is positive definite; invariant of worlds in which evaluations succeed |
| C55 | `Phase::lattice`, `dtensor`, `dskalpro`, `bond_length_atoms`, `bond_angle` | derivative along every direction compared with the reported deviation; negations: obtuse angles, supercells |
| C56 | `LatticeParameters::reciprocal`, `ReflectionsInQminQmax`, `ReflectionsInDmaxDmin` | on C18 for the reciprocal lattice; spacing as least distance of a plane; negation at the lower bound |
| C57 | `DataSet::selectedAtomsString`, `atom_types` | round trip through an independent reader of the text |
| C58 | `redchisq`, `getdsredchisq`, `getdsrw` | on C14: an invertible curvature matrix has rank at most the number of points; negations: no degrees of freedom, rejected last trial |
| C59 | `__getRef`, accessor methods, `setpar`/`getvar`/`setvar` of texts | exact grammar of the accepted texts (`Spells`), round trip; negations: other functions of the module |
| C60 | `determine` for two descriptions of one crystal (`Same`: origin, images, order, repetition) | bijection of pairs and translations, finite sums over all translations; negation: the image in which an atom is listed changes the curve |
| C61 | redirection of messages: `pout`, `PyFileStreambuf`, `RefineStepHelper`, output.py, threads | invariant over all programs, received text equals the meaning; negations: Python messages after `restore_stdout`, overlapping `refine_step`, redirection during it, failing `write` |
| C62 | the product `fit_a * dvdp`, the curve as a function of the free parameters (`Conf`: all variables of a configuration read back into phases and data set) | multivariate chain rule over the joint differentiability of the curve; partial: no replaced constraints, one constraint per variable, variables whose columns are right (C44), no threshold |
| C63 | `Model/CInt.lean`: the same calculation as `Determine`, `Sphere` and `Qmax`, with a check at every conversion to and addition in `int` (`nintC`, `nextOC`, `pointsC`, `ranges`, `incsC`, `limits`, `determineC`) | partial: `C63_int_partial` (under the explicit sizes `Fits` and `FitsCell` the checked calculation equals `determine`); `huge_qmax`, `small_qmax`, `tiny_cell` (the program does not check these sizes; then every structure gives undefined behaviour), `witness` (two data sets accepted by `alloc`), `filter_lost` (more than 2^30 points: nothing is filtered) |
| C64 | `Model/ReportText.lean`: `%g` on rational numbers with sign (`gDig`, `gMag`, `text`), `FormatValueWithStd` (`cell`), `Phase::output` (`phaseLines`), the list of parameters (`parsText`); readers of these texts, which are part of the specification | partial: `value_read` (error of the printed number), `value_std_read`, `value_std_read_py`, `std_shown` (when the standard deviation is there), `phase_read_partial` (the section of a phase gives back all values, deviations and atoms), `diameter_shown`, `stepcut_shown`, `corr_shown`, `off_shown` (which optional values are there), `symbol_found`, `pars_read`; not for all quantities: `coarser` (value printed with fewer digits than its standard deviation allows), `deviation_lost` (standard deviations of u12, u13, u23 are not printed if the values are zero) |
| C65 | `Model/Corr.lean`: the loop over pairs in `Fit::output` with a division that can give infinity or not-a-number (`Ext`), the check at the start of `save_res` | partial: `C65_before` (`save_res` raises `unassignedError` exactly when no step has been made), `C65_correlations_partial` (after a finished refinement: exactly the pairs above 0.8, in order, with `C i j / √(C i i * C j j)`, strictly between -1 and 1); not between the steps of a refinement: `unfinished`, `unfinished_reachable`, `stale`; not after a new parameter: `new_parameter` |
| C66 | `Model/ConstrLsq.lean`: fitted points with `fit_b = fit_a * dvdp`; what `determine` calculates is arbitrary, but a function of the variables, `refvar`, marks and its own state | proved: `order_and_weights` (same constraints, parameters in another order, common factor of the weights; with `setpar_order`), `units_and_formulas` (units, zero points, other formulas; uses the value and derivative theorems of C09/C10, so formulas must be defined for all values), `same_fit` (general). Lemmas: `RefineEqui` (the minimiser), `ConstrEqui`, `ConstrMoved` (the constraints), `FParsePerm` (formula texts). Not covered: numerical derivatives, rounding |
| C67 | Refinement machine of C03 (`Model/Refine.lean`), constraints of C06 (`Model/Constr.lean`) | proved: `C67_minimum_is_kept` (any engine whose evaluations at the starting values give stationary points that determine the free parameters), `C67_perfect_model`, `C67_constrained` (with constraints: the variables too). A perfect model whose points do not determine the parameters still raises (C54). Lemmas: `RefineStat` |
| C68 | `Det.determine`, `Det.DSet.range` | partial: proved when five standard deviations and one grid step are at most 1 Å for every pair up to 1 Å behind the ranges (`C68_range_partial`, `C68_pdfrange_partial`); violation proved for U = 0.05 (`C68_range_matters`) |
| C69 | `Model/BondText.lean`: `_format_bond_length`, `blen` in both forms, `bang` over the calls of the extension module, which are those of `Model/Bonds.lean` (`engOf`); readers of the text, which are part of the specification | partial: `C69_line`, `C69_listing`, `C69_error`, `C69_pair`, `C69_angle`, `C69_phase`, `C69_phase_pair`, `C69_phase_angle`, `C69_unassigned`, `symb_word`, `C69_index_partial`; violations `C69_index_beyond`, `C69_index_zero` |
| C70 | `Model/DataText.lean`: `DataSet::output`, with the numbers of `Model/ReportText.lean`; readers, which are part of the specification; `Model/Determine.lean` for the effect of the settings | partial: `C70_read`, `C70_qmax`, `C70_qdamp`, `C70_qbroad_sign`, `C70_qbroad_partial`, `C70_diameter`, `C70_stepcut`, `C70_settings_partial`; violation `C70_qbroad_negative` |
| C71 | `Model/Determine.lean` | partial: `C71_base`, `C71_total`, `C71_short`, `C71_above`, `C71_share_partial` (the share is right when all occupancies are equal); violation `C71_occupancy` |
| C72 | `Model/Determine.lean` | partial: `C72_same` (equal total PDFs whenever both are numbers), `C72_split_partial` (splitting keeps numbers unless the scattering factors add up to zero), `C72_positive`; violations `C72_nan`, `C72_partial_pdf` |
| C73 | `Model/Refine.lean`, `Model/Gaussj.lean`, `Model/Lsq.lean`, `Model/Constr.lean` | `C73_least_squares` (any number of free parameters; every step shrinks the excess by `(λ/(λ+μ))²` and is therefore accepted, `Lemmas/RefineLin.lean`, `RefineLinRun.lean`), `C73_sharp` (such a `μ` exists whenever the data determine the parameters), `C73_accuracy` (`10⁻³⁶/μ⁸`), `C73_one_parameter`, `C73_constrained` (with constraints) |
| C74 | `Model/FullFit.lean` (the refinement machine with constraints, `Model/Determine.lean`, `Model/DerivMat.lean` plugged in) | `C74_mix`, `C74_sharp`, `C74_accuracy`, `C74_one_parameter`; one evaluation of the whole (`Lemmas/FullFit.lean`: `eval_ok`) stores the PDF at the prescribed variables and, for every free parameter, the columns of the variables times the derivatives of the constraints; the PDF is a sum over phases (`Lemmas/FullMix.lean`); then C73. Example: data calculated with scale 5, fit started at 2, result 5 within `3·10⁻¹⁸`. |
| C75 | `Model/FullFit.lean` (constraints, PDF, derivatives, normal equations and damping as one machine) | `C75_refine`, `C75_steps`, `C75_structure`, `C75_data`. A successful evaluation of the whole implies that all formulas have values and the PDF exists (`Lemmas/FullRun.lean`: `eval_none`); failing evaluations are removed by passing to a machine in which they leave the state untouched (`Lemmas/RefineQuiet.lean`: a refinement that returns runs identically on both); then the invariant of C04/C05 with the model of `determine` in place of an arbitrary calculation. Example: the fit of C74, residual at most 3/5. |
| C76 | `Model/FullFit.lean`, `Model/Refine.lean` | `C76_downhill_partial`, `C76_progress_partial` hold; that unchanged parameters are stationary is violated (`C76_stuck`). The joint derivative of the calculated curve in all parameters (`Lemmas/ParamJoint.lean`, `FullGrad.lean`) gives the gradient of chi-square as -2 times the right-hand side of the normal equations (`FullChi.lean`: `chi_grad`); the damped step solves a positive definite system, so the product of gradient and step is negative (`RefineDown.lean`: `descent`). A rejected trial counts as stagnation, four of them end the run (`RefineStuck.lean`). Examples: the cubic structure of C74 with the scale factor constrained to the square of a parameter, started from 2 (goes downhill) and from 0.01 (stuck). |
| C77 | `Model/ListArg.lean` (arguments as arbitrary objects, error indicator of Python, arrays on the heap) with `Model/DataRead.lean`, `Model/Api.lean` | case distinction over all arguments: `C77_numbers`, `C77_returns` (the call returns for no other arguments), `C77_no_trace_partial`; violated by items that are not numbers (`C77_not_number`), arguments that are not lists (`C77_not_lists`), irregular values (`C77_leak`) |
| C78 | `Model/PyHeap.lean`: heap of the interpreter with counts and slots, the functions of the C interface used by misc.cc, what each function of the module builds | counts equal references, kept by every operation including the cascade of `Py_DECREF` (`Lemmas/PyHeap.lean`: `decs_spec`, `Good`); new objects refer to new ones of a lower level, so that without a reference from outside none survives (`freed`). Holds for 76 of the 78 functions and all sequences of them (`C78_balanced_partial`, `C78_sequence_partial`), violated by `bond_length_types` and `phase_fractions` (`C78_bonds`, `C78_fractions`, `C78_unbounded`) |
| C79 | `Model/Calc.lean`: `calc()` as a function of the whole object, also when it raises; binding's handlers | `Lemmas/Calc.lean`: evaluating the constraints a second time changes nothing, incl. the matrix of derivatives (`fill_again`, `vars_idem`); exact outcome of every call (`calculate_ok`, `calculate_cells`, `calculate_fail`). `C79_returns`, `C79_effect`, `C79_kept`, `C79_again`, `C79_history`, `C79_after_refine`; failing calls `C79_failed_partial`; negations `C79_wraps` (coordinates), `C79_failed`, `C79_dies` |
| C80 | `Model/Figures.lean`: the calls between refinements on the object of C79, residual of what the getters show | no call but a refinement changes `getrw` and the sums behind `getcrw` (`C80_kept`, all sequences, also raising calls); normalisation `C80_crw`; holds for `calc()` after `refine()` (`C80_after_refine_partial` from C75 and C79, `C80_crw_partial`); violated: `C80_stale`, `C80_first`, `C80_length`, `C80_shrinks` |
| C81 | `Model/Nan.lean`: `gaussj`, `mrqcof`, `covsrt`, `mrqmin`, `refine_step`, `refine` and `isRegular` for numbers that may be NaN | equal to the machine of C03/C13/C14 when all are numbers (`C81_same` for whole refinements, `same_ofNum`); always ends (`C81_terminates`); adopts only trials whose sum is a number (`C81_adopts`); a NaN weight or derivative raises and keeps the parameters (`C81_raises_partial`, `C81_row`); a NaN observed value never moves a parameter (`C81_never_moves`); violated: `C81_silent`, `C81_silent_witness`, `C81_grid` |
| C82 | `Model/Arith.lean`: `gaussj`, `mrqcof`, `covsrt`, `mrqmin`, `refine_step`, `refine` with the operations in the order of the source, for any arithmetic (`class Arith`, no laws); `Model/Binary.lean`: rounding to 53 bits | with exact operations it is the machine of the other properties (`C82_exact`); ends without any law (`C82_terminates`); `C82_defined`, `C82_fixed`, `C82_descends`, `C82_not_worse` from four laws of the damping factor and zero (`Lawful`), which every rounding that keeps positive numbers positive has (`C82_lawful_rounded`); `getrw()` with monotone rounding (`C82_rounded`); doubles without overflow and underflow qualify (`C82_binary64`, `C82_nearest`) |
| C83 | `Model/Arith.lean`, `Model/Binary.lean` as for C82; exact arithmetic as for C14, C54 | with exact numbers dependent parameters always raise (`C83_dependent_raises_exact`, from C14; the converse is C54); a free parameter without any influence raises in the first call with every rounding that keeps zero (`C83_no_influence_partial`); the rest is violated in doubles: `C83_unreported`, `C83_criterion`, `C83_reported_by_chance`, `C83_false_alarm` |
| C84 | `Model/Wrapper.lean`: the lists of the Python class and the names of the data sets on top of the API machine (`Model/Api.lean`) | what was loaded is read off the calls and their outcomes (`structs`, `datas`); numbers and order in the engine for all sequences (`C84_loaded`), `stru_files` for all sequences without `SystemError` (`C84_structures`), `data_files` if also without `alloc` and `read_data_string` (`C84_data_partial`); raising calls change nothing (`C84_raises`); violated: `C84_alloc`, `C84_string`, `C84_late` |
| C85 | `Model/AtomList.lean` on top of `Model/Scat.lean` (C37) and the table (C38): atoms as pointers into the tables of the phases, the loop that fills `atom_types`, `getphase`, the texts of `get_scat_string` | specification by the labels of the loaded structures; invariant over all sequences: the pointers stay valid and their entries keep the symbol; `C85_atoms`, `C85_current`, `C85_use`, `C85_distinct`, `C85_scat_string`; indices `C85_index_partial`, violated for 0 (`C85_zero`) |
| C86 | `Model/FGrid.lean`: the code of C30 and C31 that computes steps, indices and points, each operation rounded to 53 bits (`Model/Binary.lean`) | bounds on the rounding errors and monotonicity of rounding; invariant over all sequences; `C86_safe`, `C86_whole`, `C86_near`; with a bound on `rmin/deltar` `C86_increasing_partial`, `C86_select_partial` (needed: `C86_coarse`); `C86_before_partial`; violated: `C86_lost_point`, `C86_last_rejected` |
| C87 | `Model/Special.lean`: IEEE comparisons and arithmetic with infinities and NaN, the checks of `alloc`, `range`, `lattice`, `bond_length_types`, and the conversions to `int` after them | case analysis over the kinds of numbers; `C87_range`, `C87_range_raises`, `C87_peak`, `C87_bonds_lower`; exact characterisation `C87_alloc_accepts`; for finite numbers `C87_alloc_partial`, `C87_calc_partial`, `C87_limits_partial`, `C87_cell_partial`, `C87_bonds_partial`; violated: `C87_calc_undefined`, `C87_calc_large`, `C87_cell`, `C87_bonds_undefined` |
| C88 | `Model/FAngle.lean`: `bond_angle` with `tensor`, `skalpro`, `make_nearest`, `sqrt` and their error versions, each operation rounded to 53 bits | forward error analysis of sums, products, square root and quotient, Cauchy-Schwarz; `C88_valid`; for bonds that are not nearly straight `C88_angle_partial`; for right angles of the cell `C88_symmetric_partial`; which image of a bond is taken: `C88_nearest`; violated: `C88_straight`, `C88_deviation`, `C88_straight_deviation`, `C88_asymmetric` |
| C89 | `Model/FSphere.lean`: the control flow of `PointsInSphere` on the integers that it computes, and these integers with each operation rounded | enumeration as nested lists, forward error analysis of centres, squared radii and half spans; `once`, `once_double`, `complete`, `complete_double`, `exact_search`; for atoms within one cell `bonds`; without a margin violated: `lost` |
| C90 | `Model/Axes.lean`: the other descriptions of a structure (no code); models of C24, C19, C20, C45 | cell tensors transform with signs, sums over axes and translations are reindexed; `C90_curve_partial` (step cut allowed), `C90_lattice`, `C90_table_partial`; with right angles `C90_length_partial`, `C90_angle_partial`; violated in oblique cells: `naming_matters`, `direction_matters` |
| C91 | models of C24, C45 (no further code) | `SameCrystal`: metric, periods, positions, displacement tensors and the complete list of images; sums over pairs and translations of one cell are a reindexing of those of the other (`trn_bij`), the number of images is the absolute determinant (`card_det`, quotient of the lattices); `C91_cell_partial` (no step cut, near images), `C91_reach_partial` (step cut, if `Reach`; `reach_cut` gives a sufficient condition on the widths), `C91_count`; C60 is a special case (`of_same`); violated for distant images (`distant_matters`) and with a step cut (`cut_matters`, Props/C91Step) |
| C92 | models of C24, C68, C71 (no further code) | `whole`, `tail`: complete peaks and their parts more than five widths from the centre; a pair contributes its whole peak or a point lies in its tail (`split`, from the rounding of the first and last grid points); lattice sums converge (`C92_sum`, lengths of translations grow linearly with their components by the dual basis and Cauchy-Schwarz); `C92_infinite_partial` bounds the difference of the curves by the tails, `C92_tail` each tail, `C92_below_partial` the sign; violated for wide peaks: `C92_wide` |
| C93 | models of C24, C68, C71, C91 (no further code) | `sData`, `sPhase`: data set and phase in another unit; each intermediate value scales with its dimension (cell tensors, distances, widths, number of grid points, density, envelope); with peaks not wider than 1 and no atoms closer than 0.1 in either unit the sums of pairs scale (`ssum`), hence `C93_units_partial`; violated for close atoms: `C93_unit_matters` |
| C94 | `Model/Progress.lean`: messages of each call (`stepMsgs`, `loopMsgs`), their text with the state of the stream (`put`, `out`, `Out.fixed`), a reader (`readText`) | `C94_course` (induction over the calls with `Lemmas/Progress.lean`), `C94_shown` (order of C46), `C94_read_partial` (lines of each message, `Lemmas/ProgressText.lean`), `C94_near` (half a unit of the sixth decimal place), `C94_printed` (printing keeps the order); violated for small parameters: `C94_small`, `C94_same`. Conversion of the numbers of the machine to printed ones is a parameter (`Shw`) |
| C95 | `Model/LatticeText.lean`: lines of `show_lattice` and a reader (`readLat`); cell as in C45 and `Model/CellErr.lean` | `C95_read` (cells of the report, as C70), `C95_inverse_partial` (C45 `metric_partial` and the error of printed numbers), `C95_volume`; violated for long edges: `C95_large`, `C95_large_text`. Values are exact before they are printed |
| C96 | The fit as a whole (`Model/FullFit.lean`) for two inputs that differ in the order of the data sets (`Reorder`): a variable keeps its address, its number in `fit.refvar` changes | `C96_order`: columns of the derivatives under renumbering (`column_ren`), relation of the two runs (`loop_rel` of C66) with exceptions made equal (`Theory.hush`). Arithmetic is exact. Which exception is raised is not compared: it is that of the first data set that fails |
| C97 | The fit as a whole (`Model/FullFit.lean`) for two inputs that differ in the order of the phases (`ReorderPh`) | **Violated** when the peak broadening of a data set with several phases is refined: `C97_order_violated`, where `refine()` returns in one order and raises `calculationError` in the other. `C97_order_partial`: otherwise the order does not matter; columns of the derivatives under renumbering (`PermSel.column`), then as for C96 |
| C98 | `Model/SaveNum.lean`: the format `%#g` with six digits and the reader of decimal numbers, with `Model/Save.lean` and `Model/DataRead.lean` | **Violated**: `C98_violated` (a regular grid near 500 Å is refused as irregular), `C98_single` (a single point is refused). `C98_pdf_partial`, `C98_dif_partial`: below 100 Å and with at least two points the text is accepted and has the values, range and step; `SaveNum.printer` is an instance of the hypotheses of C52 on printing and reading |
| C99 | `Model/StruPdf.lean`: the phase of `Model/Determine.lean` that belongs to a structure of `Model/Stru.lean` | **Violated**: `C99_scat_violated` (scattering factors set by `set_scat` are not saved; for any two elements with positive factors there is a structure with another PDF after reading). `C99_same_partial`: with equal scattering factors the same result (value, NaN or undefined) for every data set and selection; negative shape parameters are read as zero, which has no effect. `C99_again_partial`: for structures with any numbers, saving and reading a second time changes nothing. `C99_members`: which member of the phase each number of the header is |
| C100 | `Model/Plot.lean`: `ipy_ext.py`, with the lists of `Model/Lists.lean`; of numpy and matplotlib: the difference of arrays and the test for equal lengths | **Violated**: `C100_single_violated` (a fit range with one point gives `ValueError`), `C100_rw_violated` (`showRw` raises an exception before the first refinement). `C100_fit_partial`: for ranges with more points the three lines, the difference below the others, and the offset the largest such integer. `C100_rw`, `C100_rw_refined`: the curve of `getcrw`, its largest value in the title. `C100_passes`: exceptions of the getters are passed on |
| C101 | `Model/FullFit.lean` (engine with constraints, PDF and derivatives), `Model/Determine.lean` | `C101_values`: data sets that agree in their fit ranges give the same refinement, from every state. `C101_start_partial`: with the first points cut away the curve in the fit range is the same, and a number in the same cases, if at least one point remains before the range of the calculation; `C101_cut_partial`: a refinement then takes the same steps to the same results (with `C96.one_way`). Missing: data that begin with the range of the calculation (then the Qmax filter sees fewer points, and a peak that ends half a step before the first point is rounded differently) |
| C102 | `Model/Bonds.lean` and `Model/Determine.lean`, whose phases are compared by `Same` (lattice, supercell, positions) | `C102_between_partial`: a point further than five widths and half a step from all lengths of the lists is on the base line, where the lists need to cover only that surrounding. `C102_peak_partial`: a point within five widths of a listed length is above it. Missing: structures with atoms further apart than the diagonal of the supercell (`C19.missed`), termination ripples (which reach everywhere); in the second theorem peaks wider than the margin of 1 Å (violation in C68) |
| C103 | `Model/Bonds.lean`: both functions | **Violated**: `C103_shortest_violated` (cube with atoms that differ by 0.8 in one coordinate: `bond_length_atoms` gives 0.8, the list begins with 0.2; consequence of the violation of C20). `C103_listed_partial`: the record returned for two atoms is an entry of the list, for atoms not further apart than the diagonal of the supercell (otherwise `C19.missed`). `C103_first_partial`: it is the shortest with these atoms in rectangular cells if the coordinates differ by at most half a supercell |
| C104 | `Model/Bonds.lean`: `bond_angle` and both functions for lengths | `C104_cosines_partial`: law of cosines for the reported angle and lengths, the third side is a distance of images of the outer atoms. `C104_listed_partial`: it is an entry of `bond_length_types`, for atoms not further apart than the diagonal of the supercell. Missing: cells with suppressed elements of the metric (where the metric need not be positive); the order of the atoms in `bond_length_atoms` is that of the vectors of the angle, as the other order can give another length in oblique cells (C21) |
| C105 | `Model/Bonds.lean`: `bond_length_types` | `C105_part_partial`: a list is, up to order, the part of any list for more atoms and wider limits (lengths, standard deviations, atoms). `C105_mirror_partial`: exchange of the elements exchanges the atoms of each bond. `C105_part_violated`: in the supercell of `C19.missed` the bond of length 9.1 is in the list from 0 to 10, but not in the list from 8.5 to 10. Missing: atoms further apart than the diagonal of the supercell, where it is false; the order of bonds of equal length |
| C106 | `Model/Calc.lean`: `calc()` of two objects whose phases may differ | `C106_curve_partial`: equal settings and equal selected phases, under any numbering, give the same `getpdf_fit`; `C106_unselected_partial`: the same with explicit conditions for the selected phases only. Both for calls that return. **Violated** for the return itself: `C106_returns_violated`, where an angle 0 in the cell of a phase that no data set uses ends the process (fit.cc 324-326 takes all phases, and `calc` has no handler for the exception) |
| C107 | `Model/Determine.lean`, `Model/Calc.lean`: no further code | proved: `C107_phase` (one phase), `C107_pdf` (any phases, each with its own factor, against the scale factor), `C107_calc` (two objects, after `calc()`). The peaks grow with the square of the factor and are divided by the number of atoms, the base line grows with the density; mean and normalisation do not change |
| C108 | `Model/Release.lean`: `get_pypi_release_date` with the text of the module file, the network, reading and writing as arguments, and sequences of imports. Simplified: replies of the network are classified by the exception they lead to, `strip` knows ASCII blanks, version numbers and warnings are left out | proved: `C108_noted`; `C108_kept_partial` (round trip of the line written), `C108_imports_partial`, `C108_fails_iff` (exactly when an import fails); violated: `C108_imports_violated`, `C108_fetched_violated`, `C108_kept_violated` |
| C109 | `Model/Banner.lean`: the text of the banner, `filler` and `intro`. Simplified: a list of lines; version and date contain no line ends | proved: `C109_box_partial` (versions of up to 30 characters, dates that are not blank), `C109_version_partial`, `C109_date_partial`; violated: `C109_box_violated` (every longer version), `C109_date_violated` |
| C110 | `Model/Export.lean`: `_exportAll`, the attributes of the class, `exec` as far as names are concerned, lists of files as shared cells | proved: `C110_methods`, `C110_constants`, `C110_last`, `C110_others_partial` (all names but `__builtins__`), `C110_files_partial` (without `reset()`); violated: `C110_others_violated`, `C110_files_violated` |

## 4. Findings: places where the code does not do what the property says

Each line names the property; the witness is a theorem in `lean/Verif/Props/`. "Noted" means read in the source and not proved.

* C04: after an exception inside `refine` the stored `rw` belongs to other parameters than the current ones.
* C05: a constrained atom coordinate is wrapped into the cell by `fmod` after the constraint has been applied.
* C06: `crw` is filled by the last trial, also by a rejected one.
* C07: a constraint on only fixed parameters is not found by `vfind`, so a second one is added; a wrong formula can never be replaced.
* C08: after replacement of a constraint old entries of `dvdp` remain; identity constraints have derivative 1 also for a fixed parameter.
* C11: `)` directly followed by a digit reads outside the stack or gives a wrong value without error.
* C16, C17: `fit_running` and the fit's work variables are statics, shared by all engines and left behind by exceptions.
* C18: a lattice point exactly at `Rmin` makes the iterator visit points inside `Rmin`.
* C19, C24: bonds and pairs are missed in supercells whose coordinates differ by more than `circum_diameter`.
* C20, C21: `make_nearest` does not find the nearest image (0.8 instead of 0.2 in an orthogonal cell); distances are not symmetric in oblique cells.
* C22: the angle is not a number if an end atom is an image of the middle one.
* C25: selecting atoms of a phase that was deselected with `pdesel` dereferences a null pointer.
* C27: section pointers of the variables dangle after `reset`.
* C29: `pdfrange(ALL, ...)` changes the first data sets before it raises for a later one.
* C30: `alloc` accepts `rmin = rmax`, step 0. After a refinement that ended with an error `fit_setup` is not run again (C17); a phase loaded then has no offset, and the derivative code uses it (`stale_layout`).
* C31: lists have different lengths after `alloc` or `read_data_arrays` and for a fit range of one point. Before the first calculation `getpdf_fit` gives zeros (`before_calc`).
* C32: `read_data_arrays` uses 1/sqrt(dGr) instead of 1/dGr^2 and accepts nonpositive values.
* C33: reading does not terminate if all lines, including an unterminated last one, begin with `#`.
* C34: unbounded deviation from the regular grid; decreasing or constant r accepted; one point gives step 0/0; empty arrays are read out of bounds.
* C35: a positive particle diameter or step cut below 0.0000005 is saved as zero and dropped by the next save.
* C36: a blank header line repeats the previous command: `structureError` after six commands, DISCUS format after `format pdffit`.
* C42: components slightly below Qmax are removed too (`padlen - 1`).
* C44: the column of `qbroad` is multiplied by the factor of the last phase only; in cells that are not orthogonal the columns of positions,
  displacement parameters and edges are wrong; the columns of angles hold the effect of the distance
  (`win_partial`) and lack that of the mean square displacement (`win_peak` gives the difference exactly); a vanishing occupancy or scale factor
  gives a column that is not a number; the curve is discontinuous at `spdiameter = 0`, where the column is zero.
* C45: zero cell edges accepted; very short edges give an indefinite metric.
* C46: empty list of parameters if all are fixed; out-of-bounds read after a new `setpar`.
* C47: a second constraint on a variable whose first one has only fixed parameters is not attached.
* C49: `unassignedError` for a phase without atoms.
* C50: `calc` after a constraint on an undefined parameter (`constraintError`), with an impossible cell (`structureError`) or an unknown scattering
  type (`runtime_error`) lets the C++ exception escape and ends the process; `phase_fractions` and `save_res` do so for an unknown scattering type;
  `refine_step` swallows these and returns NULL without a Python exception; `constrain` with a formula on an unassigned variable returns `None` with an error set.
* C52: `save_pdf` and `save_dif` before any calculation read the empty vector `pdftot` out of bounds. The file has five columns, so the uncertainties in it are ignored when it is read as data.
* C53: `fill_errors` never clears a deviation. A variable whose constraint has only fixed parameters, or none, keeps the deviation of an
  earlier refinement, which is then printed and saved with the structure (`C53_stale_deviation`). After replacing a constraint the deviation
  contains the derivatives of the old one (`C53_replaced_constraint`, from C08).
* C55: deviations are sums in which only some terms are taken in absolute value. The metric tensor between edges at an obtuse angle is reported
  with deviation zero (`metric_obtuse`), a reciprocal angle with a negative deviation (`reciprocal_angle_negative`), an obtuse bond angle with
  deviation zero although it changes (`bond_angle_obtuse`). The deviation of the number density is too large by the number of cells of a
  supercell (`number_density_supercell`).
* C56: a reflection exactly at `Qmin` makes the generator visit 000 as well (`visits_origin`), as the points in C18. Noted: `ReflectionsInDmaxDmin`
  inherits privately, so none of the inherited members can be used; nothing in the package uses the reflection classes.
* C58: with as many points as free parameters the reduced chi-square is a division by zero (`no_freedom`) while the data set reports 0. After a rejected last
  trial the reduced chi-square of the data sets is that of the trial, not of the result (`ds_differ`). Noted: with observed values that are all zero
  `fit_rw` is a division by zero, while `getcrw` leaves the values unscaled.
* C59: `__getRef` calls any function of the extension module: `getvar("reset")` erases all phases and data sets (`reset_text`), `getvar("setphase(2)")`
  changes the current phase (`setphase_text`); the result is not a variable, so a null pointer is followed (misc.cc 816, `v->isAssigned()` without a check of
  `PyCapsule_GetPointer`). A blank after the closing bracket (`"x(1) "`) is refused, a missing bracket is not. Noted: `constrain_str` (misc.cc 663-667) sets an
  exception for an unassigned variable but returns `None`.
* C60: the curve depends on the image in which an atom is listed. With atoms at 0 and 9.1 of a 10 x 1 x 1 supercell the pair at distance 9.1
  is not visited for a data set starting at about 9.5; with the second atom listed at -0.9 it is (`image_matters`). The cause is that
  `circum_diameter` is the diagonal of one cell and is not that of the supercell nor of the box of the atoms. `C60_same_partial` therefore
  has the hypothesis `Near` for both descriptions, and `stepcut <= 0` because with a step cut the reach depends on `circum_diameter`, too.
  A change of the origin alone changes nothing without any hypothesis (`C60_origin`).
* C61: `output.restore_stdout` declares `global stdout` but does not reset it, so that messages of the Python code (of `bang`, `blen`, `show_scat`, `intro`) still go to the file after it, those of
  the engine to the standard output (`C61.python_not_restored`). With redirected output two `refine_step` calls in different threads write to the string stream of one of them, or to the
  Python file without the interpreter lock (`C61.two_threads`); the same holds for a redirection during `refine_step` (`C61.redirect_during`), and `restore_stdout` during it loses text
  (`C61.restore_during`). An error raised by the method `write` of the file is ignored, the text is lost and the Python error stays pending, so that the call raises `SystemError` after having done its work (`C61.write_error`, `C28.write_trace`).
* C63: `alloc` and `read_data` accept every non-negative Qmax, but `int(ceil(qmax/dQ))` (pdf.cc 130) overflows once `qmax*(rfmax-rfmin)` is above 2^32 π, and `nint((rcmax-rmin)/deltar)` (pdf.cc 837) overflows for a small positive Qmax because the range is extended by 12π/qmax. The comment in pdf.cc 128-129 says that `int` is there to catch huge `qmax/dQ`; it does not. `huge_qmax`, `small_qmax`, `witness`.
* C64: `FormatValueWithStd` prints the value always with 6 digits and its standard deviation with 2; for `1.0000049 ± 1e-6` the report has `1 (1e-06)`, four printed standard deviations away (`coarser`). `Phase::output` prints the off-diagonal displacement parameters only if one of them is not zero; their standard deviations are lost otherwise (`deviation_lost`).
* C65: `save_res` is allowed as soon as one step has been made (the comment in it, that `fit.iter` is -1 after a refinement, is wrong). Between steps `covar`
  is a scratch matrix and the deviations are zero or those of an earlier refinement: infinite correlations (`unfinished_reachable`) or a correlation of 54 (`stale`).
* C68: pairs of atoms are collected only up to 1 Å outside of the calculated range (pdf.cc 173–175), but a peak is drawn up to five standard deviations from its centre. With displacement parameters above about 0.02 Å² the tails of peaks just outside of the range are missing, and the calculated value at the same r changes with `pdfrange` (`C68_range_matters`: U = 0.05 Å², cubic cell of 3 Å, value at r = 1.5 for 1–1.5 and for 1–3). The comment at pdf.cc 819 names the missing extension as a todo.
* C69: `blen(a1, a2, lb, ub)` takes an atom type also by its index. An index beyond the last type prints nothing and raises nothing (pdffit.py 891–893), although ValueError is documented for atoms that do not exist (`C69_index_beyond`); the index 0 and small negative ones count from the end of the list, so that `blen(0, …)` silently shows the bonds of the last type (`C69_index_zero`).
* C70: the report says that Qbroad is not applied unless it is positive (output.cc 203), but the calculation uses its square (pdf.cc 288–306). A negative Qbroad, which `setvar` and a refinement from a small positive start may give, broadens the peaks like its magnitude while the report says "not applied" (`C70_qbroad_negative`).
* Not part of a property: `show_struct`, documented as "Print structure resulting from fit", prints nothing. The engine returns the text (stru.cc 428–431), the extension passes it on, and pdffit.py 474 drops it.
* C71: the share of the selected pairs, with which the base line of a partial PDF is multiplied, leaves out the occupancies (pdf.cc 211–227), although the peaks (pdf.cc 327) and the average scattering length have them. For a full and a half occupied site of the same element the partial PDF of the full site gets 1/4 of the base line instead of 4/9 (`C71_occupancy`), so the base line of the partial PDFs does not fit their peaks. Total PDFs are not affected.
* C72: the sums over pairs for the share of the base line (pdf.cc 211–227) leave out the occupancies. When the scattering factors of the atoms, counted without occupancies, add up to zero, as is possible for neutrons or with `set_scat`, the share is 0/0 and the whole PDF is NaN, even with all atoms selected; with one of the sites split into halves the same structure gives numbers (`C72_nan`). A partial PDF changes when a site is split (`C72_partial_pdf`).
* **C76** `refine()` can return the starting parameters unchanged although chi-square is not stationary there, and calling it again does not help. A rejected trial step counts as a step without progress (`fit.cc` 92-102: `stagnating++` when `ochisq - chisq <= toler*ochisq`, and a rejection leaves `chisq` as it was), the damping grows only by a factor of 10 per rejection from 0.001, and three rejections in a row after the first step end the loop; each new `refine()` starts with 0.001 again. Witness (`C76_stuck`): `setpar(1, 0.01)`, `constrain(pscale, 1, FSQR)`, data calculated with scale factor 5: five steps, parameter 0.01, Rw above 0.99, no exception, for every number of repetitions; the minimum at the square root of 5 has Rw 0.
* **C77, C28** `read_data_lists` does not look at the error indicator of Python. An item that is not a number is converted to -1.0, the data set is loaded with that value and the call then raises `SystemError` (`C77_not_number`, `C28.lists_trace`). If `r_data` and `Gr_data` are both not lists (tuples, numpy arrays) their lengths -1 agree and `new double[-1]` throws a C++ exception nobody catches, so that the interpreter ends (`C77_not_lists`). If the values are irregular the arrays of the binding are not deleted (`C77_leak`). In the same way every call that prints something raises `SystemError` after having done its work when the file given to `redirect_stdout` raises in `write`, as a closed file does: `read_struct` raises and the phase is there (`C28.write_trace`).
* **C78** `bond_length_types` and `phase_fractions` store lists in the resulting dictionary with `PyDict_SetItemString` (misc.cc 1427-1430, 2167), which adds a reference of its own, and do not give up theirs. Each call leaves four, resp. six, lists with all their items behind (`C78_bonds`, `C78_fractions`); `k` calls leave `4 k` lists (`C78_unbounded`).
* **C79** `calc()` wraps the coordinates of all atoms into the supercell, constrained or not: `x = 3/2` becomes `1/2` (`C79_wraps`). A call that raises leaves the variables of the constraints before the failing one changed (`C79_failed`). `calc()` with a constraint on a parameter that was never set throws `constraintError`, for which misc.cc 353-367 has no handler: the process ends (`C79_dies`; the handlers are those of C50).
* **C80** `calc()` shows a new curve with the figures of the last refinement: after `refine()`, `setpar(1, 2)`, `calc()` the curve has the residual 3/5 and `getrw()` is below 1e-18 (`C80_stale`); before any refinement `getrw()` is 1 and `getcrw()` empty (`C80_first`). After `pdfrange` and `calc()` the lengths of `getcrw()` and `getR()` differ (`C80_length`). `calc()` does update the norm of the data, so that reading one more data set makes all values of `getcrw()` of the others smaller, but not `getrw()` (`C80_shrinks`).
* **C81** With a NaN among the observed values `refine()` does not raise: every trial is rejected, the count of calls without progress stays zero, and after all 100 iterations it returns normally with the parameters unchanged and `getrw()` NaN (`C81_silent`, for every model whose weights and derivatives determine the parameters; `C81_silent_witness`). `read_data_lists` accepts grids with NaN: 1, NaN, 3 is taken as 1, 2, 3, and a grid that begins with NaN always passes (`C81_grid`).
* **C82** No violation. The damping factor is at least 1e-103 within the 100 iterations, so it does not underflow in doubles; this is the only place where the guarantees need anything about the numbers.
* **C83** `gaussj` takes a matrix as singular only if a pivot is exactly zero (gaussj.cc 84). Two free parameters with the same influence on a point of weight 49 give the matrix (49 49; 49 49); as 49 * (1/49) is not 1 in doubles, the second pivot is 2^-47, `refine()` finishes without a report, and the variance of the parameters is 2^47 (`C83_unreported`). With weight 1 the same fit raises `calculationError` after the last iteration (`C83_reported_by_chance`); the rounding that decides is in `C83_criterion`. The other way round, two parameters whose derivatives differ by 2^-30 at one of two points are determined, but are reported as singular (`C83_false_alarm`).
* **C84** `read_data_string` executes `name = data` before `data_files.append(name)` (pdffit.py 238-239), so the list gets the whole text of the data and never the tag; the engine drops the tag as well (pdf.cc 1328 does not hand on `_name`), so that the results name the data set "string" (`C84_string`). `alloc` adds a data set and no item to `data_files`, which shifts the names of all later ones (`C84_alloc`). A loading call that raises `SystemError` after the engine has worked (C28, C77) adds no name either (`C84_late`).
* **C85** `get_atoms(0)` and `get_atom_types(0)` do not raise but return the lists of the current phase (`C85_zero`), as `getphase` uses 0 for a missing index. `get_scat_string` puts nothing between the entries of two elements, not even a blank (`C85_scat_string`); for a structure without atoms it accepts every `stype`.
* **C86** `getR()` before the first calculation truncates `(rmax - rmin)/deltar` instead of rounding it. After `alloc(stype, qmax, qdamp, 1, 10, 8)` it has 7 points instead of 8 (`C86_lost_point`); with exact numbers this cannot happen. The last point of `getR()` can be greater than `rmax`, as with 148 points from 0 to 5; then `pdfrange(1, R[0], R[-1])` raises `ValueError` (`C86_last_rejected`).
* **C87** `alloc` accepts NaN for all its numbers and infinity for `rmin`, `rmax`, `qmax` and `qdamp` (`C87_alloc_accepts`); the next calculation then converts NaN or infinity to `int`, which is undefined (`C87_calc_undefined`; also for equal limits). A NaN as `qmax` silently means no cutoff (`C87_calc_partial`). A cell with a NaN or infinite angle passes the check that the volume is positive, which is written as `voll <= double_eps` (`C87_cell`). An infinite or NaN `bmax`, or `bmin = inf`, is undefined behaviour in `bond_length_types` (`C87_bonds_undefined`). `pdfrange`, whose test is written the other way round, rejects them all (`C87_range`).
* **C88** `bond_angle` passes the quotient of rounded numbers to `acos` without clamping it to [-1, 1]. For the atoms (0,0,0), (1/4,1/4,1/4), (1/2,1/2,1/2) in a cubic cell with a = 4 the quotient is -1.0000000000000002 and the angle and its deviation are NaN instead of 180 degrees (`C88_straight`). With a = 3 the quotient is -1; the angle is 180 with the deviation NaN, because only the quotient 1 is treated specially (`C88_straight_deviation`, `C88_deviation` for every angle of 180 degrees). Away from straight bonds the angle is a number with a small error (`C88_angle_partial`). In cells that are not orthogonal the last digit depends on the order of the atoms (`C88_asymmetric`).
* **C89** The search of lattice points loses points that are very near to the outer radius: in a cubic lattice with the edge 3 and the radius 3 + 2^-51 the point (0, 0, 1) is not visited, although its distance 3 is smaller (`lost`, `lost_exact`). The callers are not affected, because `circum_diameter` extends the radius by at least 2^-26 more than needed (`bonds`). The errors of the constants (edges, sines, cosines) are hypotheses (`Computed`); numbers neither overflow nor underflow.
* **C90** In oblique cells the result of `bond_length_atoms` depends on the names of the axes: with gamma = 60 degrees and edges 1 the atoms at (0.7, 0.4, 0) and the origin have the distance √0.43, and √0.13 after a and b are exchanged (`naming_matters`; the cause is the forgotten minimum of C20). The standard deviation depends on the directions of the axes: `dtensor` (metric.cc 277-302) tests `t < eps` without the absolute value, so negative elements are set to zero, and reversing b changes the deviation from 3 to 2 parts (`direction_matters`).
* **C91** The choice of the cell does not matter as long as all atoms are listed inside one cell and there is no step cut; with atoms that are listed in distant cells the curve changes (`distant_matters`, the cause is that of C24 and C60). With a step cut the search goes as far as the step cut plus the diagonal of the cell, although peaks of more distant atoms reach below the step cut; a larger cell finds more of them and the curve changes (`cut_matters`: cubic cell of edge 1 with U = 1 and step cut 1/4, against the doubled cell).
* **C92** Pairs more than 1 Å beyond the range are left out whatever the widths of their peaks are; with U = 0.2 Å² a neighbour 2.4 widths away is missing (`C92_wide`; same cause as C68).
* **C93** Pairs closer than 0.1 Å (and those more than 1 Å beyond the range) are left out: constants with a unit in pdf.cc 173-175. A crystal given in a unit in which atoms are closer than 0.1 loses their peaks without a message (`C93_unit_matters`).
* **C94** Parameters are printed with six decimal places, not with six digits: of a parameter below 5e-7 no digit is shown during the refinement (`C94_small`, `C94_same`).
* **C95** Elements of the reciprocal metric tensor below 1.5e-8 are set to zero. For a hexagonal cell with edges of 20000 A these are the elements beside the diagonal, and the printed reciprocal tensor is not the inverse of the printed tensor (`C95_large`, `C95_large_text`: the first element of the product is 4/3).
**C97** (fit.cc 404, 535): the derivatives with respect to `qbroad` are multiplied with the factor `fac` left over from the loop over the phases, that is, the one of the phase read last among those the data set uses. So the course and even the success of a refinement of `qbroad` depend on the order in which the structures were read. With the scale factor of the last phase 0 the whole column is 0 and `refine()` raises "singular matrix"; with the phases read in the other order it returns (`C97_order_violated`).
**C98** (pdf.cc 1015-1024, 1371-1384): r is saved with six significant digits, and the reader allows steps to deviate by 0.001 Å. Above 100 Å rounding alone can exceed that: the grid 500.1875, 500.3125, 500.4375, 500.5625 (all exact in binary) is saved as 500.188, 500.312, 500.438, 500.562 and refused as irregular (`C98_violated`). A curve of one point is refused as too short (`C98_single`).
**C99** (stru.cc 432-586): the saved structure has no scattering factors. If they were set with `set_scat`, the structure that is read has those of the table and another PDF (`C99_scat_violated`); nothing in the file or on the terminal tells so.
**C100** (ipy_ext.py 50-86): `showfit()` fails with `ValueError` if the fit range has a single point, since `getR` then returns all points of the data (`C100_single_violated`, compare C31). `showRw()` raises an exception when no refinement has been done, though `getcrw` is documented to return an empty list then (`C100_rw_violated`).
* C108: `version.py` catches `ValueError` and `OSError` only, so that `import diffpy.pdffit2` fails with `IncompleteRead`, `KeyError` or `TypeError` for a reply of the network that is cut off or of another shape (`C108_imports_violated`). If the date has been obtained but the package is not writable, `__date__` is the time of the last change of the file instead (`C108_fetched_violated`). A line written in part, on a full disk, is taken as the date from then on (`C108_kept_violated`).
* C109: for versions of more than 30 characters, such as those of development builds, the line of the banner with the version is longer than the others (`C109_box_violated`). For an empty date `rstrip(" *")` removes the star at the beginning of the line too (`C109_date_violated`).
* C110: `reset()` assigns new lists, so that the names `stru_files` and `data_files` exported before it stay at the old files for ever (`C110_files_violated`). `_exportAll` into a plain dictionary adds `__builtins__` to it (`C110_others_violated`). Names of the script such as `N`, `X`, `x`, `y`, `z` are overwritten.
* Noted: `getpar` is documented to raise `ValueError` but raises `unassignedError`;
  `read_struct` is documented to raise `calculationError` for a bad lattice but raises `structureError`.
* Noted: `alloc` leaks the data set when it throws; `dtensor` drops negative contributions; uncertainty of an angle of 180 degrees is infinite;
  negative mean square displacement and `sratio = 0` give NaN; a grid point r = 0 gives 0/0; `np` is stale after `setvar` of an occupancy;
  `read_atoms` ignores trailing text that is not an atom; files with five or more columns lose their uncertainties without warning;
  `read_data_string` ignores the name; `PeriodicTable::reset` (unused) uses an uninitialised iterator; `fcon = "USER"` acts as `IDENT`.

## 5. Status and simplifications per property

The status and the note for each property are in `MANIFEST.json`. Additional simplifications:

* Formula parser (C09-C11): overflow of a literal or of a stack reference is not distinguished; a function name must directly precede `(`.
* `determine` (C23, C24, C30, C40-C42): `nint` does not overflow (C63 says when this is true); the Fourier transforms are exact finite sums.
* Derivatives (C44): one column of `fit_a` per variable, computed on demand; a division by a vanishing occupancy or scale factor makes the whole
  column "not a number". The curve is `determine` as a function of one variable; the wrapping of positions by `fit_theory` and the product
  with `dvdp` are not part of it. "Not a number" (`Bad`) includes a vanishing cell volume.
* Data files (C32-C34): extraction of a number from a line is a parameter that consumes at least one character.
* Saved curves (C52): a value is a real number or `none` (infinity); the printer and the scanner are parameters related by `C52.Printer`, which has an instance in the file and one for the format of the program (C98, `SaveNum.printer`). Failure of the write after a successful open is not modelled (nor checked by the code).
* Standard deviations (C53): proved for histories without replaced constraints, from the calls that set parameters and constraints to the deviations
  in the slots. `Phase::lattice`, which propagates them to the cell quantities, is not part of it.
* C55: the deviations are compared with the derivative along a straight path in the cell parameters and positions (`Covers`). Distances and angles
  need a metric tensor whose deviations cover its change (`Trusted`; `trusted_of` gives it for cells without obtuse angles and without elements
  that the code drops as small). Permutation tensors are left out. The image chosen by `make_nearest` is kept fixed.
* C58: `redchisq` is read off the final state; the code computes it just before the final evaluation, which leaves `chisq` and the number of points.
  `rw2`, `fit_rw` before the square root, is only meaningful for a positive norm of the data (hypothesis of C04, C06, `ds_rw_partial`).
* C57: an element is its symbol, the key of the table. The text of a phase that is not selected in the data set (empty) is left out.
* C59: texts are ASCII; the limit of 4300 digits of `int` and the module's double-underscore attributes are left out. Functions of the module that are no operation
  of the model of the API have an arbitrary effect on values and fit.
* C54 is proved for an abstract model of the curve and, in `C54_constrained_finishes`, for the engine with its constraints. That the fitted points determine
  the free parameters (`Determined`) is a hypothesis on the derivatives at all parameter values.
* Structure files (C35, C36): numbers are a sign and an exact rational magnitude, so binary rounding of the printed value is not modelled; the
  round trip is proved for every printing that satisfies `Fmt`. A failing extraction ends the line, what it consumes does not matter.
  `std::string` and `getline` keep their value when the stream has already failed (libstdc++).
* Scattering factors (C37, C38): characters are those of the "C" locale; `std::map` is a function; numbers are rational.
* Shown bonds (C69): numbers are as in C64; the boundaries are numbers, and the conversion of the computed real numbers to doubles is a parameter.
* Exceptions (C50): the throwing functions are statements of a small control-flow language with nondeterministic branches; the matrix shape mismatch
  (`other`) is kept as possible although the shapes always agree.

## 6. Axioms

`#print axioms` for all theorems of `MANIFEST.json`: every one depends on a subset of `propext`, `Classical.choice`, `Quot.sound`.
`decide +kernel` is used only for concrete witnesses and for facts about all entries of the concrete periodic table; it adds no axiom.
