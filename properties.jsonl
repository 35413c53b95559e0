{"id": "C01", "title": "Parameters form a map from index to (value, free/fixed flag)", "statement": "After any sequence of setpar, fixpar, freepar calls, getpar(i) returns the value of the latest successful setpar(i, v) and raises an unassigned-parameter error when there was none; a parameter is free when first set, fixpar/freepar change only the flag of the named parameter (or of all parameters for ALL), setpar on an existing parameter keeps its flag, and a call that raises changes nothing.", "quantifier": "all finite sequences of setpar/getpar/fixpar/freepar calls, with any indices and values", "why_tests_cant": "tests replay a few short call sequences; the claim is about every history", "anchors": ["src/extensions/libpdffit2/fit.cc: Fit::setpar, Fit::getpar, Fit::fixpar, Fit::freepar, Fit::parfind", "src/diffpy/pdffit2/pdffit.py: setpar, getpar, fixpar, freepar"]}
{"id": "C02", "title": "Fixed parameters are never changed by a refinement", "statement": "However many refine_step calls are made, whether steps are accepted, rejected, finish the fit or raise in the middle, getpar of a fixed parameter keeps returning exactly the value it had when the refinement started.", "quantifier": "all parameter sets, fixed/free flag patterns, data, constraint systems and all outcomes of every refinement step (including exceptions at every model evaluation)", "why_tests_cant": "a test sees one trajectory; the claim is over every trajectory and crash point", "anchors": ["src/extensions/libpdffit2/pdflsmin.cc: Fit::mrqmin, Fit::mrqcof", "src/extensions/libpdffit2/fit.cc: PdfFit::refine_step"]}
{"id": "C03", "title": "refine() always terminates after a bounded number of steps", "statement": "A call of refine() on an engine whose refinement is not interleaved with another one finishes (or raises) after at most 101 refine_step calls, and a normal finish takes at least 5 of them.", "quantifier": "all chi-square sequences the model can produce, all tolerances", "why_tests_cant": "termination over every possible chi-square sequence cannot be sampled", "anchors": ["src/extensions/libpdffit2/fit.cc: PdfFit::refine, PdfFit::refine_step"]}
{"id": "C04", "title": "Rw never gets worse during a refinement", "statement": "From one refine_step to the next, within one refinement, the weighted residual reported by getrw never increases, and it always is the residual that belongs to the parameter values reported by getpar at that time.", "quantifier": "all models, starting points and numbers of steps", "why_tests_cant": "tests observe a few decreasing sequences, not that every accepted/rejected pattern is monotone", "anchors": ["src/extensions/libpdffit2/pdflsmin.cc: Fit::mrqmin", "src/extensions/libpdffit2/fit.cc: PdfFit::refine_step, PdfFit::fit_theory, PdfFit::getrw"]}
{"id": "C05", "title": "After refine() the structure, the model curve and the parameters agree", "statement": "When refine() returns normally, every constrained variable (getvar) has the value its constraint gives for the parameters now returned by getpar, and getpdf_fit is the curve computed from that state.", "quantifier": "all constraint systems, accept/reject histories", "why_tests_cant": "needs every history of accepted and rejected trial steps", "anchors": ["src/extensions/libpdffit2/fit.cc: PdfFit::refine_step, PdfFit::fit_theory, Fit::fill_variables", "src/extensions/libpdffit2/pdflsmin.cc: Fit::mrqmin"]}
{"id": "C06", "title": "Cumulative Rw agrees with total Rw", "statement": "For a single data set, getcrw is a non-decreasing sequence of nonnegative numbers, one per fitted point, and after a completed refine() its last element is the value of getrw.", "quantifier": "all data sets with nonnegative weights, all refinement histories", "why_tests_cant": "depends on whether the very last trial step was accepted or rejected, which a sample run does not control", "anchors": ["src/extensions/libpdffit2/pdf.cc: DataSet::getcrw", "src/extensions/libpdffit2/pdflsmin.cc: Fit::mrqcof, Fit::mrqmin", "src/diffpy/pdffit2/pdffit.py: getcrw, getrw"]}
{"id": "C07", "title": "A new constraint on a variable replaces the old one", "statement": "After constrain(var, formula) the variable has exactly one constraint, the new one, whatever constraints, calculations and parameter fixes happened before; other variables keep theirs.", "quantifier": "all histories of constrain, fixpar, freepar, calc and refine calls", "why_tests_cant": "the failing histories need a calc between a fix and a re-constrain", "anchors": ["src/extensions/libpdffit2/fit.cc: Fit::constrain, Fit::vfind, Fit::fill_variables", "src/diffpy/pdffit2/pdffit.py: constrain"]}
{"id": "C08", "title": "Parameter derivatives of constrained variables are those of the current constraints", "statement": "The derivative of a constrained variable with respect to a parameter that is used by the refinement and by the error estimates is the derivative of the variable's current constraint, and it is zero for parameters the constraint does not use and for fixed parameters.", "quantifier": "all histories of constrain, fixpar, freepar, calc and refine calls", "why_tests_cant": "stale entries appear only after particular histories of replaced constraints", "anchors": ["src/extensions/libpdffit2/fit.cc: Fit::fill_variables, PdfFit::fit_errors, PdfFit::fit_setup_derivatives", "src/extensions/libpdffit2/matrix.h: NRmatrix/matrix::resize"]}
{"id": "C09", "title": "Formula values follow the usual arithmetic", "statement": "A well-formed constraint formula built from numbers, @parameters, + - * /, unary signs, brackets and the built-in functions evaluates to its mathematical value: * and / bind tighter than + and -, operators of equal precedence associate to the left, functions apply to their bracketed argument.", "quantifier": "all formulas of any size and nesting depth, all parameter values", "why_tests_cant": "the grammar is infinite; tests check a handful of formulas", "anchors": ["src/extensions/libpdffit2/parser.cc: Fit::parse, Fit::compute, Fit::getnum, Fit::substitute_pars"]}
{"id": "C10", "title": "Formula derivatives are the true partial derivatives", "statement": "For every well-formed formula and every parameter point at which the formula is differentiable, the derivative vector returned by the formula evaluation is the gradient with respect to the used parameters (zero for fixed parameters).", "quantifier": "all formulas, all parameter points inside the functions' domains, all free/fixed patterns", "why_tests_cant": "finite-difference tests cover single points with tolerances only", "anchors": ["src/extensions/libpdffit2/parser.cc: Fit::getnum, Fit::compute", "src/extensions/libpdffit2/MathUtils.h: dsin..dsqrt", "src/extensions/libpdffit2/pdffit.cc: Fit::init_builtins"]}
{"id": "C11", "title": "Malformed formulas are rejected with an exception", "statement": "A formula text either evaluates to a number or raises a parse/constraint error; evaluation never reads outside the evaluator's own memory and always terminates.", "quantifier": "all character strings, all parameter tables", "why_tests_cant": "the set of malformed strings is infinite; out-of-range reads usually go unnoticed", "anchors": ["src/extensions/libpdffit2/parser.cc: Fit::parse, Fit::compute, Fit::getnum"]}
{"id": "C12", "title": "The derivative table of the built-in functions is right", "statement": "For each built-in formula function the registered derivative function is its derivative at every point of the open domain, including the degree versions.", "quantifier": "all real arguments in the domain of each function", "why_tests_cant": "pointwise tests cannot cover a continuum", "anchors": ["src/extensions/libpdffit2/MathUtils.h", "src/extensions/libpdffit2/pdffit.cc: Fit::init_builtins"]}
{"id": "C13", "title": "The linear solver inverts or reports a singular matrix", "statement": "In the refinement, solving the normal equations either yields exactly the inverse matrix and the solution vectors, or raises 'singular matrix', and it raises exactly when the matrix is singular.", "quantifier": "all square matrices of any size, all right-hand sides", "why_tests_cant": "pivot orders and sizes are unbounded", "anchors": ["src/extensions/libpdffit2/gaussj.cc: gaussj"]}
{"id": "C14", "title": "Covariances are attached to the right parameters", "statement": "After the fit, the covariance of two free parameters is the corresponding entry of the inverse curvature matrix, and covariances that involve a fixed parameter are zero, for every pattern of fixed and free parameters.", "quantifier": "all numbers of parameters and all fixed/free patterns", "why_tests_cant": "exponentially many patterns, in-place permutation code", "anchors": ["src/extensions/libpdffit2/pdflsmin.cc: covsrt, Fit::mrqmin"]}
{"id": "C15", "title": "The normal equations are those of weighted least squares", "statement": "The curvature matrix used by each refinement step is the weighted sum over all fitted points of all data sets of the products of derivatives with respect to the free parameters (hence symmetric and positive semidefinite), the gradient vector is the corresponding sum with the residuals, and chi-square is the weighted sum of squared residuals.", "quantifier": "all data sets, weights, derivative tables and fixed/free patterns", "why_tests_cant": "needs all sizes and patterns", "anchors": ["src/extensions/libpdffit2/pdflsmin.cc: Fit::mrqcof"]}
{"id": "C16", "title": "Refinements in different PdfFit objects do not disturb each other", "statement": "Interleaving refine_step calls on two PdfFit instances gives each of them the same results as running its own calls alone.", "quantifier": "all interleavings (schedules) of refine_step calls of several instances", "why_tests_cant": "tests run one instance at a time", "anchors": ["src/extensions/libpdffit2/fit.cc: PdfFit::refine_step (static fit_running)", "src/extensions/libpdffit2/pdflsmin.cc: Fit::mrqmin (static work arrays)"]}
{"id": "C17", "title": "A refinement that failed or was abandoned can be started again", "statement": "After an exception in the middle of a refinement, the next refine() starts a fresh refinement from the current parameter values, and parameters changed by the user in between are honoured.", "quantifier": "all crash points of a refinement, all follow-up call sequences", "why_tests_cant": "crash points inside the iteration are not reached by tests", "anchors": ["src/extensions/libpdffit2/fit.cc: PdfFit::refine_step", "src/extensions/libpdffit2/pdflsmin.cc: Fit::mrqmin"]}
{"id": "C18", "title": "The lattice-point generator visits exactly the points of the spherical shell, once each", "statement": "The enumeration behind bond lengths and PDF peaks terminates and visits every lattice point at distance r with Rmin <= r < Rmax exactly once and no other point.", "quantifier": "all non-degenerate triclinic lattices, all 0 <= Rmin < Rmax", "why_tests_cant": "continuum of lattices; boundary rounding cases", "anchors": ["src/extensions/libpdffit2/PointsInSphere.cc: PointsInSphere, LatticeParameters"]}
{"id": "C19", "title": "bond_length_types returns exactly the bonds in the range", "statement": "bond_length_types(A, B, lb, ub) returns every interatomic distance between lb and ub from an A atom of the cell to any periodic image of a B atom, with the right distances, sorted, and no other distances.", "quantifier": "all structures, supercell sizes, atom types and ranges", "why_tests_cant": "completeness over infinitely many periodic images", "anchors": ["src/extensions/libpdffit2/stru.cc: Phase::bond_length_types", "src/extensions/libpdffit2/pdf.cc: Phase::circum_diameter"]}
{"id": "C20", "title": "bond_length returns the shortest periodic distance", "statement": "bond_length_atoms(i, j) is the smallest distance between atom i and any periodic image of atom j.", "quantifier": "all lattices and atom positions", "why_tests_cant": "needs minimality over infinitely many images and all cell shapes", "anchors": ["src/extensions/libpdffit2/stru.cc: Phase::bond_length_atoms, Phase::make_nearest", "src/diffpy/pdffit2/pdffit.py: bond_length_atoms"]}
{"id": "C21", "title": "bond_length is symmetric", "statement": "bond_length_atoms(i, j) = bond_length_atoms(j, i), with the same uncertainty.", "quantifier": "all lattices, positions and index pairs", "why_tests_cant": "asymmetry depends on the cell shape", "anchors": ["src/extensions/libpdffit2/stru.cc: Phase::bond_length_atoms, Phase::make_nearest"]}
{"id": "C22", "title": "bond_angle is a symmetric angle between 0 and 180 degrees", "statement": "For three distinct valid atom indices with distinct positions bond_angle(i,j,k) = bond_angle(k,j,i) lies in [0,180]; invalid or equal indices raise ValueError.", "quantifier": "all positive definite metrics, positions and indices", "why_tests_cant": "needs the Cauchy-Schwarz inequality for every metric", "anchors": ["src/extensions/libpdffit2/stru.cc: Phase::bond_angle"]}
{"id": "C23", "title": "Partial PDFs add up to the total PDF", "statement": "For a phase with atom types partitioned into two groups A and B, the sum of the curves calculated with selections (A,A), (A,B) and (B,B) equals the curve calculated with everything selected.", "quantifier": "all structures, selections, r grids and peak profiles", "why_tests_cant": "an identity between sums over all pairs and images", "anchors": ["src/extensions/libpdffit2/pdf.cc: DataSet::determine (sel_i/sel_j, dnorm)", "src/extensions/libpdffit2/pdf.cc: DataSet::selectAtomType"]}
{"id": "C24", "title": "The half loop over atom pairs equals the full double sum", "statement": "The calculated pair sum, which visits each unordered pair once with a factor two, is the sum over all ordered pairs and all lattice translations in the sphere; it does not depend on the order of atoms in the structure.", "quantifier": "all atom lists and their permutations", "why_tests_cant": "needs the inversion symmetry of the lattice point set", "anchors": ["src/extensions/libpdffit2/pdf.cc: DataSet::determine", "src/extensions/libpdffit2/PointsInSphere.cc"]}
{"id": "C25", "title": "Atom selection behaves as sets, local to data set, phase and side", "statement": "After any sequence of selectAtomType/Index/All/None calls, the selected atoms of a data set, phase and side (i or j) are those obtained by applying the same operations to sets of atom indices; other data sets, phases and sides are not affected; calls with invalid arguments raise and change nothing.", "quantifier": "all call sequences and arguments, including phases excluded from the data set", "why_tests_cant": "unbounded histories; the null-pointer case needs a deselected phase", "anchors": ["src/extensions/libpdffit2/pdf.cc: PdfFit::selectAtomType, selectAtomIndex, selectAll, selectNone, check_sel_args"]}
{"id": "C26", "title": "Phase selection bookkeeping stays consistent", "statement": "In every reachable state each data set has one selection slot per loaded phase which is either empty or that phase; new phases are selected in every data set, new data sets select every phase, psel/pdesel change only the named phase of the current data set, and current phase/data set are always the most recently loaded or explicitly chosen ones.", "quantifier": "all reachable engine states", "why_tests_cant": "invariant over unbounded API histories", "anchors": ["src/extensions/libpdffit2/pdf.cc: PdfFit::selphase, pdesel, selphaseForEachDataSet", "src/extensions/libpdffit2/pdffit.cc: setphase, setdata, reset", "src/extensions/libpdffit2/stru.cc: PdfFit::read_struct"]}
{"id": "C27", "title": "reset() forgets everything", "statement": "After reset() the engine behaves as a newly created one: no phases, data sets, parameters or constraints, and every accessor of structure or data set variables raises an unassigned error.", "quantifier": "all engine states before reset, all accessors after", "why_tests_cant": "use of released storage is silent in tests", "anchors": ["src/extensions/libpdffit2/pdffit.cc: PdfFit::reset, Fit::reset, PdfFit::setphase", "src/diffpy/pdffit2/pdffit.py: reset, getvar, setvar"]}
{"id": "C28", "title": "Failed loads leave no trace", "statement": "When read_struct, read_data, read_data_lists or alloc raises, the number of phases and data sets, the current phase and data set, all selections and all variables are unchanged.", "quantifier": "all engine states and all failing inputs", "why_tests_cant": "all failing inputs from all states", "anchors": ["src/extensions/libpdffit2/stru.cc: PdfFit::read_struct, read_struct_string", "src/extensions/libpdffit2/pdf.cc: PdfFit::read_data, read_data_string, read_data_arrays, alloc"]}
{"id": "C29", "title": "pdfrange is validated and atomic", "statement": "pdfrange succeeds exactly when rmin < rmax and both lie inside the data range of the addressed data set(s); then the fit range is the given one; otherwise it raises ValueError and no fit range changes. In every reachable state the fit range lies inside the data range.", "quantifier": "all states, data-set indices (including ALL) and ranges", "why_tests_cant": "partial updates appear only with several data sets of different ranges", "anchors": ["src/extensions/libpdffit2/pdf.cc: DataSet::range, PdfFit::range"]}
{"id": "C30", "title": "The calculation never indexes outside its arrays", "statement": "For every data set with a positive grid step and every accepted fit range, Qmax, particle diameter and step cut, all array indices used in calculating the PDF, its derivatives and the residuals are inside the arrays.", "quantifier": "all grids, ranges and cutoffs, all peak positions and widths", "why_tests_cant": "out-of-range access is silent and depends on rounding", "anchors": ["src/extensions/libpdffit2/pdf.cc: DataSet::determine, extendCalculationRange", "src/extensions/libpdffit2/pdflsmin.cc: Fit::mrqcof"]}
{"id": "C31", "title": "getR, getpdf_obs and getpdf_fit have equal lengths", "statement": "At any time at which a data set is loaded, getR, getpdf_obs, getpdf_fit and getpdf_diff return lists of the same length, element k of each belonging to the same r value, the k-th grid point of the fit range.", "quantifier": "all histories of loading, range changes and calculations", "why_tests_cant": "differs between load paths and before/after the first calculation", "anchors": ["src/extensions/pdffit2module/misc.cc: pypdffit2_getR, getpdf_fit, getpdf_obs, getpdf_diff", "src/extensions/libpdffit2/pdffit.cc: getpdf_obs, getpdf_fit, getnfmin, getnfmax"]}
{"id": "C32", "title": "Data weights are inverse variances or all ones", "statement": "Data loaded with positive uncertainties dGr get weight 1/dGr^2 for every point, whichever load function is used; if any uncertainty is missing or not positive all weights are one.", "quantifier": "all data tables and load paths", "why_tests_cant": "the load paths differ; tests compare one path with itself", "anchors": ["src/extensions/libpdffit2/pdf.cc: DataSet::read_data_stream, DataSet::read_data_arrays"]}
{"id": "C33", "title": "Reading data terminates", "statement": "read_data and read_data_string return or raise for every input text.", "quantifier": "all input texts", "why_tests_cant": "non-termination is only found for particular texts", "anchors": ["src/extensions/libpdffit2/pdf.cc: DataSet::read_data_stream"]}
{"id": "C34", "title": "Accepted data lie on the regular grid that is used for them", "statement": "When data are accepted, the k-th r value differs from rmin + k*deltar by at most a fixed multiple of the documented tolerance, rmin < rmax, and the step is positive.", "quantifier": "all lists of r values", "why_tests_cant": "all lengths and all deviations patterns", "anchors": ["src/extensions/libpdffit2/pdf.cc: isRegular, DataSet::read_data_arrays, DataSet::read_data_stream"]}
{"id": "C35", "title": "Saving and re-reading a structure is lossless up to the printed precision", "statement": "A structure written by save_struct_string and read back has the same title, cell, supercell, atoms in the same order, and values equal to the printed precision; saving it again gives the identical text.", "quantifier": "all structures with representable fields", "why_tests_cant": "round trip over all structures", "anchors": ["src/extensions/libpdffit2/stru.cc: Phase::save_struct, Phase::read_struct_stream, read_header, read_atoms"]}
{"id": "C36", "title": "Blank lines in a structure header are insignificant", "statement": "Inserting blank lines in the header of a structure file does not change the structure that is read.", "quantifier": "all headers and all positions of blank lines", "why_tests_cant": "all positions in all headers", "anchors": ["src/extensions/libpdffit2/stru.cc: Phase::read_header"]}
{"id": "C37", "title": "set_scat changes one element of one phase and one radiation", "statement": "After any sequence of set_scat and reset_scat calls get_scat(type, element) for a phase returns the latest value set for that element, radiation and phase since its last reset, or the tabulated value; other phases, elements and radiations are unaffected.", "quantifier": "all call sequences over all phases, elements and radiation types", "why_tests_cant": "unbounded histories and lazily copied tables", "anchors": ["src/extensions/libpdffit2/LocalPeriodicTable.cc", "src/extensions/libpdffit2/scatlen.cc: PdfFit::set_scat, reset_scat, PdfFit::get_scat", "src/extensions/libpdffit2/AtomType.h: sf"]}
{"id": "C38", "title": "Element lookup ignores letter case and the table is consistent", "statement": "Looking up an element by symbol, name or isotope label gives the same entry for every capitalisation; every tabulated symbol and name finds its own entry; unknown labels raise ValueError.", "quantifier": "all strings, all table entries", "why_tests_cant": "all strings in all capitalisations", "anchors": ["src/extensions/libpdffit2/PeriodicTable.cc: PeriodicTable::lookup, fill_pt_backup"]}
{"id": "C39", "title": "Phase fractions are a probability distribution with a sound error", "statement": "For positive total scale, the atom, cell and mass phase fractions of the selected phases sum to one and excluded phases get zero; with nonnegative scales each lies in [0,1]; the reported uncertainties are real (nonnegative variance) and given by linear error propagation of the phase scales.", "quantifier": "all scale factors, uncertainties and selections", "why_tests_cant": "identities over all numbers of phases", "anchors": ["src/extensions/libpdffit2/pdf.cc: DataSet::getAtomPhaseFractions, getCellPhaseFractions, getMassPhaseFractions", "src/extensions/libpdffit2/pdffit.cc: PdfFit::getPhaseFractions"]}
{"id": "C40", "title": "The PDF is linear in the scale factors and additive over phases", "statement": "The calculated PDF is proportional to dscale, is the sum over the selected phases of pscale times a curve that does not depend on any scale factor, and an excluded phase contributes nothing.", "quantifier": "all structures, scales and selections", "why_tests_cant": "identity over all inputs", "anchors": ["src/extensions/libpdffit2/pdf.cc: DataSet::determine"]}
{"id": "C41", "title": "Scattering weights are normalised", "statement": "With nonzero average scattering power the occupancy-weighted mean of the atom weights is one, so the calculated PDF does not change when all scattering factors of a phase are multiplied by the same number.", "quantifier": "all structures and scattering factors", "why_tests_cant": "identity over all structures", "anchors": ["src/extensions/libpdffit2/pdf.cc: Phase::setup_weights, Phase::averageScatteringFactor"]}
{"id": "C42", "title": "The Qmax cutoff is a linear projection that keeps the curve real", "statement": "The termination filter is linear, removes exactly the frequencies above Qmax in a conjugate-symmetric way (so its output is real), never writes outside its buffer, and does nothing when Qmax is zero or above the Nyquist limit of the padded grid.", "quantifier": "all curves, grid lengths, steps and Qmax values", "why_tests_cant": "all lengths and cutoffs; symmetric index arithmetic", "anchors": ["src/extensions/libpdffit2/pdf.cc: DataSet::applyQmaxCutoff"]}
{"id": "C43", "title": "The particle shape factors are proper envelopes", "statement": "The spherical envelope lies in [0,1], is 1 at r=0 for any diameter, decreases with r, vanishes from r = diameter on, and its reported diameter-derivative is the true derivative; beyond spdiameter or stepcut the contribution of the phase is zero.", "quantifier": "all distances and diameters", "why_tests_cant": "continuum of arguments", "anchors": ["src/extensions/libpdffit2/ShapeFactors.h", "src/extensions/libpdffit2/pdf.cc: DataSet::determine"]}
{"id": "C44", "title": "Analytic PDF derivatives are true derivatives", "statement": "The derivatives of the calculated PDF with respect to scales, damping, broadening, sharpening, occupancies, displacement parameters, positions and lattice parameters used in the refinement are the partial derivatives of the calculated PDF.", "quantifier": "all structures, settings and variables", "why_tests_cant": "tests compare a few finite differences in one orthogonal, single-phase case", "anchors": ["src/extensions/libpdffit2/pdf.cc: DataSet::pdf_derivative, Phase::msdAtoms", "src/extensions/libpdffit2/fit.cc: PdfFit::fit_setup_derivatives"]}
{"id": "C45", "title": "The lattice metric is consistent", "statement": "For every cell that is accepted, the metric tensor is positive definite, its determinant is the square of the reported volume, the reciprocal metric is its inverse, and lengths from the metric agree with the law of cosines; cells with vanishing volume are rejected with structureError.", "quantifier": "all cell edges and angles", "why_tests_cant": "continuum of cells", "anchors": ["src/extensions/libpdffit2/metric.cc: Phase::lattice, Phase::tensor, Phase::skalpro"]}
{"id": "C46", "title": "Parameters are reported sorted by index, each once", "statement": "The results report lists every parameter exactly once in increasing index order.", "quantifier": "all insertion orders of parameters", "why_tests_cant": "all permutations", "anchors": ["src/extensions/libpdffit2/output.cc: Fit::order_by_id, Fit::output"]}
{"id": "C47", "title": "Every refinable variable has its own slot", "statement": "The internal list of refinable variables built at the start of a refinement has exactly as many entries as there are variables in all phases and data sets, different variables get different slots, and each constraint is attached to the slot of its own variable.", "quantifier": "all numbers of phases, atoms and data sets, all constraint systems", "why_tests_cant": "layout arithmetic over unbounded sizes", "anchors": ["src/extensions/libpdffit2/fit.cc: PdfFit::fit_setup, PdfFit::getnpar", "src/extensions/libpdffit2/pdffit.h: offset members"]}
{"id": "C48", "title": "Resizing and multiplying matrices is correct", "statement": "Resizing the matrix class keeps the overlapping entries and fills the rest with the given value; product, transpose and element access agree with the mathematical operations.", "quantifier": "all sizes and contents", "why_tests_cant": "flat index arithmetic for all sizes", "anchors": ["src/extensions/libpdffit2/matrix.h: matrix"]}
{"id": "C49", "title": "getvar/setvar address the variable of the current phase or data set", "statement": "setvar(v, x) followed by getvar(v) returns x; it changes no other variable, in particular no variable of another phase or data set; atom variables with an index outside 1..natoms raise ValueError.", "quantifier": "all states, variables and values", "why_tests_cant": "all variable pairs and histories", "anchors": ["src/diffpy/pdffit2/pdffit.py: setvar, getvar, __getRef", "src/extensions/libpdffit2/pdffit.cc: PdfFit::setphase, setdata", "src/extensions/pdffit2module/misc.cc: pypdffit2_setvar, getvar"]}
{"id": "C50", "title": "Every library error reaches Python as the documented exception", "statement": "No API call lets a C++ exception escape: each error kind raised by the engine in that call is translated to the corresponding Python exception.", "quantifier": "all API calls and all error kinds that the call can raise", "why_tests_cant": "needs the set of throwable errors of every call", "anchors": ["src/extensions/pdffit2module/misc.cc: exception handlers of every binding"]}
{"id": "C51", "title": "Old structure files mean the same as their modern form", "statement": "A structure file without format line (label, x, y, z, B) is read as the same structure as the file with 'format pdffit' and occupancy 1, U11=U22=U33=B/(8 pi^2), all other displacement parameters and deviations 0; the sharp line with 4 numbers is delta2, delta1, sratio, rcut, with 3 numbers delta2, sratio, rcut and delta1 = 0, and with fewer an error.", "quantifier": "all headers, atom lists and number texts", "why_tests_cant": "unbounded headers and atom lists", "anchors": ["src/extensions/libpdffit2/stru.cc: Phase::read_struct_stream, read_header, read_atoms"]}
{"id": "C52", "title": "A saved curve contains the calculated curve", "statement": "save_pdf writes one line per point of the fit range with r, the calculated value, 0, 1/sqrt(weight) and observed minus calculated, equal to the lists returned by getR, getpdf_fit and getpdf_diff; save_dif writes r and the difference; a missing data set and an unwritable file raise the documented errors; reading the saved file gives back the printed values.", "quantifier": "all data sets, histories of range changes and calculations, and curves", "why_tests_cant": "all histories before the save", "anchors": ["src/extensions/libpdffit2/pdf.cc: PdfFit::save_pdf, PdfFit::save_dif, DataSet::build_pdf_file, DataSet::build_dif_file"]}
{"id": "C53", "title": "Standard deviations are those of linear error propagation", "statement": "When a refinement finishes, the standard deviation of every free parameter is the square root of its variance and that of a fixed parameter is zero; the standard deviation of every constrained variable is the square root of the sum over i and j of dv/dp_i C_ij dv/dp_j with the derivatives of its constraint and the covariance matrix C; variables that were not refined have deviation zero; every printed correlation lies between -1 and 1.", "quantifier": "all constraints, parameters, models and refinements that finish", "why_tests_cant": "all constraint systems and covariance matrices, and all histories before the refinement", "anchors": ["src/extensions/libpdffit2/fit.cc: PdfFit::fit_errors, Fit::fill_errors", "src/extensions/libpdffit2/matrix.h: sd, operator*", "src/extensions/libpdffit2/output.cc: Fit::output"]}
{"id": "C54", "title": "A well-posed refinement finishes and an ill-posed one is reported", "statement": "If all evaluations succeed, no weight is negative and the fitted points determine the free parameters, then refine() finishes normally within 101 steps from any starting values; if some free parameter has no influence on the fitted points, refine() raises calculationError in its first step.", "quantifier": "all models, starting values, tolerances and earlier states of the object", "why_tests_cant": "all paths of the damped iteration", "anchors": ["src/extensions/libpdffit2/pdflsmin.cc: PdfFit::mrqmin, mrqcof", "src/extensions/libpdffit2/gaussj.cc: gaussj", "src/extensions/libpdffit2/fit.cc: PdfFit::refine_step"]}
{"id": "C55", "title": "Reported uncertainties of derived quantities cover the change of the inputs", "statement": "The standard deviations of cell volume, reciprocal volume, metric tensor, reciprocal edges and angles, number density, bond lengths and bond angles are not smaller than the first-order change of the quantity for any change of the cell parameters and atom positions within their standard deviations.", "quantifier": "all cells, positions, standard deviations and directions of change", "why_tests_cant": "continuum of cells and directions", "anchors": ["src/extensions/libpdffit2/metric.cc: Phase::lattice, Phase::dtensor, Phase::dskalpro", "src/extensions/libpdffit2/stru.cc: Phase::bond_length_atoms, Phase::bond_angle"]}
{"id": "C56", "title": "The reflection generator visits the reflections of the shell, once each, with the right spacing", "statement": "LatticeParameters::reciprocal gives the dual lattice and is its own inverse; d() of a reflection is the distance of its first lattice plane from the origin and Q() = 2 pi / d(); ReflectionsInQminQmax visits every hkl with Qmin <= Q < Qmax exactly once and nothing else, and ReflectionsInDmaxDmin those with Dmin < d <= Dmax.", "quantifier": "all non-degenerate lattices, all bounds and all reflections", "why_tests_cant": "infinitely many lattices and bounds; reflections exactly at a bound", "anchors": ["src/extensions/libpdffit2/PointsInSphere.cc: LatticeParameters::reciprocal, ReflectionsInQminQmax, ReflectionsInDmaxDmin", "src/extensions/libpdffit2/PointsInSphere.h: ReflectionsInQminQmax"]}
{"id": "C57", "title": "The selected atoms written in a report determine the selection", "statement": "Reading the text of selectedAtomsString, where the numbers after an element are its selected atoms and an element without numbers means all its atoms, an atom of the phase is listed exactly if it is not ignored; equal texts mean equal selections.", "quantifier": "all phases with elements of the table and all sets of ignored atoms", "why_tests_cant": "exponentially many selections", "anchors": ["src/extensions/libpdffit2/output.cc: DataSet::selectedAtomsString", "src/extensions/libpdffit2/stru.cc: Phase::read_struct_stream"]}
{"id": "C58", "title": "The reported quality of fit is that of the final curve and of the number of points and parameters", "statement": "When refine() finishes there are at least as many fitted points of nonzero weight as free parameters; the reduced chi-square is the weighted sum of squared residuals of the final curve divided by the number of points minus the number of free parameters, a nonnegative number; the reduced chi-squares of the data sets add up to it, and the squares of their Rw values to the square of Rw.", "quantifier": "all models, starting values, tolerances, numbers of data sets, points and parameters", "why_tests_cant": "all paths of the damped iteration; rank argument for all derivative matrices", "anchors": ["src/extensions/libpdffit2/fit.cc: PdfFit::refine_step, PdfFit::fit_theory, PdfFit::fit_setup", "src/extensions/libpdffit2/pdf.cc: DataSet::getdsredchisq, DataSet::getdsrw", "src/extensions/libpdffit2/pdflsmin.cc: PdfFit::mrqmin"]}
{"id": "C59", "title": "A variable written as a text refers to that variable", "statement": "A text is taken for the variable lat(i), x(i), ..., rcut exactly when it writes it: its name, and for indexed variables an opening bracket and the integer i in decimal notation, blanks allowed around each. The texts made by the accessor methods are read back as the same variable for every index, different variables have different texts, getvar/setvar of a text act on the variable it writes, and setpar does not mistake it for a number. A text that writes no variable raises an error and changes nothing.", "quantifier": "all texts, variables, indices, engine states", "why_tests_cant": "unbounded set of texts and indices", "anchors": ["src/diffpy/pdffit2/pdffit.py: PdfFit.__getRef, PdfFit.lat, PdfFit.x, PdfFit.setpar, PdfFit.setvar, PdfFit.getvar", "src/extensions/pdffit2module/misc.cc: pypdffit2_getvar, pypdffit2_setvar", "src/extensions/pdffit2module/bindings.cc: pypdffit2_methods"]}
{"id": "C60", "title": "The calculated PDF does not depend on how a crystal is described", "statement": "The same crystal may be described with any origin, any image of each atom (modulo the period of the structure), any order of the atoms, and a cell, or a number of cells, that is repeated any number of times along the edges with the atoms repeated accordingly. The calculated PDF is the same for all descriptions at every grid point, and it is a number for one exactly when it is for the other.", "quantifier": "all structures, numbers of repetitions, images, origins, permutations, selections, data sets, and other phases", "why_tests_cant": "infinitely many descriptions of one crystal; lattice sums with unbounded translations", "anchors": ["src/extensions/libpdffit2/pdf.cc: DataSet::determine, Phase::circum_diameter, Phase::setup_weights, Phase::averageScatteringFactor", "src/extensions/libpdffit2/metric.cc: Phase::lattice", "src/extensions/libpdffit2/PointsInSphere.cc: PointsInSphere"]}
{"id": "C61", "title": "Messages arrive where they are redirected to", "statement": "After redirect_stdout(f) every message of the engine and of the Python layer goes to f, complete and in order, including the messages of refine_step, which are collected while the interpreter lock is released; after restore_stdout they go to the standard output. An object without write and flush is refused and nothing changes. The engine holds exactly one reference to the current file and none to earlier ones, and never uses a deleted buffer. The calls of several threads do not interfere.", "quantifier": "all sequences of calls and messages, all files, all interleavings of threads", "why_tests_cant": "unbounded sequences of redirections and messages; all interleavings of threads", "anchors": ["src/diffpy/pdffit2/output.py: redirect_stdout, restore_stdout", "src/extensions/pdffit2module/misc.cc: pypdffit2_redirect_stdout, pypdffit2_restore_stdout, RefineStepHelper, pypdffit2_refine_step", "src/extensions/pdffit2module/PyFileStreambuf.h: PyFileStreambuf"]}
{"id": "C62", "title": "The refinement uses the true derivatives of the calculated curve", "statement": "The matrix fit_b = fit_a * dvdp that the least-squares step uses holds, for every grid point and every free parameter, the derivative of the calculated curve with respect to this parameter, all other parameters kept: evaluation of the constraints, wrapping of the variables, lattice, calculation of the PDF, and the sum over all variables that share the parameter. Hence beta of mrqcof is -1/2 of the gradient of the weighted sum of squares.", "quantifier": "all histories of setpar and constrain calls, all formulas, all structures, data sets and parameter values", "why_tests_cant": "real-valued parameters and formulas of unbounded size; finite differences only approximate a derivative at single points", "anchors": ["src/extensions/libpdffit2/fit.cc: Fit::refine_step, mrqcof, fit_theory, fill_variables", "src/extensions/libpdffit2/pdf.cc: DataSet::determine, pdf_derivative", "src/extensions/libpdffit2/Parser.cc: Fit::parse"]}
{"id": "C63", "title": "The calculation stays inside the range of int", "statement": "The grid indices, the number of grid points, the lattice indices of the sphere sequencer and the frequency limits of the Qmax filter are C int. For a grid, a Qmax and unit cells of stated sizes no conversion or addition leaves the range of int, and the calculated curve is the one obtained with unbounded integers.", "quantifier": "all data sets, all lists of selected phases, all structures within the stated sizes; for the violations all structures and all data sets beyond them", "why_tests_cant": "A test fixes one size. Overflow in a double to int conversion is undefined behaviour that shows up only for particular combinations of Qmax, range, step and cell shape, and can silently give a wrong curve.", "anchors": ["src/extensions/libpdffit2/pdf.cc:106-145", "src/extensions/libpdffit2/pdf.cc:154-413", "src/extensions/libpdffit2/pdf.cc:821-845", "src/extensions/libpdffit2/PointsInSphere.cc:33-210", "src/extensions/libpdffit2/MathUtils.h:47-50"]}
{"id": "C64", "title": "A results report can be read back", "statement": "From the text of the section of a phase and of the list of parameters in a results report, every value is recovered to 6 significant digits (relative error at most half a unit of the sixth digit, with its sign), every standard deviation larger than 1e-8 of the value to 2 digits, and every atom with its symbol; nothing runs together, whatever the magnitudes.", "quantifier": "all values (positive, negative, zero, infinite, not a number), all standard deviations, all phases with any number of atoms, all lists of parameters", "why_tests_cant": "A test compares a few numbers. The choice between fixed and scientific notation, the carry to one more digit, the dropped zeros, column overflow and missing standard deviations depend on every magnitude.", "anchors": ["src/extensions/libpdffit2/StringUtils.cc:28-58", "src/extensions/libpdffit2/output.cc:37-116", "src/extensions/libpdffit2/output.cc:252-286", "src/diffpy/pdffit2/pdffit.py:31-46"]}
{"id": "C65", "title": "The listed correlations are those of the refinement", "statement": "The correlations in a results report are, for each pair of refined parameters, the entry of the covariance matrix divided by the root of the product of the two variances; exactly the pairs above 0.8 in magnitude are listed, each once and in order of the parameter numbers, and every listed value lies strictly between -1 and 1.", "quantifier": "all theories with non-negative weights, all data, all numbers of parameters, all fixed and free parameters, all orders in which the parameters were defined, all refinements that finish, all changes of values and flags afterwards", "why_tests_cant": "A test looks at one report. That no pair is missed, doubled or listed with an impossible value depends on the matrix left by every refinement and on the moment at which the report is made.", "anchors": ["src/extensions/libpdffit2/output.cc:297-320", "src/extensions/libpdffit2/output.cc:326-345", "src/extensions/libpdffit2/pdf.cc:918-944", "src/extensions/libpdffit2/pdflsmin.cc:84-171"]}
{"id": "C66", "title": "A refinement does not depend on how the fit is described", "statement": "Two fits that describe the same problem give the same refinement: same outcome or exception, same number of steps, same variables, same calculated curve, same Rw, and parameter values and covariances that correspond. The descriptions may differ in the order in which the parameters were defined with setpar, in the units and zero points of the parameters, in the way in which the constraints are written (number or formula text), and in a common factor of all weights; with that factor the covariances become smaller by it.", "quantifier": "all structures and data behind the constraints, all numbers of constraints, formula texts and parameters, all fixed and free parameters, all orders of setpar, all scales (not zero) and offsets of the parameters, all positive factors of the weights, all tolerances, all numbers of steps; for rewritten formulas: formulas that have a value for all parameter values; exact arithmetic", "why_tests_cant": "A test compares two descriptions of one fit. The result depends on every step of the minimiser: damping, acceptance, packing of the free parameters, stopping rule; a rule that depends on an order or a unit can leave one example unchanged.", "anchors": ["src/extensions/libpdffit2/pdflsmin.cc:84-171", "src/extensions/libpdffit2/pdflsmin.cc:180-330", "src/extensions/libpdffit2/fit.cc:40-170", "src/extensions/libpdffit2/fit.cc:558", "src/extensions/libpdffit2/fit.cc:627-701", "src/extensions/libpdffit2/parser.cc:32-120"]}
{"id": "C67", "title": "A refinement that starts at the best fit stays there", "statement": "When refine() starts from parameter values at which the gradient of chi-square with respect to the free parameters is zero, in particular when the calculated curves equal the data at every point with a weight, and the points determine the free parameters, it ends normally after the smallest possible number of steps, the parameters are exactly those of the start, the constrained variables have the values that the constraints prescribe there, and Rw is that of the start (zero for a perfect model).", "quantifier": "all structures, data, constraints and numbers of parameters, all fixed and free parameters, all starting values with zero gradient, all tolerances >= 0, all states left by earlier refinements that ended; exact arithmetic", "why_tests_cant": "Tests start refinements away from the minimum and compare with rounded reference values. Whether a step of size zero is taken, rejected and counted depends on the order of the comparisons in the minimiser and the stopping rule, for every number of parameters.", "anchors": ["src/extensions/libpdffit2/pdflsmin.cc:84-171", "src/extensions/libpdffit2/pdflsmin.cc:175-299", "src/extensions/libpdffit2/fit.cc:54-146", "src/extensions/libpdffit2/fit.cc:303-342", "src/extensions/libpdffit2/fit.cc:627-701"]}
{"id": "C68", "title": "The calculated curve at a point does not depend on the range it is calculated for", "statement": "Without a Qmax cutoff (qmax = 0), calc() for a data set after pdfrange(iset, lo, hi) and after pdfrange(iset, lo', hi') gives the same calculated value at every grid point that lies in both ranges.", "quantifier": "all data sets with qmax = 0 and a grid starting at r >= 0, all pairs of accepted fit ranges, all lists of phases and atom selections, all structures and shape/step-cut settings for which both curves are numbers", "why_tests_cant": "Whether a pair of atoms is dropped depends on its distance from the end of the range, its peak width and the grid step; a comparison of a few ranges on one narrow-peaked structure agrees, while structures with broad peaks differ only near the ends of the ranges.", "anchors": ["src/extensions/libpdffit2/pdf.cc:154-413 (DataSet::determine)", "src/extensions/libpdffit2/pdf.cc:815-846 (DataSet::extendCalculationRange)", "src/extensions/libpdffit2/pdf.cc:1640-1652 (DataSet::range)"]}
{"id": "C69", "title": "The bonds and angles shown are those that were found", "statement": "The text printed by blen(a1, a2, lb, ub) gives back the two symbols, the boundaries and, in the order returned by bond_length_types, the atoms, length and standard deviation (to the printed digits) of every bond, and says that no pairs were found exactly when there are none. blen(i, j) and bang(i, j, k) give back the atoms with the value and deviation of bond_length_atoms and bond_angle. Atoms or atom types that do not exist raise ValueError, and without a structure unassignedError is raised, before anything is printed. An atom type given by its index from 1 is the same as its symbol.", "quantifier": "all structures, all pairs of symbols or indices of types, all boundaries, all integer atom indices, all values including infinities and NaN", "why_tests_cant": "The layout depends on the lengths of symbols and indices and on the printed numbers, and indices run over all integers; tests look at single lines of one structure and never at indices outside of the list.", "anchors": ["src/diffpy/pdffit2/pdffit.py:34-65 (_format_value_std, _format_bond_length)", "src/diffpy/pdffit2/pdffit.py:812-833 (bang)", "src/diffpy/pdffit2/pdffit.py:850-914 (blen)", "src/extensions/pdffit2module/misc.cc:1373-1440 (pypdffit2_bond_length_types)", "src/extensions/libpdffit2/stru.cc:645-807 (bond_angle, bond_length_atoms, bond_length_types)"]}
{"id": "C70", "title": "The data set section of a report says what was used", "statement": "The section that save_res writes for a data set gives back the number and name of the data set, the data, calculated and refinement ranges and the step to six digits, the points of the fit, reduced chi squared and Rw, the radiation, Qmax, Qdamp, Qbroad and the scale factor with their standard deviations or that they are not applied, the selected phases with the atoms of both ends, and the relative phase contents. Where it says that a setting is not applied, the calculated PDF is the one without that setting, and where it shows a value the setting is positive; the same holds for the particle diameter and step cutoff in the section of a phase.", "quantifier": "all data sets with any number of phases, all names without line breaks, all values including infinities and NaN; for the settings all structures, selections and finite settings", "why_tests_cant": "No test reads the section back, and whether a setting that is not applied has an influence has to be compared for all structures; tests use positive settings or zero.", "anchors": ["src/extensions/libpdffit2/output.cc:162-243 (DataSet::output)", "src/extensions/libpdffit2/output.cc:48-56 (Phase::output)", "src/extensions/libpdffit2/pdf.cc:154-413 (DataSet::determine)", "src/diffpy/pdffit2/pdffit.py:405-424 (save_res, save_res_string)"]}
{"id": "C71", "title": "Between the peaks the calculated PDF is the base line", "statement": "Without termination ripples, at every grid point that is further than five peak widths and half a step from all distances between selected atoms, the calculated PDF is -4 pi r rho0 times the data scale, the phase scale, the share of the selected pairs in the scattering and the damping and shape envelopes, summed over the selected phases. With all atoms selected the share is one; this holds in particular in front of the first peak. With scattering factors, occupancies and scales that are not negative the curve is nowhere below this base line.", "quantifier": "all structures, selections, numbers of phases and data settings with Qmax 0 for which the calculation gives numbers, all grid points", "why_tests_cant": "Tests compare single curves with stored ones. A wrong base line of a partial PDF with partial occupancies looks like any other smooth line, and the claim is about all structures and points.", "anchors": ["src/extensions/libpdffit2/pdf.cc:85-380 (DataSet::determine)", "src/extensions/libpdffit2/pdf.cc:211-227 (share of the selected pairs)", "src/extensions/libpdffit2/pdf.cc:327-337 (peak amplitude and range)", "src/diffpy/pdffit2/pdffit.py:331-336 (calc)"]}
{"id": "C72", "title": "The PDF depends on the occupancies of sites, not on how they are divided among atoms", "statement": "Two structures with the same cell and settings whose atoms occupy the same sites (position, displacement parameters, element, selection) give the same calculated PDF when for each site the occupancies of the atoms add up to the same: splitting a site into partially occupied copies, adding or removing atoms of occupancy zero and changing the order of atoms has no influence. If one gives numbers, so does the other one when sites are only split.", "quantifier": "all structures with any number of atoms, any division of the occupancies, all ranges, Qmax, damping, broadening, shape settings and other phases", "why_tests_cant": "Tests use one description of each structure. The claim compares all descriptions, and the scattering factors for which it fails are rare.", "anchors": ["src/extensions/libpdffit2/pdf.cc:194-390 (DataSet::determine)", "src/extensions/libpdffit2/pdf.cc:211-227 (share of the selected pairs)", "src/extensions/libpdffit2/pdf.cc:790-813 (averageScatteringFactor, setup_weights)", "src/extensions/libpdffit2/metric.cc:164-173 (np, rho0)"]}
{"id": "C73", "title": "A fit in which the curve is linear in the parameters ends at the least-squares solution", "statement": "When the calculated curve depends linearly on the free parameters (scale factors, or parameters of such factors) and the data determine them, one refine() started afresh ends normally after 5 to 101 calls of refine_step, leaves the fixed parameters alone, and ends at values whose chi-square exceeds the smallest possible one by at most a factor (prod_j l_j/(l_j+mu))^2 of the excess at the start, where l_j = 10^-(3+j) is the damping of step j and mu > 0 measures how independent the parameters are. With one free parameter its distance from the least-squares value shrinks by 10^18 or more. getrw(), the stored curve and the variables are those of the values found.", "quantifier": "all starting values, numbers of parameters, data sets, weights and tolerances, all models that are linear in the free parameters", "why_tests_cant": "Tests start a few fits and compare with stored values within a tolerance; the claim is about all starting values and all data, and about the stopping rule, which does not look at the distance from the minimum.", "anchors": ["src/extensions/libpdffit2/pdflsmin.cc:36-171 (mrqmin)", "src/extensions/libpdffit2/pdflsmin.cc:175-299 (mrqcof)", "src/extensions/libpdffit2/fit.cc:54-146 (refine_step)", "src/diffpy/pdffit2/pdffit.py:317-334 (refine)"]}
{"id": "C74", "title": "Refining scale factors of phases finds the least-squares mix of the phases", "statement": "Scale factors of phases are constrained to linear functions of parameters (a parameter itself, one minus a parameter, a linear formula, shared by several phases or not), nothing else is constrained, the calculated PDF is a number at the start and different values of the free parameters give different PDFs. Then one refine() of the whole program (constraints, PDF of all phases and data sets, its derivatives, normal equations, damping, stopping rule) ends normally after 5 to 101 steps. Afterwards the variables are those prescribed by the constraints, chi-square is that of the PDF calculated from them and exceeds the chi-square of any other choice of the free parameters by at most a fraction 10^-36/mu^8 of the chi-square at the start; a single free parameter comes 10^18 times closer to its best value. No property of the PDF calculation is assumed.", "quantifier": "all structures, data sets, selections of atoms, fit ranges, termination at Qmax or not, weights, numbers of phases and parameters, starting values, histories of calls without replaced constraints", "why_tests_cant": "The tests fit a few stored data sets; that the derivatives, the constraints, the normal equations and the damping fit together for every mix of phases is a statement about the composition of all parts.", "anchors": ["src/extensions/libpdffit2/fit.cc:303-342 (fit_theory)", "src/extensions/libpdffit2/pdf.cc:154-413 (determine)", "src/extensions/libpdffit2/pdflsmin.cc:36-299 (mrqmin, mrqcof)", "src/extensions/libpdffit2/fit.cc:174-300 (fit_setup)", "src/diffpy/pdffit2/pdffit.py:317-334 (refine)"]}
{"id": "C75", "title": "The reported fit is that of the PDF of the refined structure", "statement": "Any variables of phases, atoms and data sets are constrained (each at most once) to formulas of parameters or to parameters. Whenever refine() returns, getvar of every variable is what the constraints prescribe at the reported getpar (coordinates wrapped into the supercell, unconstrained variables as they were), the PDF of that structure exists, getpdf_fit is this PDF on the grid of the fit range, and getrw is its weighted residual, not larger than the residual of the PDF of the structure at the start. The same holds for getrw and getpar after every call of refine_step that returns 'not finished', and getrw never grows from call to call. No property of the PDF calculation is assumed, and failing evaluations within the refinement are included.", "quantifier": "all structures, data sets, selections of atoms, fit ranges, constraints and formulas, fixed and free parameters, histories of calls without replaced constraints, numbers of steps", "why_tests_cant": "Tests compare final numbers of a few fits with stored values; rejected trial steps, failing evaluations and fixed parameters that could leave variables, curve and residual at different parameter values are hit only by chance.", "anchors": ["src/extensions/libpdffit2/fit.cc:54-169 (refine_step)", "src/extensions/libpdffit2/fit.cc:303-342 (fit_theory)", "src/extensions/libpdffit2/pdflsmin.cc:36-299 (mrqmin, mrqcof)", "src/extensions/libpdffit2/pdf.cc:154-413 (determine)", "src/diffpy/pdffit2/pdffit.py:317-334 (refine)"]}
{"id": "C76", "title": "Steps of refine() go downhill, and refine() stops only where chi-square is stationary", "statement": "Chi-square of the PDF calculated from the structure is a function of the refined parameters. When a call of refine_step changes the parameters, chi-square is lower at the new ones, and where the calculation is smooth its derivative along the line from the old to the new parameters exists and is negative. At smooth parameters where chi-square is not stationary a trial point is taken as soon as the damping is large enough. When refine() returns the parameters with which it was called, chi-square is stationary there.", "quantifier": "all structures, data sets, constraints, formulas, free and fixed parameters, tolerances, histories of calls without replaced constraints, numbers of steps; in the counterexample any number of repeated calls of refine()", "why_tests_cant": "Tests start close to the minimum, where the first trial point is taken. That the search direction is downhill is a statement on derivatives of the whole calculation, and a refinement that gives up at a bad starting value looks like a successful one: no exception, finished, five steps.", "anchors": ["src/extensions/libpdffit2/fit.cc:54-169 (refine_step)", "src/extensions/libpdffit2/pdflsmin.cc:36-299 (mrqmin, mrqcof)", "src/extensions/libpdffit2/fit.cc:303-342 (fit_theory)", "src/diffpy/pdffit2/pdffit.py:317-334 (refine)"]}
{"id": "C77", "title": "read_data_lists takes lists of numbers and nothing else", "statement": "For any Python objects passed as r_data, Gr_data and dGr_data the call read_data_lists returns exactly when r_data and Gr_data are non-empty lists of numbers of the same length, dGr_data is None or such a list, and r_data is equidistant; it then adds one data set. For all other objects it raises an exception, leaves the engine as it was and keeps no memory.", "quantifier": "all engine states, all objects as arguments, all lists of numbers and of other objects", "why_tests_cant": "Tests pass lists of floats. The behaviour for the unbounded variety of wrong objects (tuples, arrays, lists with None or strings in them) depends on error conventions of the Python C interface that are invisible in the results of correct calls.", "anchors": ["src/diffpy/pdffit2/pdffit.py:243-262 (read_data_lists)", "src/extensions/pdffit2module/misc.cc:57-67 (double_array_from_pylist)", "src/extensions/pdffit2module/misc.cc:213-275 (read_data_arrays)", "src/extensions/libpdffit2/pdf.cc:1294-1317, 1392-1453 (read_data_arrays)"]}
{"id": "C78", "title": "Calls do not leak the objects they make", "statement": "When the caller of a function of the extension module gives up the result, every object the call has made is freed, and every object that was there before has the reference count and the contents it had. This holds for any sequence of calls, so that the memory in use does not grow with the number of calls.", "quantifier": "all functions of the module, all numbers of items in the result (points, atoms, pairs, phases), all heaps with correct reference counts, all sequences of calls", "why_tests_cant": "A leaked object has no effect on results; a test would have to count the objects of the interpreter, for every function and size.", "anchors": ["src/extensions/pdffit2module/misc.cc:834-1022 (getcrw, getR, getpdf_fit, getpdf_obs, getpdf_diff)", "src/extensions/pdffit2module/misc.cc:1320-1440 (bond_angle, bond_length_atoms, bond_length_types)", "src/extensions/pdffit2module/misc.cc:2011-2170 (get_atoms, get_atom_types, phase_fractions)", "src/extensions/pdffit2module/bindings.cc (methods)", "src/extensions/libpdffit2/pdffit.cc:329-355 (getPhaseFractions)"]}
{"id": "C79", "title": "calc() calculates the PDF of the structure that the constraints prescribe and changes nothing else", "statement": "When calc() returns, every constrained variable has the value of its constraint at the current parameters, every other variable, all parameters, constraints, data and getrw() are as before, and getpdf_fit() of every data set is the PDF calculated from these values over its fit range. A second calc() changes nothing; the result does not depend on what was calculated or refined before; calc() after a finished refine() keeps all variables and the calculated curve. A calc() that cannot be done raises an exception and leaves all variables unchanged.", "quantifier": "all structures, data sets, settings, parameters, constraints and all states of previous calculations; all refinements that return", "why_tests_cant": "Tests calculate a few structures once; that nothing of earlier calculations remains, and that nothing else is changed, concerns all variables and all histories.", "anchors": ["src/extensions/libpdffit2/fit.cc:288-342 (calc, fit_theory)", "src/extensions/libpdffit2/fit.cc:627-701 (fill_variables)", "src/extensions/pdffit2module/misc.cc:347-370 (calc)", "src/extensions/libpdffit2/pdf.cc:154-413 (determine)", "src/diffpy/pdffit2/pdffit.py (calc)"]}
{"id": "C80", "title": "getrw() and getcrw() are those of the curve that is shown", "statement": "After a calc() or refine() that returns, getrw() is the weighted residual of the curves that getpdf_fit() shows against getpdf_obs(), and getcrw() of every data set has one value for each point of getR(), with the sums of the squared differences up to that point normalised by the same norm as getrw().", "quantifier": "all structures, data sets, parameters and constraints; all sequences of setpar, setvar, constrain, fixpar/freepar, pdfrange, read_data and calc after a refinement or without one", "why_tests_cant": "A test compares numbers for the data at hand; that no sequence of calls changes or refreshes the figures concerns all sequences, and the violations need particular orders of calls.", "anchors": ["src/extensions/libpdffit2/pdffit.h:283-286 (getrw)", "src/extensions/libpdffit2/pdf.cc:1124-1149 (getcrw, weighedSquareObs)", "src/extensions/libpdffit2/fit.cc:288-342 (calc, fit_theory)", "src/extensions/libpdffit2/pdflsmin.cc:261-294 (cumchisq)", "src/extensions/libpdffit2/pdf.cc:1640-1652 (range)", "src/extensions/pdffit2module/misc.cc:830-947 (getcrw, getrw, getR, getpdf_fit)"]}
{"id": "C81", "title": "NaN in the data or the model does not go unnoticed in a refinement", "statement": "If the observed value or the weight of a fitted point is NaN (as read_data_lists accepts), or a derivative of the calculated curve is, then refine() raises an exception and getpar() of every parameter is as before; refine() always ends, and never stores parameters for which the weighted sum of squares is NaN.", "quantifier": "all models of the curve (any number of parameters, free or fixed, constraints, data sets and points), all positions of the NaNs, all states of the object and the module before the call, all tolerances", "why_tests_cant": "Comparisons with NaN are all false, so the search for pivots, the acceptance of trials and the count of iterations without progress take paths that no test with numbers reaches; which of them raises depends on where the NaN is.", "anchors": ["src/extensions/libpdffit2/gaussj.cc:31-112 (gaussj)", "src/extensions/libpdffit2/pdflsmin.cc:36-327 (mrqmin, mrqcof, covsrt)", "src/extensions/libpdffit2/fit.cc:40-146 (refine, refine_step)", "src/extensions/libpdffit2/matrix.h:165-187 (operator*)", "src/extensions/libpdffit2/pdf.cc:1371-1453 (isRegular, read_data_arrays)", "src/extensions/libpdffit2/nrutil.cc:37-60 (ivector)"]}
{"id": "C82", "title": "The guarantees of a refinement hold in floating-point arithmetic", "statement": "Whatever the rounding of the machine: refine() ends after at most 101 steps; a refinement that starts afresh finishes or raises and never accesses memory out of bounds; getpar() of a fixed parameter is unchanged afterwards, whether it finished or raised; and when it finishes, the weighted sum of squares is the one of the stored parameters and not above the one at the start, and getrw() is not above the one at the start.", "quantifier": "all arithmetics (for the end: any operations and comparisons whatever; for the rest: all in which the damping factor stays positive, among them IEEE doubles with any monotone rounding and with fused operations), all models of the curve, parameters, tolerances and states before the call", "why_tests_cant": "Tests see the rounding of one compiler and processor; the sums, the damping factor and the test for stagnation are compared after rounding, on paths that differ between platforms.", "anchors": ["src/extensions/libpdffit2/gaussj.cc:31-112 (gaussj)", "src/extensions/libpdffit2/pdflsmin.cc:36-327 (mrqmin, mrqcof, covsrt)", "src/extensions/libpdffit2/fit.cc:40-146 (refine, refine_step)", "src/diffpy/pdffit2/pdffit.py:317-334 (refine)"]}
{"id": "C83", "title": "A fit whose parameters are not determined by the data is reported", "statement": "If some combination of the free parameters has no influence on the fitted points, refine() raises calculationError and reports no uncertainties; if the fitted points determine the free parameters, it does not raise it. This does not depend on how the machine rounds.", "quantifier": "all models of the curve, weights, parameter values, states before the call and roundings", "why_tests_cant": "A test tries few matrices; whether the pivot of a singular matrix cancels to exactly zero depends on the last bit of its entries (for entries all g: on one rounding).", "anchors": ["src/extensions/libpdffit2/gaussj.cc:31-112 (gaussj)", "src/extensions/libpdffit2/pdflsmin.cc:36-171 (mrqmin)", "src/extensions/libpdffit2/fit.cc:54-146 (refine_step)"]}
{"id": "C84", "title": "stru_files and data_files name the loaded structures and data sets in their order", "statement": "After any sequence of calls on a new PdfFit object, stru_files has num_phases() items and item k is the name given when phase k+1 was loaded (file name, or tag; default tag of add_structure); data_files has num_datasets() items and item k is the name given when data set k+1 was loaded. A call that raises leaves both lists and both numbers as they are; reset() empties them.", "quantifier": "all sequences of calls, all names, all structures and data, raising calls included", "why_tests_cant": "Tests look at one object after one call; positions go wrong only by combinations of loading calls, failures and resets, of which there are unboundedly many.", "anchors": ["src/diffpy/pdffit2/pdffit.py:166-301 (add_structure, read_struct, read_struct_string, read_data, read_data_string, read_data_lists, reset, alloc)", "src/extensions/libpdffit2/pdf.cc:46-104, 1286-1370 (alloc, PdfFit::read_data*)", "src/extensions/libpdffit2/stru.cc:128-169 (PdfFit::read_struct*)"]}
{"id": "C85", "title": "The lists of atoms and elements show the loaded structures", "statement": "get_atoms(ip) returns, in the order of the file, the upper-case symbol of the element of every atom of phase ip; get_atom_types(ip) returns each of these symbols once, in the order of the first atoms; both do so after any sequence of set_scat, reset_scat and other calls. Without ip they are those of the current phase, whose number of atoms is num_atoms(). An index that is not between 1 and num_phases() raises unassignedError. Every symbol in the lists can be given back to functions that take an element and stands for the same element; different elements and isotopes have different symbols. get_scat_string(stype) lists the elements as get_atom_types() does, each with the value of get_scat.", "quantifier": "all sequences of calls, all labels of atoms in the table of elements in every capitalisation, all indices, all scattering factors", "why_tests_cant": "A test tries a few structures; that symbols stay distinct in upper case and are found again holds for all entries of the table, and that the lists are unaffected by changes of the table concerns all sequences of calls.", "anchors": ["src/extensions/libpdffit2/stru.cc:186-227, 396-417 (Phase::read_struct_stream, read_atoms, reassign_atom_type)", "src/extensions/libpdffit2/pdf.cc:1195-1204 (getphase)", "src/extensions/pdffit2module/misc.cc:1443-1471, 2004-2086 (get_scat_string, get_atoms, num_atoms, get_atom_types)", "src/extensions/libpdffit2/scatlen.cc:36-72 (get_scat_string)"]}
{"id": "C86", "title": "The points of a data set are right in double arithmetic", "statement": "With all numbers rounded as doubles: for any data set with at least two points and rmin < rmax, and after any sequence of pdfrange, calculations and changes of qmax, the fitted points are points of the data set, the calculation covers them and touches no element outside its arrays; with a positive qmax it goes beyond the fitted range by 12 pi / qmax on both sides, as far as there are data below. After a calculation over the whole range getR() has as many points as the data. The fitted limits are the grid points nearest to those of pdfrange, within 51% of a step. getR() is strictly increasing. pdfrange with two values from getR() is accepted and selects exactly the points between them. Before any calculation getR() has as many points as the data.", "quantifier": "all limits that are doubles, all numbers of points up to 2^31, all sequences of calls, all peaks", "why_tests_cant": "Whether a quotient of rounded numbers falls on the wrong side of an integer depends on the last bits of the limits and the number of points; tests with round numbers see only a few of these cases, and memory errors need not show.", "anchors": ["src/extensions/libpdffit2/pdf.cc:76-82, 167-168, 331-344, 822-838, 1434-1437, 1565-1570, 1640-1652 (alloc, determine, extendCalculationRange, read_data, range)", "src/extensions/libpdffit2/MathUtils.h:47-50 (nint)", "src/extensions/pdffit2module/misc.cc:876-923 (getR)"]}
{"id": "C87", "title": "Arguments that are not finite numbers are rejected", "statement": "alloc, pdfrange, the angles of a cell and the limits of bond_length_types given as NaN or as an infinite number raise an exception and change nothing; whatever was accepted, the next calculation has defined behaviour. NaN in the position or the width of a peak does not make the calculation leave its arrays.", "quantifier": "all arguments that are finite numbers, infinite or NaN, in every combination; all numbers of points; all cells and lines of lattice points", "why_tests_cant": "The checks are comparisons, which are false for NaN; a test would have to try each argument with each special value, and a conversion of NaN to int gives some number on every machine without failing visibly.", "anchors": ["src/extensions/libpdffit2/pdf.cc:49-82, 107-135, 166-168, 331-339, 822-838, 1640-1652 (alloc, applyQmaxCutoff, determine, extendCalculationRange, range)", "src/extensions/libpdffit2/metric.cc:40-60 (Phase::lattice)", "src/extensions/libpdffit2/stru.cc:758-812 (bond_length_types)", "src/extensions/libpdffit2/PointsInSphere.cc:100-176", "src/extensions/libpdffit2/MathUtils.h:47-50 (nint)"]}
{"id": "C88", "title": "The angle of a bond is a number also after rounding", "statement": "For three different atoms at different positions bond_angle(i, j, k) computed in double arithmetic is a number in [0, 180] whose cosine differs from the exact one only by a small multiple of the machine precision, with a finite standard deviation that is not negative, also when the three atoms are in a straight line; bond_angle(k, j, i) is the same number. Wrong atom indices raise ValueError.", "quantifier": "all structures with doubles as cell parameters, positions and deviations; all atom indices; all values of cosd and sind in the library", "why_tests_cant": "Whether the quotient that should be -1 or 1 is rounded outward depends on the last bits of the lattice parameter and of the positions; with most values it is not, and tests of bent bonds never see it.", "anchors": ["src/extensions/libpdffit2/stru.cc:604-697 (Phase::make_nearest, Phase::bond_angle)", "src/extensions/libpdffit2/metric.cc:246-339 (tensor, dtensor, skalpro, dskalpro)", "src/extensions/libpdffit2/MathUtils.h:28-29, 88 (rad, double_eps, acosd)"]}
{"id": "C89", "title": "No periodic image is lost or counted twice because of rounding", "statement": "In double arithmetic the search of periodic images behind bond_length_types and the PDF always ends, visits no lattice point twice, and reaches every periodic image of an atom whose distance lies in the requested range.", "quantifier": "all cells, ranges and atom positions within one unit cell; all values of the constants that have small relative errors; every operation rounded", "why_tests_cant": "Whether a point at the edge of the search sphere is reached depends on the last bits of the cell edge and of the radius; tests sample few cells and cannot show that the extension of the radius is larger than every rounding error.", "anchors": ["src/extensions/libpdffit2/PointsInSphere.cc:100-192 (init, rewind, next_o, next_n, next_m)", "src/extensions/libpdffit2/stru.cc:740-805 (Phase::bond_length_types)", "src/extensions/libpdffit2/pdf.cc:850-875 (Phase::circum_diameter)"]}
{"id": "C90", "title": "The names and directions of the cell axes do not matter", "statement": "Describing the same structure with the cell edges in another order, or with some axes reversed, changes neither the calculated PDF, nor the cell volume, nor the distances listed by bond_length_types, nor the results of bond_length_atoms and bond_angle with their standard deviations.", "quantifier": "all cells, atoms, displacement parameters, data sets and fit ranges; all permutations of the axes and all choices of directions", "why_tests_cant": "The description of a structure is a free choice of the user; tests compare with stored results for one description, and the search of lattice points and the reduction of bond vectors treat the three axes differently.", "anchors": ["src/extensions/libpdffit2/pdf.cc:154-413 (DataSet::determine)", "src/extensions/libpdffit2/pdf.cc:846-909 (Phase::circum_diameter, DataSet::msdAtoms)", "src/extensions/libpdffit2/stru.cc:604-807 (make_nearest, bond_angle, bond_length_atoms, bond_length_types)", "src/extensions/libpdffit2/metric.cc:36-339 (lattice, tensor, dtensor, skalpro, dskalpro)"]}
{"id": "C91", "title": "The calculated PDF does not depend on the choice of the unit cell", "statement": "Describing the same crystal with another unit cell (a primitive cell, a centred cell, a supercell, or any other basis of the lattice, with the atoms and displacement tensors transformed accordingly) changes neither the calculated PDF nor the number density; the cell with all its repetitions has a volume and a number of atoms that are multiplied by the absolute determinant of the change of the basis.", "quantifier": "all pairs of cells related by an integer matrix, all atoms, displacement parameters, origins, images, selections, data sets and fit ranges", "why_tests_cant": "There are infinitely many cells of a crystal; tests compare with stored results for one of them. The search of lattice points, the circumscribed diameter, the normalisation and the half loop over pairs all work differently in each cell.", "anchors": ["src/extensions/libpdffit2/pdf.cc:154-413 (DataSet::determine)", "src/extensions/libpdffit2/pdf.cc:846-909 (Phase::circum_diameter, DataSet::msdAtoms)", "src/extensions/libpdffit2/PointsInSphere.cc:37-140 (PointsInSphere)", "src/extensions/libpdffit2/metric.cc:36-180 (Phase::lattice, setup)"]}
{"id": "C92", "title": "The calculated PDF is that of the infinite crystal", "statement": "The curve calculated by calc() or refine() is, at every point of the range, the sum over all pairs of atoms of the infinite periodic crystal of complete Gaussian peaks, up to the parts of peaks that are more than five standard deviations from their centres; every neglected part is below exp(-25/2) of the height of its peak, and with positive scattering lengths the calculated curve is not above the exact one.", "quantifier": "all structures, cells, displacement parameters, width corrections, selections, ranges, steps and points of the range; infinite sums over the lattice", "why_tests_cant": "The exact curve is an infinite sum; tests compare with curves calculated by the same program with the same truncations, and cannot see a pair of atoms that is missed.", "anchors": ["src/extensions/libpdffit2/pdf.cc:154-413 (DataSet::determine)", "src/extensions/libpdffit2/pdf.cc:846-875 (Phase::circum_diameter)", "src/extensions/libpdffit2/PointsInSphere.cc:37-140 (PointsInSphere)"]}
{"id": "C93", "title": "The calculation does not depend on the unit of length", "statement": "When a structure and a data set are given in another unit of length (cell edges, delta1, rcut, stepcut, spdiameter and r multiplied by l, displacement parameters and delta2 by l^2, Qmax, Qdamp and Qbroad divided by l), every point of the PDF calculated by calc() is the former one divided by l^2.", "quantifier": "all units l > 0, structures with any number of phases, selections, peak-width corrections, cutoffs, ranges and points", "why_tests_cant": "Tests use structures in Å only; constants with a hidden unit (0.1 Å, 1 Å) in the calculation are not visible with usual structures.", "anchors": ["src/extensions/libpdffit2/pdf.cc:154-413 (DataSet::determine)", "src/extensions/libpdffit2/pdf.cc:173-175 (range of the search)", "src/extensions/libpdffit2/pdf.cc:821-843 (DataSet::extendCalculationRange)"]}
{"id": "C94", "title": "The messages printed by refine() tell the course of the refinement", "statement": "A completed refine() prints the data sets with their phases, then messages numbered 0, 1, ..., n without gap (0 is the starting point, n + 1 calls of refine_step are made, 3 <= n <= 100), then the final figures, which are those of the final state. Each message lists exactly the free parameters in the order of their numbers. The chi-square never increases from one message to the next, also as printed; \"stagnating\" is printed exactly for improvements within the tolerance, and n is the first number from 3 on with three of them in a row, or 100. The text can be read back: every number, flag, parameter and figure is recovered to the printed digits, and a parameter keeps its leading digits.", "quantifier": "all numbers of parameters, data sets, phases and iterations, all theories, tolerances and values (also infinite ones and nan)", "why_tests_cant": "The layout depends on the number of parameters modulo four and on a stream flag that stays set between outputs; tests do not look at printed messages.", "anchors": ["src/extensions/libpdffit2/fit.cc:40-145 (refine, refine_step)", "src/extensions/libpdffit2/fit.cc:149-169 (Fit::out)", "src/extensions/libpdffit2/pdflsmin.cc:109-113 (message of the first evaluation)"]}
{"id": "C95", "title": "The description of the cell printed by read_struct() can be read back and describes the cell", "statement": "After reading a structure the number and title of the phase, the lattice parameters, the volume, the number density, the metric tensor and the same for the reciprocal cell are printed. The text can be read back: each value is recovered to six digits and each standard deviation to two digits where it exceeds 1e-8 of the value. In the printed numbers, the metric tensor times the reciprocal metric tensor is the identity, volume times reciprocal volume is one, and volume times number density is the number of atoms per cell, up to the printed digits.", "quantifier": "all values of the printed quantities, all titles of one line, all accepted cells", "why_tests_cant": "Tests do not look at the printed description; the identity has to hold for all cells.", "anchors": ["src/extensions/libpdffit2/metric.cc:181-242 (show_lattice)", "src/extensions/libpdffit2/metric.cc:36-179 (lattice)", "src/extensions/libpdffit2/stru.cc:144,167 (calls)"]}
{"id": "C96", "title": "The order in which data sets were read does not matter for a refinement", "statement": "Two sessions contain the same phases, data sets, parameters, constraints and values of all variables, but their data sets were read in different orders. Then refine() returns in the one exactly when it returns in the other; it takes the same number of steps and leaves the same parameters, variables, chi-square, Rw and covariances, and for each data set the same calculated PDF.", "quantifier": "all structures, data sets, orders of the data sets, constraints (at most one per variable), parameters and states before the call", "why_tests_cant": "Tests fit one or two data sets in one order. The numbers of data sets enter the offsets of the variables, the columns of the derivatives and the sums over all points; a mistake would show only for particular orders and constraints.", "anchors": ["src/extensions/libpdffit2/fit.cc:174-285 (fit_setup)", "src/extensions/libpdffit2/fit.cc:303-342 (fit_theory)", "src/extensions/libpdffit2/fit.cc:361-560 (fit_setup_derivatives)", "src/extensions/libpdffit2/pdflsmin.cc:244-297 (mrqcof)", "src/extensions/libpdffit2/pdf.cc:154-413 (determine)"]}
{"id": "C97", "title": "The order in which structures were read does not matter for a refinement", "statement": "Two sessions contain the same phases, data sets, parameters, constraints and values of all variables, but their structures were read in different orders. Then refine() returns in the one exactly when it returns in the other; it takes the same number of steps and leaves the same parameters, variables, chi-square, Rw and covariances, and for each data set the same calculated PDF.", "quantifier": "all structures, data sets, orders of the phases, constraints (at most one per variable), parameters and states before the call", "why_tests_cant": "Tests fit one phase, or two phases in one order. The numbers of the phases enter the offsets of the variables, the columns of the derivatives and the factors left over from the loop over the phases.", "anchors": ["src/extensions/libpdffit2/fit.cc:174-285 (fit_setup)", "src/extensions/libpdffit2/fit.cc:303-342 (fit_theory)", "src/extensions/libpdffit2/fit.cc:361-560 (fit_setup_derivatives)", "src/extensions/libpdffit2/pdf.cc:154-413 (determine)", "src/extensions/libpdffit2/pdf.cc:416-720 (pdf_derivative)"]}
{"id": "C98", "title": "A saved curve can be read as data", "statement": "After a calculation, the text returned by save_pdf() or save_dif() can be given to read_data_string(). It is accepted; the new data set has one point for each point of the fit range, its values are those of getpdf_fit() (getpdf_diff()) rounded to six digits, and its range and step are those of the fit range.", "quantifier": "all data sets, fit ranges, calculated and observed values, positive weights", "why_tests_cant": "Tests write no curve and read it again. Whether the rounded r values pass the test for a regular grid depends on the range and the step, and only ties far from the origin fail.", "anchors": ["src/extensions/libpdffit2/pdf.cc:971-1088 (save_pdf, build_pdf_file, save_dif, build_dif_file)", "src/extensions/libpdffit2/pdf.cc:1371-1384 (isRegular)", "src/extensions/libpdffit2/pdf.cc:1455-1581 (read_data_stream)", "src/extensions/libpdffit2/MathUtils.h:31 (deltar_tol)"]}
{"id": "C99", "title": "A saved structure has the same PDF", "statement": "Structures are saved by save_struct_string() and read by read_struct_string() in a new session. With the same data set and selections, calc() then gives the same PDF, provided that no number of a structure has more digits than are printed.", "quantifier": "all lists of structures that have been read, data sets, ranges, selections, scattering factors", "why_tests_cant": "Tests compare the text of a saved structure with a file, not the curves calculated before and after. That the members which are not saved have no influence on the curve is a statement about all structures.", "anchors": ["src/extensions/libpdffit2/stru.cc:187-417 (read_struct_stream, read_header, read_atoms)", "src/extensions/libpdffit2/stru.cc:432-586 (save_struct)", "src/extensions/libpdffit2/pdf.cc:154-413 (determine)", "src/extensions/libpdffit2/Atom.cc:80-101 (operator>>)"]}
{"id": "C100", "title": "The plots of the interactive session show the fit", "statement": "In the IPython session, pdf.showfit() draws getpdf_obs(), getpdf_fit() and getpdf_diff() over getR(), the difference shifted by an integer so that it lies below both other curves, by no more than necessary; with an offset it is shifted by that offset. pdf.showRw() draws getcrw() over getR() with its last value, the Rw of the data set, in the title.", "quantifier": "all data sets, fit ranges, histories of calculations and values", "why_tests_cant": "The plots are not tested. Whether the lists have equal lengths depends on the history of ranges and calculations, and whether the curves overlap on all values.", "anchors": ["src/diffpy/pdffit2/ipy_ext.py:24-96 (EasyPDFPlotting)", "src/extensions/pdffit2module/misc.cc:872-1020 (getR, getpdf_fit, getpdf_obs, getpdf_diff)", "src/extensions/libpdffit2/pdf.cc:1124-1138 (getcrw)"]}
{"id": "C101", "title": "Data outside the fit range have no influence", "statement": "After pdfrange(), the refinement depends on the points of the data in the fit range only. Other values or errors of points before or after the range, or further points after its end, give the same refinement in every respect: the same parameters, uncertainties, covariances and residuals. Points before the range can be left out of the data set without any change of the calculated PDF in the range.", "quantifier": "all structures, data sets, fit ranges, constraints, starting values and tolerances, any number of points left out", "why_tests_cant": "Tests compare a few refinements; an array that is read or normalised outside the range, or a grid that depends on the first point of the data, shows only for particular data.", "anchors": ["src/extensions/libpdffit2/pdf.cc:154-413 (DataSet::determine)", "src/extensions/libpdffit2/pdf.cc:1640-1652 (DataSet::range)", "src/extensions/libpdffit2/pdflsmin.cc:262-300 (mrqcof)", "src/extensions/libpdffit2/fit.cc:300-341 (fit_theory)"]}
{"id": "C102", "title": "The peaks of the PDF are at the bond lengths", "statement": "bond_length_types(A, B, lb, ub) and the calculated PDF of the pairs A-B describe the same distances. A point of getpdf_fit() that is further than five peak widths and half a step from all listed lengths is on the base line. A point within five peak widths of a listed length is above the base line if scattering lengths, occupancies and scales are positive.", "quantifier": "all structures and supercells, any number of phases, all selections of atoms, limits of the list and points of the grid", "why_tests_cant": "Both results come from separate loops over atoms and translations with separate limits of the search; tests compare each of them with a few known numbers, never with one another, so that a pair missed by one of them only in some cell or range goes unnoticed.", "anchors": ["src/extensions/libpdffit2/stru.cc:757-807 (Phase::bond_length_types)", "src/extensions/libpdffit2/pdf.cc:154-413 (DataSet::determine)", "src/extensions/libpdffit2/pdf.cc:850-875 (Phase::circum_diameter)"]}
{"id": "C103", "title": "bond_length_atoms and bond_length_types agree", "statement": "The bond returned by bond_length_atoms(i, j) is an entry of bond_length_types(A, B, lb, ub), with the same length, standard deviation and atoms, if the atoms are of these types and the length is between lb and ub. No entry with the same two atoms is shorter.", "quantifier": "all structures and supercells, all pairs of atoms, all elements and limits", "why_tests_cant": "The two functions search the nearest image in different ways; tests compare each with known lengths in simple cells, where the coordinates of the atoms differ by less than half a cell.", "anchors": ["src/extensions/libpdffit2/stru.cc:604-651 (Phase::make_nearest)", "src/extensions/libpdffit2/stru.cc:711-744 (Phase::bond_length_atoms)", "src/extensions/libpdffit2/stru.cc:757-807 (Phase::bond_length_types)"]}
{"id": "C104", "title": "Bond angles fit to the bond lengths", "statement": "bond_angle(i, j, k), bond_length_atoms(j, i) and bond_length_atoms(j, k) belong to one triangle: by the law of cosines the third side is a distance of the atoms i and k up to translations of the supercell. bond_length_types() lists it with these atoms if it is between the limits.", "quantifier": "all structures, cells and supercells, all triples of different atoms for which the angle is a number", "why_tests_cant": "Angles and lengths are calculated by separate functions, each with its own choice of periodic images; tests compare angles with known values in a few cells, where no images have to be chosen.", "anchors": ["src/extensions/libpdffit2/stru.cc:645-697 (Phase::bond_angle)", "src/extensions/libpdffit2/stru.cc:711-744 (Phase::bond_length_atoms)", "src/extensions/libpdffit2/stru.cc:604-643 (Phase::make_nearest)"]}
{"id": "C105", "title": "Lists of bonds for different elements and limits agree", "statement": "bond_length_types(A, B, lb, ub) has the same bonds, with the same lengths and standard deviations, as the part of a list for more atoms and wider limits that belongs to atoms A and B and is within lb and ub. bond_length_types(B, A, lb, ub) has the bonds of bond_length_types(A, B, lb, ub) with exchanged atoms.", "quantifier": "all structures, cells and supercells, all elements (or ALL) and limits", "why_tests_cant": "The lattice points to visit are chosen from both limits and the size of the cell, so each call visits different points; tests look at single lists.", "anchors": ["src/extensions/libpdffit2/stru.cc:757-807 (Phase::bond_length_types)", "src/extensions/libpdffit2/PointsInSphere.cc:80-192 (PointsInSphere)"]}
{"id": "C106", "title": "Phases that are not selected have no influence on the calculated curve", "statement": "After calc() the curve of a data set depends on its own settings and on the phases selected for it by selphase(). It does not depend on the number of other phases, on their structure, or on the values that constraints prescribe for them; nor do they decide whether calc() returns.", "quantifier": "all objects, numbers of phases and data sets, selections, structures, constraints and parameters, and any change of the phases that are not selected", "why_tests_cant": "Every calculation goes through all phases, refreshes their cells and wraps their atoms before it looks at the selection. Tests use one or two phases and compare few values.", "anchors": ["src/extensions/libpdffit2/pdf.cc:154-413 (DataSet::determine)", "src/extensions/libpdffit2/fit.cc:288-342 (PdfFit::calc, fit_theory)", "src/extensions/libpdffit2/pdf.cc:1090-1120 (PdfFit::selphase)", "src/extensions/libpdffit2/metric.cc:36-60 (Phase::lattice)"]}
{"id": "C107", "title": "A common factor of the occupancies of a phase is a factor of its PDF", "statement": "When the occupancies of all atoms of a phase are multiplied by the same number, its part of the PDF is multiplied by this number. So after calc() the curves are the same when in addition pscale of the phase is divided by it.", "quantifier": "all structures, selections of phases and atoms, data sets, constraints and parameters, and all factors other than zero, one for each phase", "why_tests_cant": "Occupancies enter in the height of each peak, the number density, the mean scattering factor and the normalisation; tests use occupancy 1 nearly everywhere.", "anchors": ["src/extensions/libpdffit2/pdf.cc:154-413 (DataSet::determine)", "src/extensions/libpdffit2/pdf.cc:790-813 (averageScatteringFactor, setup_weights)", "src/extensions/libpdffit2/metric.cc:160-173 (np, rho0)"]}
{"id": "C108", "title": "The release date is looked up once and the import does not depend on the network", "statement": "A release date noted in the installed package is what every import gives as __date__, whatever the network does, and the import changes nothing. A date obtained from the network is noted, and all later imports give the same date. An import of the package does not fail because of the network.", "quantifier": "all texts of the package file, replies of the network, failures of reading and writing, and all sequences of imports", "why_tests_cant": "Replies that are cut off, read-only installations and full disks do not occur where the tests are run, and the outcome depends on earlier imports.", "anchors": ["src/diffpy/pdffit2/version.py:24-57 (get_pypi_release_date)", "src/diffpy/pdffit2/__init__.py:26", "src/diffpy/pdffit2/pdffit.py:147-162 (intro)"]}
{"id": "C109", "title": "The banner of intro() is a box of 78 columns with version and date", "statement": "Each line printed by intro() has 78 characters and begins and ends with a star, whatever the version and the date of the package are. The second line shows the version, the third one the date, followed by blanks up to the star.", "quantifier": "all versions and dates", "why_tests_cant": "The tests see one version, that of the installed package, and look only for words in the text.", "anchors": ["src/diffpy/pdffit2/pdffit.py:84-100 (__intro_message__)", "src/diffpy/pdffit2/pdffit.py:147-162 (PdfFit.intro)"]}
{"id": "C110", "title": "_exportAll binds the public methods and leaves other names alone", "statement": "After _exportAll(namespace) every public method of the object is available by its name and the constants ALL, USER, IDENT, FCOMP, FSQR, X, N are strings with their own names; after a second object has been exported all of them belong to it. Other names of the namespace keep their values. The exported stru_files and data_files are the lists of the object at any later time.", "quantifier": "all namespaces, objects and later sequences of read and reset calls", "why_tests_cant": "There are 81 methods and any number of names in a script; whether a list is shared is seen only when the object is changed after the export.", "anchors": ["src/diffpy/pdffit2/pdffit.py:119-145 (PdfFit._exportAll)", "src/diffpy/pdffit2/pdffit.py:274-279 (PdfFit.reset)", "src/diffpy/pdffit2/pdffit.py:1272-1274 (PdfFit.__init__)"]}
