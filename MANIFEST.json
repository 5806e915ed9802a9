{
 "claims": [
  {
   "property": "C01",
   "status": "proved",
   "theorems": [
    "Blitzdg.Sparse.C01_history",
    "Blitzdg.Sparse.C01_throws_only_when_exhausted",
    "Blitzdg.Sparse.C01_expand"
   ],
   "note": ""
  },
  {
   "property": "C02",
   "status": "proved",
   "theorems": [
    "Blitzdg.Sparse.C02_amortised",
    "Blitzdg.Sparse.C02_accepts"
   ],
   "note": ""
  },
  {
   "property": "C03",
   "status": "proved",
   "theorems": [
    "Blitzdg.Sparse.C03_dense",
    "Blitzdg.Sparse.C03_positions",
    "Blitzdg.Sparse.C03_empty",
    "Blitzdg.Sparse.C03_value"
   ],
   "note": ""
  },
  {
   "property": "C04",
   "status": "proved",
   "theorems": [
    "Blitzdg.Sparse.C04_triplet",
    "Blitzdg.Sparse.C04_triplet_size",
    "Blitzdg.Sparse.C04_negative",
    "Blitzdg.Sparse.C04_dense",
    "Blitzdg.Sparse.C04_dense_value"
   ],
   "note": ""
  },
  {
   "property": "C05",
   "status": "proved",
   "theorems": [
    "Blitzdg.Sparse.C05_removeDuplicates",
    "Blitzdg.Sparse.C05_nnz"
   ],
   "note": ""
  },
  {
   "property": "C06",
   "status": "partial",
   "theorems": [
    "Blitzdg.Sparse.C06_prune",
    "Blitzdg.Sparse.C06_prune_zero",
    "Blitzdg.Sparse.C06_nnz_partial",
    "Blitzdg.Sparse.C06_nnz_wrong_when_empty"
   ],
   "note": "nnz() is 1 instead of 0 when nothing survives (refuted by C06_nnz_wrong_when_empty); everything else proved"
  },
  {
   "property": "C07",
   "status": "proved",
   "theorems": [
    "Blitzdg.Sparse.C07_transpose",
    "Blitzdg.Sparse.C07_involution"
   ],
   "note": ""
  },
  {
   "property": "C08",
   "status": "proved",
   "theorems": [
    "Blitzdg.Sparse.C08_multiply",
    "Blitzdg.Sparse.C08_mismatch"
   ],
   "note": ""
  },
  {
   "property": "C09",
   "status": "partial",
   "theorems": [
    "Blitzdg.Sparse.C09_copy_partial",
    "Blitzdg.Sparse.C09_copy_overflow",
    "Blitzdg.Sparse.C09_witness",
    "Blitzdg.Sparse.C09_copy_empty_shape",
    "Blitzdg.Sparse.C09_copy_wrap_partial"
   ],
   "note": "copy is undefined for dimensions whose product overflows int and loses the shape of empty matrices (both refuted); proved otherwise"
  },
  {
   "property": "C10",
   "status": "proved",
   "theorems": [
    "Blitzdg.Blitz.C10_flatten",
    "Blitzdg.Blitz.C10_flatten_ub",
    "Blitzdg.Blitz.C10_unflatten",
    "Blitzdg.Blitz.C10_roundtrip_matrix",
    "Blitzdg.Blitz.C10_roundtrip_array"
   ],
   "note": ""
  },
  {
   "property": "C100",
   "status": "proved",
   "theorems": [
    "Blitzdg.Poisson.C100_consistent",
    "Blitzdg.Poisson.C100_exact",
    "Blitzdg.Poisson.C100_neumann"
   ],
   "note": "Exact arithmetic; triangles; LAPACK solves as contract. Consistency holds for any tags."
  },
  {
   "property": "C101",
   "status": "proved",
   "theorems": [
    "Blitzdg.Poisson.C101_numbering",
    "Blitzdg.Poisson.square_separated",
    "Blitzdg.Poisson.square_numbering"
   ],
   "note": "nodeNumbers = allNodes + uniquetol(1e-9). Separation of the nodes relative to the largest coordinate is a hypothesis (a mesh far from the origin compared with its size violates it). Witness: unit square."
  },
  {
   "property": "C102",
   "status": "partial",
   "theorems": [
    "Blitzdg.Poisson.C102_forms",
    "Blitzdg.Poisson.C102_continuous",
    "Blitzdg.Poisson.C102_symmetric",
    "Blitzdg.Poisson.C102_mass",
    "Blitzdg.Poisson.C102_leading_block",
    "Blitzdg.Poisson.C102_padding_singular"
   ],
   "note": "Meaning, continuity, symmetry, definite mass matrix and invertible leading block proved. Invertibility of the whole bordered matrix is false: C102_padding_singular (operator is dimensioned with Np*K, not gather.size())."
  },
  {
   "property": "C103",
   "status": "partial",
   "theorems": [
    "Blitzdg.Poisson.C103_forms_partial",
    "Blitzdg.Poisson.C103_constants_refuted",
    "Blitzdg.Poisson.C103_square",
    "Blitzdg.Poisson.not_tooSmall",
    "Blitzdg.Poisson.C103_faces"
   ],
   "note": "Returns exactly unless a face is degenerate to 10 eps (characterised); MM proved to be the cubature of products; OP proved to be the cubature of grad U . grad V when all faces are walls/Neuman. C103_faces gives v^T OP u in full for all piecewise polynomials and all tags (volume cubature plus an explicit term per face, with the deviations from the interior penalty form spelled out). Refuted: with an interior face and no Dirichlet face the entries of OP sum to a negative number, so constants are not annihilated and energy is negative (witness: square of two triangles)."
  },
  {
   "property": "C104",
   "status": "partial",
   "theorems": [
    "Blitzdg.Poisson.C104_python",
    "Blitzdg.Poisson.C104_cpp_swapped",
    "Blitzdg.Poisson.C104_getOP_refuted"
   ],
   "note": "Proved for Python. Refuted for C++: getOP() stands for the mass matrix and getMM() for the operator."
  },
  {
   "property": "C105",
   "status": "partial",
   "theorems": [
    "Blitzdg.Drivers.C105_form",
    "Blitzdg.Drivers.C105_consistent",
    "Blitzdg.Drivers.C105_not_symmetric",
    "Blitzdg.Drivers.C105_indefinite"
   ],
   "note": "C105_form: what the operator computes, for all vectors and all test vectors. C105_consistent: consistency. Symmetry and definiteness are false because the surface term lacks Fscale: C105_not_symmetric (all orders >= 2, element width other than 2), C105_indefinite (element width at most 2/3, which includes the driver's parameters)."
  },
  {
   "property": "C106",
   "status": "partial",
   "theorems": [
    "Blitzdg.Poisson2D.C106_total",
    "Blitzdg.Poisson2D.C106_consistent",
    "Blitzdg.Poisson2D.C106_units",
    "Blitzdg.Poisson2D.C106_exact_solution"
   ],
   "note": "Proved: memory safety, throwing exactly without walls, consistency for every mesh, order and polynomial. Refuted: scaling with the unit of length (face terms lack Fscale, penalty proportional to an area; fails for all scale factors but at most one on every mesh with a wall); the driver's uexact has Laplacian twice the right-hand side."
  },
  {
   "property": "C107",
   "status": "partial",
   "theorems": [
    "Blitzdg.Ins2D.C107_reads",
    "Blitzdg.Ins2D.C107_total",
    "Blitzdg.Ins2D.C107_missing",
    "Blitzdg.Ins2D.C107_start",
    "Blitzdg.Ins2D.C107_blank_line",
    "Blitzdg.Ins2D.C107_equal_signs"
   ],
   "note": "Reading, totality, missing values and start-up are proved for every file. Refuted: a line of blanks makes the file unreadable, a value with one '=' is refused and with two is cut."
  },
  {
   "property": "C108",
   "status": "partial",
   "theorems": [
    "Blitzdg.Poisson.C108_quadrilaterals",
    "Blitzdg.Poisson.C108_order_zero",
    "Blitzdg.Poisson.C108_oversized"
   ],
   "note": "For triangles the operator is built (C98, C60). Refuted for quadrilaterals of every order, for order zero, and for boundary data larger than the grid (buffer overrun)."
  },
  {
   "property": "C109",
   "status": "partial",
   "theorems": [
    "Blitzdg.Ins2D.C109_memory",
    "Blitzdg.Ins2D.C109_rest",
    "Blitzdg.Ins2D.C109_advection",
    "Blitzdg.Ins2D.C109_rates",
    "Blitzdg.Ins2D.C109_walls",
    "Blitzdg.Ins2D.C109_step",
    "Blitzdg.Ins2D.C109_courant_false",
    "Blitzdg.Ins2D.C109_initial",
    "Blitzdg.Ins2D.C109_clock"
   ],
   "note": "The rates are proved in closed form for every state (advection, kinetic energy, weight, Lax-Friedrichs corrections) and the density rates do not depend on memory contents. Refuted: velocity rates take any value depending on uninitialised memory, fluid at rest falls, walls have no effect, the step grows with the propagation rate, the clock is off by the difference of last and first step."
  },
  {
   "property": "C11",
   "status": "proved",
   "theorems": [
    "Blitzdg.Blitz.C11_select",
    "Blitzdg.Blitz.C11_out_of_range"
   ],
   "note": ""
  },
  {
   "property": "C110",
   "status": "partial",
   "theorems": [
    "Blitzdg.Heat.C110_scheme",
    "Blitzdg.Heat.C110_stable",
    "Blitzdg.Heat.C110_conserves",
    "Blitzdg.Heat.C110_limit",
    "Blitzdg.Heat.C110_limit_any",
    "Blitzdg.Heat.C110_steady_false",
    "Blitzdg.Heat.C110_written",
    "Blitzdg.Heat.C110_scaled",
    "Blitzdg.Heat.C110_step"
   ],
   "note": "Scheme, unconditional stability, conservation, step size and scaling of the output proved for all grids and data. Refuted: the boundary contribution is not multiplied by kappa*dt, so the temperature tends to the steady state divided by kappa*dt (C110_limit, C110_limit_any, C110_steady_false); from the zero state the fields written, which are scaled to maximum one, are nevertheless those of the right scheme (C110_written) and tend to the steady state scaled to maximum one (C110_limit_any). splu is a contract."
  },
  {
   "property": "C111",
   "status": "partial",
   "theorems": [
    "Blitzdg.Curved.C111_values",
    "Blitzdg.Curved.C111_inverse",
    "Blitzdg.Curved.C111_interp",
    "Blitzdg.Curved.C111_repeated",
    "Blitzdg.Curved.C111_many",
    "Blitzdg.Curved.C111_few",
    "Blitzdg.Curved.Orthonormal.unique"
   ],
   "note": "Values, inverse and interpolation are proved for every list of points; the orthonormal polynomials are characterised (and proved unique) by degree, orthonormality and sign. Repeated points and too many points raise. The claim fails for fewer points than columns: the inverse then overruns a buffer (C111_few)."
  },
  {
   "property": "C112",
   "status": "partial",
   "theorems": [
    "Blitzdg.Curved.C112_result",
    "Blitzdg.Curved.C112_order",
    "Blitzdg.Curved.C112_again",
    "Blitzdg.Curved.C112_empty",
    "Blitzdg.Curved.C112_collapse"
   ],
   "note": "Proved in closed form for every mesh, every list of faces and every non-empty curve (C112_result), with independence of the order and idempotence; an empty curve raises. Refuted for 'leaves edges edges': two ends with the same nearest sample are moved to one point (C112_collapse)."
  },
  {
   "property": "C113",
   "status": "partial",
   "theorems": [
    "Blitzdg.Curved.C113_no_effect",
    "Blitzdg.Curved.C113_refuted",
    "Blitzdg.Curved.C113_dropped_partial",
    "Blitzdg.Curved.placed"
   ],
   "note": "Refuted: the coordinates returned are always those of the context, since the arrays the loop adds to are fresh copies that are dropped (C113_no_effect; concrete run C113_refuted). Proved for every order, element, face and curve: the dropped arrays do hold the intended coordinates when the curve passes through the end nodes of the face (C113_dropped_partial); nodes of the provisioner meet its hypotheses (placed)."
  },
  {
   "property": "C114",
   "status": "partial",
   "theorems": [
    "Blitzdg.SW.C114_agree",
    "Blitzdg.SW.C114_total",
    "Blitzdg.SW.C114_constant",
    "Blitzdg.SW.C114_rest",
    "Blitzdg.SW.C114_slope_false",
    "Blitzdg.SW.C114_no_wall",
    "Blitzdg.SW.C114_index"
   ],
   "note": "Missing: still water over a sloping bed is refuted by C114_slope_false (linear elements, unit slope, square of two triangles). Drag acts with the sign of the code, which in the y equation is wrong (C52_python_wrong). Exact real arithmetic, dry states excluded."
  },
  {
   "property": "C115",
   "status": "proved",
   "theorems": [
    "Blitzdg.SW.C115_weak",
    "Blitzdg.SW.C115_total",
    "Blitzdg.SW.C115_constant",
    "Blitzdg.SW.C115_rest",
    "Blitzdg.SW.C115_no_wall",
    "Blitzdg.SW.C115_index",
    "Blitzdg.SW.C115_setup",
    "Blitzdg.SW.C115_curved",
    "Blitzdg.SW.C115_curved_range"
   ],
   "note": "Grids with straight sides (C113: the deformation of elements has no effect on the contexts). solve_triangular of SciPy is a contract, shown satisfiable by exactTri. The setup theorem derives the hypotheses from the provisioner's own calls; with exact arithmetic the cubature context can only be built when it has as many points as nodes (C93)."
  },
  {
   "property": "C116",
   "status": "partial",
   "theorems": [
    "Blitzdg.SW.C116_unique",
    "Blitzdg.SW.C116_channel",
    "Blitzdg.SW.C116_setup",
    "Blitzdg.SW.C116_total",
    "Blitzdg.SW.C116_unmatched",
    "Blitzdg.SW.C116_no_open",
    "Blitzdg.SW.C116_repeated_false",
    "Blitzdg.SW.C116_corner_false",
    "Blitzdg.SW.channel_weak",
    "Blitzdg.SW.C116_choice"
   ],
   "note": "Proved for distinct points with unique partners and for the Gauss points, which the right-hand side uses. Refuted for repeated points and, at corners, for the nodal arrays."
  },
  {
   "property": "C117",
   "status": "proved",
   "theorems": [
    "Blitzdg.SW.C117_table",
    "Blitzdg.SW.C117_channel",
    "Blitzdg.SW.C117_index",
    "Blitzdg.SW.C117_interior_false"
   ],
   "note": "Outside channels interior faces on the two lines are tagged as well (C117_interior_false)."
  },
  {
   "property": "C118",
   "status": "partial",
   "theorems": [
    "Blitzdg.SW.C118_clock",
    "Blitzdg.SW.C118_bounded",
    "Blitzdg.SW.C118_pass",
    "Blitzdg.SW.C118_total",
    "Blitzdg.SW.C118_constant",
    "Blitzdg.SW.C118_dt",
    "Blitzdg.SW.C118_dt_shallow",
    "Blitzdg.SW.C118_dt_false",
    "Blitzdg.SW.C118_ends",
    "Blitzdg.SW.C118_returns"
   ],
   "note": "Clock, totals, concentration, outcomes and end of the loop proved for every run. The Courant condition with the local wave speed holds where the water is no deeper than the mean depth at rest and is refuted where it is deeper (C118_dt_false). The model has exact reals and no NaN."
  },
  {
   "property": "C119",
   "status": "partial",
   "theorems": [
    "Blitzdg.SW.C119_same",
    "Blitzdg.SW.C119_run",
    "Blitzdg.SW.C119_files",
    "Blitzdg.SW.C119_short_false",
    "Blitzdg.SW.C119_total",
    "Blitzdg.SW.C119_constant",
    "Blitzdg.SW.C119_rest",
    "Blitzdg.SW.C119_dt"
   ],
   "note": "Proved for every run that takes at least as many steps as outputs are wanted; shorter runs raise (C119_short_false). The Courant condition is proved for the initial state only: the driver does not adapt its step."
  },
  {
   "property": "C12",
   "status": "partial",
   "theorems": [
    "Blitzdg.Blitz.C12_computes_transpose",
    "Blitzdg.Blitz.C12_kron_partial",
    "Blitzdg.Blitz.C12_wrong_value",
    "Blitzdg.Blitz.C12_nonsquare_ub",
    "Blitzdg.Blitz.C12_empty"
   ],
   "note": "kron is correct for square A up to exchanging the block indices: it computes kron(A^T,B); refuted by C12_wrong_value and C12_nonsquare_ub"
  },
  {
   "property": "C120",
   "status": "proved",
   "theorems": [
    "Blitzdg.SW.C120_value",
    "Blitzdg.SW.C120_no_wall",
    "Blitzdg.SW.C120_range",
    "Blitzdg.SW.C120_effect"
   ],
   "note": ""
  },
  {
   "property": "C121",
   "status": "proved",
   "theorems": [
    "Blitzdg.SW.C121_error",
    "Blitzdg.SW.C121_passes",
    "Blitzdg.SW.C121_sw2d",
    "Blitzdg.Midpoint.convergence"
   ],
   "note": "C121_error covers both drivers for rates that are Lipschitz near the solution; for sw2d.py C121_sw2d proves that they are and gives the order without further hypotheses on the rates."
  },
  {
   "property": "C122",
   "status": "proved",
   "theorems": [
    "Blitzdg.Drivers.C122_error",
    "Blitzdg.Drivers.C122_rate",
    "Blitzdg.Drivers.C122_degenerate"
   ],
   "note": "Exact arithmetic. C122_error: bound with explicit dependence, for all orders, grids, speeds, times, profiles; C122_rate: orders in time and space for a profile vanishing at the inflow end. The bound on the Courant number is not computed, so the program's own 0.8 is not shown to be below it; the program's own profile is e^-10 at the inflow end, covered by the term with g."
  },
  {
   "property": "C123",
   "status": "proved",
   "theorems": [
    "Blitzdg.Drivers.C123_arrays",
    "Blitzdg.Drivers.C123_rhs",
    "Blitzdg.Drivers.C123_error",
    "Blitzdg.Drivers.C123_index"
   ],
   "note": "Exact arithmetic; NumPy operations by contract (Fortran-order flatten and reshape, index arrays, dot). C123_error has the restriction of C122 on the Courant number."
  },
  {
   "property": "C124",
   "status": "proved",
   "theorems": [
    "Blitzdg.Heat.C124_weak",
    "Blitzdg.Heat.C124_exact",
    "Blitzdg.Heat.C124_constant",
    "Blitzdg.Heat.C124_constant_refuted"
   ],
   "note": "Contract for splu; script line 24 modelled with the four-argument constructor (no border). C124_constant_refuted disproves invariance under constants."
  },
  {
   "property": "C125",
   "status": "proved",
   "theorems": [
    "Blitzdg.Quads.C125_mass",
    "Blitzdg.Quads.C125_total",
    "Blitzdg.Quads.C125_steady",
    "Blitzdg.Quads.C125_steady_run",
    "Blitzdg.Quads.C125_no_wall",
    "Blitzdg.Quads.C125_schedule",
    "Blitzdg.Quads.C125_bounded",
    "Blitzdg.Quads.C125_frozen",
    "Blitzdg.Quads.C125_mass_refuted"
   ],
   "note": "Real arithmetic. C125_mass_refuted disproves conservation on general quadrilaterals; C125_frozen shows the defect of the filter. Contracts: LAPACK (eigenvalues, inversion)."
  },
  {
   "property": "C126",
   "status": "partial",
   "theorems": [
    "Blitzdg.SW.C126_values",
    "Blitzdg.SW.C126_bounds",
    "Blitzdg.SW.C126_rest",
    "Blitzdg.SW.C126_flat",
    "Blitzdg.SW.C126_lengths",
    "Blitzdg.SW.C126_argument_refuted",
    "Blitzdg.SW.C126_sides_refuted"
   ],
   "note": "Values, bounds, rest and continuity are proved for all arrays. Two clauses of the property fail and are refuted: the caller's etaP is overwritten in place, and exchanging the two sides of a face gives a different depth (1 instead of 1e-3)."
  },
  {
   "property": "C127",
   "status": "partial",
   "theorems": [
    "Blitzdg.Mesh.C127_tags_ignored",
    "Blitzdg.Mesh.C127_walls_only",
    "Blitzdg.Mesh.C127_outflow_lost",
    "Blitzdg.Mesh.C127_edges",
    "Blitzdg.Mesh.C127_edges_small",
    "Blitzdg.Mesh.C127_edges_interior",
    "Blitzdg.Mesh.C127_edges_quads"
   ],
   "note": "The claim fails: readMesh never looks at line elements or tags, so two files with the same nodes and the same faces give the same object (C127_tags_ignored) and every boundary face is a wall (C127_walls_only, C127_outflow_lost). The function written for the purpose is never called; what it would compute is proved (C127_edges) with three refutations: interior faces on the line of a line element are tagged, every face is tagged when the mesh is small, and quadrilaterals are read out of bounds."
  },
  {
   "property": "C128",
   "status": "partial",
   "theorems": [
    "Blitzdg.Time.C128_rounding",
    "Blitzdg.Time.C128_monotone",
    "Blitzdg.Time.C128_ends",
    "Blitzdg.Time.C128_off_by_one",
    "Blitzdg.Time.C128_exact",
    "Blitzdg.Time.C128_advec",
    "Blitzdg.Time.C128_planned_refuted",
    "Blitzdg.Time.C128_never_ends"
   ],
   "note": "Proved: rounding error bound and monotonicity, termination with explicit bounds on the number of passes, the final clock and its error whenever the step exceeds the rounding error, planned number of passes up to one for constant steps, agreement with C75 without rounding. Refuted: exactly the planned number (doubles, step 0.1, final time 1: eleven passes instead of ten), and termination for steps below half a unit in the last place of the clock."
  },
  {
   "property": "C129",
   "status": "proved",
   "theorems": [
    "Blitzdg.Blitz.C129_uniquetol",
    "Blitzdg.Blitz.C129_matlab",
    "Blitzdg.Blitz.variance_eq"
   ],
   "note": "Exact arithmetic; std::sort is any function that sorts (IsSort). variance_eq shows that the running update computes the sum of squared deviations."
  },
  {
   "property": "C13",
   "status": "partial",
   "theorems": [
    "Blitzdg.Blitz.C13_unique_partial",
    "Blitzdg.Blitz.C13_empty_wrong"
   ],
   "note": "proved for matrices with at least one row; for zero rows the claim is false (C13_empty_wrong)"
  },
  {
   "property": "C130",
   "status": "proved",
   "theorems": [
    "Blitzdg.Csv.C130_arguments",
    "Blitzdg.Csv.C130_row",
    "Blitzdg.Csv.C130_crlf",
    "Blitzdg.Csv.C130_blank"
   ],
   "note": "Read errors of the stream (badbit) are not modelled."
  },
  {
   "property": "C131",
   "status": "partial",
   "theorems": [
    "Blitzdg.Mesh.C131_cut_partial",
    "Blitzdg.Mesh.C131_format_missing",
    "Blitzdg.Mesh.C131_count_missing",
    "Blitzdg.Mesh.C131_count_missing_reused",
    "Blitzdg.Mesh.C131_nodes_cut",
    "Blitzdg.Mesh.C131_after_nodes",
    "Blitzdg.Mesh.C131_after_marker",
    "Blitzdg.Mesh.C131_rows_cut",
    "Blitzdg.Mesh.C131_rows_repeated",
    "Blitzdg.Mesh.C131_cut_accepted"
   ],
   "note": "False as stated: cut behind the line $Elements, or among the element rows without final newline, the file is accepted (C131_after_marker, C131_rows_repeated, C131_cut_accepted); elsewhere the outcome is an exception or undefined behaviour as C131_cut_partial says."
  },
  {
   "property": "C132",
   "status": "partial",
   "theorems": [
    "Blitzdg.Py.C132_doubles_partial",
    "Blitzdg.Py.C132_int64",
    "Blitzdg.Py.C132_int32",
    "Blitzdg.Py.C132_int64_wrong",
    "Blitzdg.Py.C132_sign",
    "Blitzdg.Py.C132_negative"
   ],
   "note": "Proved for contiguous arrays of doubles; false for integer arrays (all vertex numbers become 0, or the array is read past its end)."
  },
  {
   "property": "C133",
   "status": "partial",
   "theorems": [
    "Blitzdg.Output.C133_exe",
    "Blitzdg.Output.C133_long",
    "Blitzdg.Output.C133_root_partial",
    "Blitzdg.Output.C133_root_windows",
    "Blitzdg.Output.C133_input_partial",
    "Blitzdg.Output.C133_other",
    "Blitzdg.Output.C133_dot_exe",
    "Blitzdg.Output.C133_backslash",
    "Blitzdg.Output.C133_driver",
    "Blitzdg.Output.C133_top",
    "Blitzdg.Output.C133_blanks"
   ],
   "note": "Proved for every tree path of at most 1024 bytes without '.exe' or backslashes (C133_root_partial, C133_input_partial). The full claim is false: longer paths overflow the buffer (C133_long), a path with '.exe' or a backslash gives another root (C133_dot_exe, C133_backslash), and programs other than the tests get an empty root, joining which is undefined (C133_other, C133_driver, C133_top)."
  },
  {
   "property": "C134",
   "status": "partial",
   "theorems": [
    "Blitzdg.Output.C134_last_partial",
    "Blitzdg.Output.C134_others",
    "Blitzdg.Output.C134_readback",
    "Blitzdg.Output.C134_dict",
    "Blitzdg.Output.C134_collision",
    "Blitzdg.Output.C134_silent"
   ],
   "note": "Proved for all histories whose counters have at most seven digits. The full claim is false: beyond, two fields can name one file (C134_collision), and a file that cannot be opened is silently not written (C134_silent)."
  },
  {
   "property": "C135",
   "status": "partial",
   "theorems": [
    "Blitzdg.Output.C135_tri",
    "Blitzdg.Output.C135_tri_built",
    "Blitzdg.Output.C135_tri_one",
    "Blitzdg.Output.C135_tri_low",
    "Blitzdg.Output.C135_quad",
    "Blitzdg.Output.C135_quad_overwrites"
   ],
   "note": "Proved for triangles (all orders; from the constructor on for orders two to five, C135_tri_low) and quadrilaterals (all orders, on the rectangles between the nodes). The last clause is false for quadrilaterals of order at least two: writing a file replaces the stored inverse of the provisioner (C135_quad_overwrites)."
  },
  {
   "property": "C136",
   "status": "partial",
   "theorems": [
    "Blitzdg.Mesh.C136_readMesh",
    "Blitzdg.Mesh.C136_buildMesh",
    "Blitzdg.Mesh.C136_reload",
    "Blitzdg.Mesh.C136_reload_tables",
    "Blitzdg.Mesh.C136_exports_partial",
    "Blitzdg.Mesh.C136_rejected_state",
    "Blitzdg.Mesh.C136_rejected_table",
    "Blitzdg.Mesh.C136_rejected_mesh",
    "Blitzdg.Mesh.C136_rejected_program"
   ],
   "note": "Exports are right after every history in which no table file was rejected (rejected mesh files allowed), and meshes read later are those of a new manager, from any state. Refuted: a rejected vertex table leaves counters of the new file with the old array, and exporting is then undefined; a rejected mesh file leaves new vertices with old elements."
  },
  {
   "property": "C137",
   "status": "partial",
   "theorems": [
    "Blitzdg.Mesh.C137_partition_partial",
    "Blitzdg.Mesh.C137_maps_kept",
    "Blitzdg.Mesh.C137_stale",
    "Blitzdg.Mesh.C137_null",
    "Blitzdg.Mesh.C137_failure_silent",
    "Blitzdg.Mesh.C137_stale_program"
   ],
   "note": "Under a contract for METIS the maps exported after partitioning are right for every history without rejected table files. Refuted: a failure of METIS is not reported; maps are kept when another mesh is loaded and their export is then undefined or invents part 0; before the first partition export is undefined."
  },
  {
   "property": "C138",
   "status": "partial",
   "theorems": [
    "Blitzdg.SW.C138_balance",
    "Blitzdg.SW.C138_bounds",
    "Blitzdg.SW.C138_subcritical",
    "Blitzdg.SW.C138_first",
    "Blitzdg.SW.C138_written",
    "Blitzdg.SW.C138_vort",
    "Blitzdg.SW.C138_vort_deformed",
    "Blitzdg.SW.C138_tilted"
   ],
   "note": "All parts proved on elements with straight sides. Vorticity on deformed elements is refuted: the metric is not updated (C138_vort_deformed). Exact reals."
  },
  {
   "property": "C139",
   "status": "partial",
   "theorems": [
    "Blitzdg.SW.C139_files",
    "Blitzdg.SW.C139_last_partial",
    "Blitzdg.SW.C139_last_false"
   ],
   "note": "The files of every run proved; that the last state is among them holds when the step does not change and is refuted when the flow slows down."
  },
  {
   "property": "C14",
   "status": "proved",
   "theorems": [
    "Blitzdg.Blitz.C14_uniquetol"
   ],
   "note": "matrices with at least one column, exact arithmetic"
  },
  {
   "property": "C140",
   "status": "partial",
   "theorems": [
    "Blitzdg.Curved.C140_arc",
    "Blitzdg.Curved.C140_point",
    "Blitzdg.Curved.C140_lipschitz",
    "Blitzdg.Curved.C140_nodes",
    "Blitzdg.Curved.C140_resampled",
    "Blitzdg.Curved.C140_order",
    "Blitzdg.Curved.C140_order_false",
    "Blitzdg.Curved.C140_centre"
   ],
   "note": "Arc length, resampling and the nodes used proved; independence of the listing proved where the wall is a graph over x and refuted for vertical pieces. The splines through the points are not modelled."
  },
  {
   "property": "C141",
   "status": "partial",
   "theorems": [
    "Blitzdg.Heat.C141_tags",
    "Blitzdg.Heat.C141_data",
    "Blitzdg.Heat.C141_run",
    "Blitzdg.Heat.C141_corner_false",
    "Blitzdg.Heat.C110_limit_any"
   ],
   "note": "Tags, data at all nodes but one place, single values, bounds, zero flux, the run and its limit proved for all meshes of the trapezoid with vertices on a side or at least delta from it (delta * NodeTol >= 1e-12) and all orders for which the grid is built. Refuted at the upper left corner: the nodes of the upper side there get -1/4, the value of the left side, not the value prescribed on the upper side (C141_corner_false)."
  },
  {
   "property": "C142",
   "status": "proved",
   "theorems": [
    "Blitzdg.SW.C142_masks",
    "Blitzdg.SW.C142_maps",
    "Blitzdg.SW.C142_low",
    "Blitzdg.SW.C142_far_false",
    "Blitzdg.Nodes1D.C142_interval"
   ],
   "note": "Errors are bounded operation by operation; exponent range not limited; reference nodes as stored. C142_far_false shows that the condition on the size of the coordinates is needed."
  },
  {
   "property": "C143",
   "status": "partial",
   "theorems": [
    "Blitzdg.SW.C143_start",
    "Blitzdg.SW.C143_files",
    "Blitzdg.SW.C143_last",
    "Blitzdg.SW.C143_outcomes",
    "Blitzdg.SW.C143_no_wall",
    "Blitzdg.SW.C143_ends",
    "Blitzdg.SW.C143_rest"
   ],
   "note": "Refuted part: the last state is never written (C143_last). Everything else proved. Exact real arithmetic; printing left out."
  },
  {
   "property": "C144",
   "status": "partial",
   "theorems": [
    "Blitzdg.SW.C144_start",
    "Blitzdg.SW.C144_run",
    "Blitzdg.SW.C144_no_open",
    "Blitzdg.SW.C144_no_wall",
    "Blitzdg.SW.C144_high_order",
    "Blitzdg.SW.C144_long_file",
    "Blitzdg.SW.C144_first",
    "Blitzdg.SW.C144_last",
    "Blitzdg.SW.C144_ends"
   ],
   "note": "Refuted parts: the last state is never written (C144_last), from order five on the sponge set-up is undefined behaviour (C144_high_order), and a longer depth file is written past the end of its array (C144_long_file). The fields move by PassedOn: a full step and then half a step, because the two sets of fields share memory (C86). Everything else proved. Exact real arithmetic; printing left out; the undeclared provisioner of the source is taken to be declared as in src/sw2d-simple."
  },
  {
   "property": "C145",
   "status": "partial",
   "theorems": [
    "Blitzdg.Ins2D.C145_never",
    "Blitzdg.Ins2D.C145_throws",
    "Blitzdg.Ins2D.C145_usage",
    "Blitzdg.Ins2D.C145_otherwise",
    "Blitzdg.Ins2D.C145_loop",
    "Blitzdg.Ins2D.C145_rates"
   ],
   "note": "The property is refuted: C145_never and C145_throws. C145_usage is the other way to start the program; C145_otherwise, C145_loop and C145_rates say what would happen if the matrix could be built: the state at the start, every pass of the loop, the rates, the steps, the files and how the loop is left."
  },
  {
   "property": "C146",
   "status": "proved",
   "theorems": [
    "Blitzdg.Drivers.C146_run",
    "Blitzdg.Drivers.C146_ends",
    "Blitzdg.Drivers.C146_shipped",
    "Blitzdg.Drivers.C146_advec",
    "Blitzdg.Drivers.C146_one_node"
   ],
   "note": "Exact arithmetic; C146_shipped and C146_advec are about the constants in the sources. Order zero is undefined (C146_one_node)."
  },
  {
   "property": "C147",
   "status": "partial",
   "theorems": [
    "Blitzdg.Print.C147_triplet",
    "Blitzdg.Print.C147_csc",
    "Blitzdg.Print.C147_csc_count",
    "Blitzdg.Print.C147_report",
    "Blitzdg.Print.C147_report_tells",
    "Blitzdg.Print.C147_message_lost",
    "Blitzdg.Print.C147_settings",
    "Blitzdg.Print.C147_mesh_partial",
    "Blitzdg.Print.C147_mesh_rejected"
   ],
   "note": "Matrices and reports for all inputs; mesh tables for histories without a rejected table. Refuted: the message is shown, the stream's settings are kept, the count printed for a compressed matrix, tables after a rejection."
  },
  {
   "property": "C148",
   "status": "proved",
   "theorems": [
    "Blitzdg.PoissonRun.C148_run1",
    "Blitzdg.PoissonRun.C148_main1",
    "Blitzdg.PoissonRun.C148_run2",
    "Blitzdg.PoissonRun.C148_no_wall"
   ],
   "note": "Exact real arithmetic; BLAS by contract as in C33. poisson2d is modelled from the provisioned grid on; the verbose lines of the solver are not modelled."
  },
  {
   "property": "C149",
   "status": "proved",
   "theorems": [
    "Blitzdg.Sparse.C149_arrays",
    "Blitzdg.Sparse.C149_history",
    "Blitzdg.Sparse.C149_csc",
    "Blitzdg.Sparse.C149_trailing",
    "Blitzdg.Sparse.C149_no_entries",
    "Blitzdg.Sparse.C149_sized",
    "Blitzdg.Sparse.C149_sized_grows",
    "Blitzdg.Sparse.C149_sized_zero",
    "Blitzdg.Sparse.C149_swap"
   ],
   "note": "Indices below INT_MAX and arrays at least nnz long are the documented precondition (ArraysOk). A negative dimension, possible only with negative indices, is recorded as 0 in the model. The case nnz = 0 and the unchecked sizes are proved as they are in the code (C149_no_entries, C149_sized_grows, C149_sized_zero)."
  },
  {
   "property": "C15",
   "status": "partial",
   "theorems": [
    "Blitzdg.Blitz.C15_matlab_partial",
    "Blitzdg.Blitz.C15_chain_refutes",
    "Blitzdg.Blitz.C15_empty_ub"
   ],
   "note": "closeness to the representative is false (C15_chain_refutes); proved: complete assignment and chains of close rows"
  },
  {
   "property": "C150",
   "status": "proved",
   "theorems": [
    "Blitzdg.Quads.C150_masks",
    "Blitzdg.Quads.C150_maps",
    "Blitzdg.Quads.C150_low",
    "Blitzdg.Quads.C150_far_false"
   ],
   "note": "Errors are bounded operation by operation; exponent range not limited, no fused operations; reference nodes as stored. C150_far_false shows that the condition on the size of the coordinates is needed."
  },
  {
   "property": "C151",
   "status": "proved",
   "theorems": [
    "Blitzdg.Jacobi.C151_polynomial",
    "Blitzdg.Jacobi.C151_gradient",
    "Blitzdg.Jacobi.C151_matrix",
    "Blitzdg.Jacobi.C151_weights"
   ],
   "note": "Exact arithmetic extended by infinities and NaN; zero divisors count as +0."
  },
  {
   "property": "C152",
   "status": "partial",
   "theorems": [
    "Blitzdg.Breakdown.C152_oned",
    "Blitzdg.Breakdown.C152_simple",
    "Blitzdg.Breakdown.C152_full",
    "Blitzdg.Breakdown.C152_python",
    "Blitzdg.Breakdown.C152_missed",
    "Blitzdg.Breakdown.C152_oned_stays",
    "Blitzdg.Breakdown.C152_simple_stays",
    "Blitzdg.Breakdown.C152_full_pass",
    "Blitzdg.Breakdown.C152_python_pass",
    "Blitzdg.Breakdown.C152_reported"
   ],
   "note": "Exact criteria for all five kinds of test; the claim holds for the Python programs (C152_python) and for sw2d up to one pass (C152_full_pass), and is refuted for advec1d, burgers1d, sw2d-simple and ins2d (C152_missed, C152_oned_stays, C152_simple_stays, C152_reported). Arithmetic over reals with infinities and NaN; no overflow and no roundings. Contract of blitz::max: starts from the lowest double, takes over greater entries."
  },
  {
   "property": "C153",
   "status": "partial",
   "theorems": [
    "Blitzdg.SW.C153_coefficient",
    "Blitzdg.SW.C153_wet",
    "Blitzdg.SW.C153_balance",
    "Blitzdg.SW.C153_one_sided",
    "Blitzdg.SW.C153_star_wet",
    "Blitzdg.SW.C153_star_dry",
    "Blitzdg.SW.C153_dry_ends",
    "Blitzdg.SW.C153_step",
    "Blitzdg.SW.C153_python_coefficient",
    "Blitzdg.SW.C153_python_ends"
   ],
   "note": "Holds for positive depths (C153_wet, C153_star_wet, C153_step); exact criteria and refutations at dry nodes: C153_coefficient, C153_balance, C153_one_sided, C153_star_dry, C153_dry_ends, C153_step. The Python programs stop in the same pass (C153_python_coefficient, C153_python_ends). Arithmetic over reals with infinities and NaN, no roundings. States with zero depth and both momenta nonzero are left out of the coefficient (infinite speed)."
  },
  {
   "property": "C154",
   "status": "partial",
   "theorems": [
    "Blitzdg.Mesh.C154_same",
    "Blitzdg.Mesh.C154_triangles_partial",
    "Blitzdg.Mesh.C154_clockwise"
   ],
   "note": "Rounding model: |rnd x - x| <= u|x| + eta; no overflow. Proved for elements that are not nearly degenerate (C154_same, C154_triangles_partial); refuted for nearly degenerate ones in 53-bit arithmetic (C154_clockwise)."
  },
  {
   "property": "C155",
   "status": "partial",
   "theorems": [
    "Blitzdg.Gmres.C155_same",
    "Blitzdg.Gmres.C155_history",
    "Blitzdg.Gmres.C155_exact",
    "Blitzdg.Gmres.C155_format",
    "Blitzdg.Gmres.Shows.unique",
    "Blitzdg.PoissonRun.C155_poisson1d",
    "Blitzdg.PoissonRun.C155_shipped"
   ],
   "note": "Same results with and without the history, shape and numbering of the history for every arithmetic, monotone norms and the true last line in exact arithmetic, console of poisson1d: proved. Refuted: the stream does not keep its format (C155_format, C155_shipped); the digits of the numbers are not modelled."
  },
  {
   "property": "C156",
   "status": "partial",
   "theorems": [
    "Blitzdg.SW.C156_faces",
    "Blitzdg.SW.C156_list",
    "Blitzdg.SW.C156_straight",
    "Blitzdg.SW.C156_needs",
    "Blitzdg.SW.C156_run"
   ],
   "note": "C156_faces and C156_list give the faces fitted and the elements handed on. Refuted parts: C156_straight (the nodes of every face stay on the straight segment between its corners), C156_needs (raises without a node near the origin or without a wall node in the window). C156_run carries the conservation of C118 from the mesh file through the set-up; it assumes that the contexts of cubature and Gauss points are built and that Gauss points of the open faces are at least 1e-3 apart. Non-vacuous by basin_start, channel_raises and the example after basin_spread."
  },
  {
   "property": "C157",
   "status": "proved",
   "theorems": [
    "Blitzdg.Drivers.C157_stable",
    "Blitzdg.Drivers.C157_script",
    "Blitzdg.Drivers.HasEnergy.unique",
    "Blitzdg.Time.scheme_stable",
    "Blitzdg.Time.ideal_stable",
    "Blitzdg.Drivers.advOp_norm_le"
   ],
   "note": "Explicit constants; the growth factor 1e-24 per step comes from the rounded Runge-Kutta coefficients. The step size actually used by the program (Courant number 0.8) is larger than the bound: for it only C75 applies."
  },
  {
   "property": "C158",
   "status": "proved",
   "theorems": [
    "Blitzdg.Time.C158_nearest",
    "Blitzdg.Time.C158_python",
    "Blitzdg.Time.C158_order",
    "Blitzdg.Time.C158_close",
    "Blitzdg.Time.C158_stable",
    "Blitzdg.Time.C158_defect"
   ],
   "note": "All clauses proved, the inexactness for u' = 1 included. Sums and products of fields are not rounded in this model; only the coefficients are."
  },
  {
   "property": "C159",
   "status": "proved",
   "theorems": [
    "Blitzdg.Time.C159_stable",
    "Blitzdg.Time.C159_entries"
   ],
   "note": "Overflow, underflow and fused multiply-add are left out; the error of the right-hand side is a hypothesis (rho)."
  },
  {
   "property": "C16",
   "status": "proved",
   "theorems": [
    "Blitzdg.Csv.C16_csvread"
   ],
   "note": ""
  },
  {
   "property": "C160",
   "status": "partial",
   "theorems": [
    "Blitzdg.Nodes1D.C160_history_partial",
    "Blitzdg.Nodes1D.C160_early"
   ],
   "note": "Proved as an invariant over all histories. The last clause is false: computeJacobian() before any buildNodes() that returned uses an unwritten face mask as index (C160_early); C160_history_partial shows that this is the only undefined history."
  },
  {
   "property": "C161",
   "status": "proved",
   "theorems": [
    "Blitzdg.SW.C161_filter"
   ],
   "note": "The product is taken out of place (filterProduct); the in-place use in one driver is the subject of C85. Real arithmetic."
  },
  {
   "property": "C162",
   "status": "proved",
   "theorems": [
    "Blitzdg.Time.C162_wave",
    "Blitzdg.Time.C162_oscillation",
    "Blitzdg.Time.C162_diffusion",
    "Blitzdg.Time.C162_decay"
   ],
   "note": "Coefficients as doubles, operations on fields in real arithmetic (C159 treats their rounding for steps up to 2/5). The diffusive stability theorem is for finitely many unknowns."
  },
  {
   "property": "C163",
   "status": "partial",
   "theorems": [
    "Blitzdg.Py.C163_defined",
    "Blitzdg.Py.C163_coordinates",
    "Blitzdg.Py.C163_coordinates_initial",
    "Blitzdg.Py.C163_filter",
    "Blitzdg.Py.C163_filter_modes",
    "Blitzdg.Py.C163_fixed",
    "Blitzdg.Py.C163_jacobian",
    "Blitzdg.Py.C163_geometry",
    "Blitzdg.Py.C163_operators",
    "Blitzdg.Py.C163_copies",
    "Blitzdg.Py.C163_stores",
    "Blitzdg.Py.C163_consistent_partial",
    "Blitzdg.Py.C163_stale",
    "Blitzdg.Py.C163_filter_unwritten"
   ],
   "note": "All parts hold except the last: setCoordinates leaves the Jacobian, metric terms, normals and face scales of the old coordinates (C163_stale, on every provisioned grid), and before the first buildFilter the filter shown is unwritten memory (C163_filter_unwritten)."
  },
  {
   "property": "C164",
   "status": "partial",
   "theorems": [
    "Blitzdg.Quads.C164_defined",
    "Blitzdg.Quads.C164_filter_partial",
    "Blitzdg.Quads.C164_written",
    "Blitzdg.Quads.C164_files",
    "Blitzdg.Quads.C164_effect"
   ],
   "note": "The code refutes the claim: from order two on, a file written before buildFilter makes the filter wrong, for every such history (C164_written). Proved: it holds at order one and when no file precedes the call (C164_filter_partial); the files themselves are right in every history (C164_files)."
  },
  {
   "property": "C17",
   "status": "proved",
   "theorems": [
    "Blitzdg.Csv.C17_sound",
    "Blitzdg.Csv.C17_rejects"
   ],
   "note": ""
  },
  {
   "property": "C18",
   "status": "proved",
   "theorems": [
    "Blitzdg.Csv.C18_history",
    "Blitzdg.Csv.C18_open"
   ],
   "note": ""
  },
  {
   "property": "C19",
   "status": "partial",
   "theorems": [
    "Blitzdg.Csv.C19_count_partial",
    "Blitzdg.Csv.C19_no_reset",
    "Blitzdg.Csv.C19_witness"
   ],
   "note": "the count is right on a fresh reader; the documented reset does not happen (C19_no_reset, C19_witness)"
  },
  {
   "property": "C20",
   "status": "proved",
   "theorems": [
    "Blitzdg.Mesh.C20_involution"
   ],
   "note": "conforming meshes; hypotheses on int size explicit"
  },
  {
   "property": "C21",
   "status": "proved",
   "theorems": [
    "Blitzdg.Mesh.C21_connectivity",
    "Blitzdg.Mesh.C21_degenerate_wrong",
    "Blitzdg.Mesh.C21_overflow_ub"
   ],
   "note": "faces with distinct ends; degenerate faces and size overflow refuted separately"
  },
  {
   "property": "C22",
   "status": "proved",
   "theorems": [
    "Blitzdg.Mesh.C22_boundary"
   ],
   "note": "elements with pairwise distinct vertices"
  },
  {
   "property": "C23",
   "status": "partial",
   "theorems": [
    "Blitzdg.Mesh.C23_triangles",
    "Blitzdg.Mesh.C23_quads_partial",
    "Blitzdg.Mesh.C23_quad_bowtie"
   ],
   "note": "triangles proved; clockwise quadrilaterals become self-intersecting (C23_quad_bowtie)"
  },
  {
   "property": "C24",
   "status": "partial",
   "theorems": [
    "Blitzdg.Mesh.C24_two_tags_partial",
    "Blitzdg.Mesh.C24_three_tags",
    "Blitzdg.Mesh.C24_one_tag_ub",
    "Blitzdg.Mesh.C24_file_wrong"
   ],
   "note": "two tags proved; other tag counts refuted"
  },
  {
   "property": "C25",
   "status": "partial",
   "theorems": [
    "Blitzdg.Mesh.C25_elements_first_ub",
    "Blitzdg.Mesh.C25_vertices_first_partial"
   ],
   "note": "vertices before elements proved; elements first is an out-of-bounds write"
  },
  {
   "property": "C26",
   "status": "proved",
   "theorems": [
    "Blitzdg.Mesh.C26_eptr"
   ],
   "note": ""
  },
  {
   "property": "C27",
   "status": "proved",
   "theorems": [
    "Blitzdg.Nodes1D.C27_tiling",
    "Blitzdg.Nodes1D.C27_increasing"
   ],
   "note": ""
  },
  {
   "property": "C28",
   "status": "partial",
   "theorems": [
    "Blitzdg.Nodes1D.C28_maps_partial",
    "Blitzdg.Nodes1D.C28_involution_partial",
    "Blitzdg.Nodes1D.C28_overflow_ub"
   ],
   "note": "every K for which (K+1)*2K does not overflow int (K < 32768); C28_overflow_ub shows every larger K is undefined behaviour"
  },
  {
   "property": "C29",
   "status": "partial",
   "theorems": [
    "Blitzdg.Gmres.C29_throws_iff_partial",
    "Blitzdg.Gmres.C29_untouched",
    "Blitzdg.Gmres.C29_nan_accepted"
   ],
   "note": "exception condition and no side effects proved; the last sentence is false, C29_nan_accepted proves that NaN tolerances are accepted"
  },
  {
   "property": "C30",
   "status": "proved",
   "theorems": [
    "Blitzdg.Gmres.C30_budget"
   ],
   "note": ""
  },
  {
   "property": "C31",
   "status": "partial",
   "theorems": [
    "Blitzdg.Gmres.C31_success_partial",
    "Blitzdg.Gmres.C31_nan_success",
    "Blitzdg.Gmres.C31_failed_success"
   ],
   "note": "the code reports success for a NaN or infinite true residual (C31_nan_success) and when the final product fails (C31_failed_success); otherwise success means the test passed"
  },
  {
   "property": "C32",
   "status": "proved",
   "theorems": [
    "Blitzdg.Gmres.C32_failures",
    "Blitzdg.Gmres.C32_iterate"
   ],
   "note": ""
  },
  {
   "property": "C33",
   "status": "proved",
   "theorems": [
    "Blitzdg.Gmres.C33_reported_residual",
    "Blitzdg.Gmres.C33_tested_residual"
   ],
   "note": "exact arithmetic, BLAS by contract"
  },
  {
   "property": "C34",
   "status": "proved",
   "theorems": [
    "Blitzdg.Gmres.C34_cycle_minimal",
    "Blitzdg.Gmres.C34_first_cycle",
    "Blitzdg.Gmres.C34_never_worse"
   ],
   "note": "exact arithmetic, BLAS by contract"
  },
  {
   "property": "C35",
   "status": "proved",
   "theorems": [
    "Blitzdg.Gmres.C35_eliminates",
    "Blitzdg.Gmres.C35_isometry"
   ],
   "note": "the reference DROTG algorithm in exact arithmetic"
  },
  {
   "property": "C36",
   "status": "partial",
   "theorems": [
    "Blitzdg.LU.C36_behaviour_partial",
    "Blitzdg.LU.C36_released_at_most_once_partial",
    "Blitzdg.LU.C36_no_leak_partial",
    "Blitzdg.LU.C36_defined_partial",
    "Blitzdg.LU.C36_copy_double_free"
   ],
   "note": "all histories with any number of solver objects without copies: behaviour refines an ownership-free specification, no double release, no leak, no UB while matrices live; copies (implicit copy constructor) proved to release twice"
  },
  {
   "property": "C37",
   "status": "proved",
   "theorems": [
    "Blitzdg.Dense.C37_direct",
    "Blitzdg.Dense.C37_inverse",
    "Blitzdg.Dense.C37_cholesky",
    "Blitzdg.Dense.C37_eigen",
    "Blitzdg.Dense.C37_output_shape_needed",
    "Blitzdg.Dense.C37_cholesky_posdef"
   ],
   "note": "under the LAPACK contracts of Verif/Dense/Contracts.lean (exact arithmetic), matching shapes; wrong output shape proved undefined"
  },
  {
   "property": "C38",
   "status": "proved",
   "theorems": [
    "Blitzdg.DG2D.C38_modes",
    "Blitzdg.DG2D.C38_successor",
    "Blitzdg.DG2D.C38_short",
    "Blitzdg.DG2D.C38_quad"
   ],
   "note": "triangle and quadrilateral mode numbering for every order"
  },
  {
   "property": "C39",
   "status": "partial",
   "theorems": [
    "Blitzdg.DG2D.C39_filter_partial",
    "Blitzdg.DG2D.C39_identity",
    "Blitzdg.DG2D.C39_cutoff_at_order",
    "Blitzdg.DG2D.C39_tri_false",
    "Blitzdg.DG2D.C39_zero_exponent",
    "Blitzdg.DG2D.C39_negative_exponent",
    "Blitzdg.DG2D.C39_quad_wrong",
    "Blitzdg.DG2D.C39_quad_false"
   ],
   "note": "full statement is false: proved for cutoff below the order and positive exponent; the other cases and the quadrilateral filter are refuted"
  },
  {
   "property": "C40",
   "status": "partial",
   "theorems": [
    "Blitzdg.DG2D.C40_hash_partial",
    "Blitzdg.DG2D.C40_history",
    "Blitzdg.DG2D.C40_not_replaced",
    "Blitzdg.DG2D.C40_short_table"
   ],
   "note": "single call proved; the claim about repeated calls is false (lists are appended to), shown by C40_not_replaced"
  },
  {
   "property": "C41",
   "status": "proved",
   "theorems": [
    "Blitzdg.DG2D.C41_gauss"
   ],
   "note": "for every symmetric connectivity"
  },
  {
   "property": "C42",
   "status": "proved",
   "theorems": [
    "Blitzdg.DG2D.C42_inverse",
    "Blitzdg.DG2D.C42_tri",
    "Blitzdg.DG2D.C42_quad",
    "Blitzdg.DG2D.C42_tri_built",
    "Blitzdg.DG2D.C42_quad_built"
   ],
   "note": "exact arithmetic; *_built: with the matrices the code builds (C47), no assumption on them left"
  },
  {
   "property": "C43",
   "status": "proved",
   "theorems": [
    "Blitzdg.DG2D.C43_tri",
    "Blitzdg.DG2D.C43_gauss",
    "Blitzdg.DG2D.C43_quad"
   ],
   "note": "exact arithmetic; triangles, quadrilaterals and Gauss points"
  },
  {
   "property": "C44",
   "status": "proved",
   "theorems": [
    "Blitzdg.DG2D.C44_split",
    "Blitzdg.DG2D.C44_short"
   ],
   "note": "Every order and element count: N^2 sub-triangles, valid node numbers, union/disjointness over the reference triangle, equal area and orientation on the equispaced lattice, field values gathered from the matching nodes. Interpolation to the lattice is a given matrix."
  },
  {
   "property": "C45",
   "status": "proved",
   "theorems": [
    "Blitzdg.DG2D.C45_split",
    "Blitzdg.DG2D.C45_order_one"
   ],
   "note": "Split cells (after the VTK reordering) and unsplit order-one cells are cyclic squares. Split cells come out clockwise, unsplit ones counter-clockwise."
  },
  {
   "property": "C46",
   "status": "partial",
   "theorems": [
    "Blitzdg.DG2D.C46_triangle",
    "Blitzdg.DG2D.C46_triangle_built",
    "Blitzdg.DG2D.C46_quad_identity",
    "Blitzdg.DG2D.C46_quad_short",
    "Blitzdg.DG2D.C46_quad_long",
    "Blitzdg.DG2D.C46_quad_wrong",
    "Blitzdg.DG2D.C46_quad_split",
    "Blitzdg.DG2D.demo_interp_wrong"
   ],
   "note": "Exact for triangles (at every output point inside the triangle). False for quadrilaterals: the call overwrites the stored inverse and returns the identity (as many points as nodes), overflows (fewer) or throws (more)."
  },
  {
   "property": "C47",
   "status": "proved",
   "theorems": [
    "Blitzdg.Nodes1D.C47_operators",
    "Blitzdg.Nodes1D.C47_constants",
    "Blitzdg.DG2D.C47_quadrilateral",
    "Blitzdg.DG2D.C47_triangle_built",
    "Blitzdg.DG2D.C47_triangle",
    "Blitzdg.DG2D.C47_triangle_low",
    "Blitzdg.DG2D.tri_unisolvent",
    "Blitzdg.SW.C47_grid_low",
    "Blitzdg.DG2D.demo_quad",
    "Blitzdg.DG2D.demo_tri",
    "Blitzdg.DG2D.demo_tri_low"
   ],
   "note": "Proved for 1D, quadrilaterals and triangles for every order: the operators of every element that is constructed are exact. For quadrilaterals no solve fails; for triangles the construction either succeeds or throws because the nodes are not unisolvent (C47_triangle_built), and for orders one to five it throws only if the eigenvalue routine fails (C47_triangle_low, C47_grid_low). tri_unisolvent reduces unisolvence at every order to the inner nodes; for all orders it is an open question."
  },
  {
   "property": "C48",
   "status": "proved",
   "theorems": [
    "Blitzdg.Jacobi.C48_orthonormal",
    "Blitzdg.Jacobi.C48_legendre",
    "Blitzdg.Jacobi.C48_symmetry",
    "Blitzdg.Jacobi.C48_orthonormal_real",
    "Blitzdg.Jacobi.C151_polynomial"
   ],
   "note": "Orthonormality for all real alpha, beta > -1 with alpha + beta /= -1 (C48_orthonormal_real; C48_orthonormal is the case of natural parameters), exact degree, symmetry for all real parameters. At alpha + beta = -1 the code returns NaN (C151)."
  },
  {
   "property": "C49",
   "status": "proved",
   "theorems": [
    "Blitzdg.Time.C49_stale",
    "Blitzdg.Time.C49_order"
   ],
   "note": "exact arithmetic over any real vector space; coefficients are the literals as rationals"
  },
  {
   "property": "C50",
   "status": "proved",
   "theorems": [
    "Blitzdg.SW.C50_wall"
   ],
   "note": "exact arithmetic, pointwise; the array level is C80"
  },
  {
   "property": "C51",
   "status": "proved",
   "theorems": [
    "Blitzdg.SW.C51_flux",
    "Blitzdg.SW.C51_speed"
   ],
   "note": "exact arithmetic, pointwise; the array level is C80. C51_speed: the dissipation speed is the largest characteristic speed of the equations"
  },
  {
   "property": "C52",
   "status": "partial",
   "theorems": [
    "Blitzdg.SW.C52_drag",
    "Blitzdg.SW.C52_python_power",
    "Blitzdg.SW.C52_python_wrong"
   ],
   "note": "proved for the C++ solver; refuted for swhelpers/rhs.py (sign of the drag term in the second momentum equation)"
  },
  {
   "property": "C53",
   "status": "partial",
   "theorems": [
    "Blitzdg.SW.C53_means",
    "Blitzdg.SW.C53_no_limiting",
    "Blitzdg.SW.C53_negative_depth",
    "Blitzdg.SW.C53_positivity_partial"
   ],
   "note": "means preserved; positivity refuted: the limiter returns every element with mean depth above 9e-4 unchanged"
  },
  {
   "property": "C54",
   "status": "partial",
   "theorems": [
    "Blitzdg.SW.C54_minmod_partial",
    "Blitzdg.SW.C54_minmod_wrong"
   ],
   "note": "refuted for negative arguments and for equal arguments"
  },
  {
   "property": "C55",
   "status": "partial",
   "theorems": [
    "Blitzdg.Output.C55_injective_number",
    "Blitzdg.Output.C55_names_partial",
    "Blitzdg.Output.C55_collision",
    "Blitzdg.Output.C55_unsorted"
   ],
   "note": "true for numbers 0..9999999 and injective in the number for every int; refuted beyond seven digits"
  },
  {
   "property": "C56",
   "status": "partial",
   "theorems": [
    "Blitzdg.Csv.C56_roundtrip_partial",
    "Blitzdg.Csv.C56_comma_fails"
   ],
   "note": "true for space and tab delimiters; for , ; ^ | reading back always throws (C56_comma_fails)"
  },
  {
   "property": "C57",
   "status": "partial",
   "theorems": [
    "Blitzdg.Output.C57_join_partial",
    "Blitzdg.Output.C57_empty_ub"
   ],
   "note": "true for nonempty paths; empty arguments are undefined behaviour"
  },
  {
   "property": "C58",
   "status": "partial",
   "theorems": [
    "Blitzdg.Cub.C58_rules_partial",
    "Blitzdg.Cub.C58_corrupt",
    "Blitzdg.Cub.C58_range"
   ],
   "note": "All rules except NCubature 3 and 4, for which missing commas in the table leave one point uninitialised (C58_corrupt). Literals are taken as decimals, hence the tolerance."
  },
  {
   "property": "C59",
   "status": "partial",
   "theorems": [
    "Blitzdg.Py.C59_gauss_partial",
    "Blitzdg.Py.C59_gauss_sx",
    "Blitzdg.Py.C59_index",
    "Blitzdg.Py.C59_cubature",
    "Blitzdg.Py.C59_vector",
    "Blitzdg.Py.C59_tensor",
    "Blitzdg.Py.C59_triangle",
    "Blitzdg.Py.C59_quadrilateral",
    "Blitzdg.Py.C59_grid",
    "Blitzdg.Py.C59_mesh",
    "Blitzdg.Py.C59_null",
    "Blitzdg.Py.C59_dict"
   ],
   "note": "All getters right for all sizes except GaussFaceContext2D.sx, whose shape is {rows, rows}: overrun for K > 3*NGauss, wrong shape for K < 3*NGauss (proved). Default-constructed objects: null dereference."
  },
  {
   "property": "C60",
   "status": "proved",
   "theorems": [
    "Blitzdg.Poisson.C60_in_range",
    "Blitzdg.Poisson.C60_symmetric",
    "Blitzdg.Poisson.C60_not_symmetric"
   ],
   "note": "In range, no growth, symmetric when every boundary face (and no interior one) is tagged Wall/Dirichlet/Neuman; without that condition symmetry is refuted on a square with an outflow side."
  },
  {
   "property": "C61",
   "status": "proved",
   "theorems": [
    "Blitzdg.Mesh.C61_readMesh_triangles",
    "Blitzdg.Mesh.C61_readMesh_quads"
   ],
   "note": ""
  },
  {
   "property": "C62",
   "status": "proved",
   "theorems": [
    "Blitzdg.Mesh.C62_rejects",
    "Blitzdg.Mesh.C62_row_type"
   ],
   "note": ""
  },
  {
   "property": "C63",
   "status": "proved",
   "theorems": [
    "Blitzdg.Nodes1D.C63_metric",
    "Blitzdg.Nodes1D.C63_built"
   ],
   "note": ""
  },
  {
   "property": "C64",
   "status": "proved",
   "theorems": [
    "Blitzdg.Gmres.C64_full_gmres_succeeds"
   ],
   "note": ""
  },
  {
   "property": "C65",
   "status": "partial",
   "theorems": [
    "Blitzdg.Sparse.C65_swap",
    "Blitzdg.Sparse.C65_assign_partial",
    "Blitzdg.Sparse.C65_assign_moved_from"
   ],
   "note": "swap proved; assignment proved for nonempty matrices with rows*cols < 2^31 and a live target; assigning to a moved-from object is proved undefined (null dereference in swap)"
  },
  {
   "property": "C66",
   "status": "proved",
   "theorems": [
    "Blitzdg.DG2D.C66_trace",
    "Blitzdg.DG2D.C66_unmatched",
    "Blitzdg.DG2D.conn_of_mesh"
   ],
   "note": "with unique coincident nodes; C66_unmatched shows what happens otherwise"
  },
  {
   "property": "C67",
   "status": "partial",
   "theorems": [
    "Blitzdg.DG2D.C67_gather_partial",
    "Blitzdg.DG2D.C67_two_columns"
   ],
   "note": "holds for three coordinates per vertex; false for two, shown by C67_two_columns"
  },
  {
   "property": "C68",
   "status": "proved",
   "theorems": [
    "Blitzdg.Jacobi.C68_gradient"
   ],
   "note": "For all real alpha, beta > -1 with alpha + beta /= -1; at alpha + beta = -1 computeJacobiPolynomial returns NaN (C151)."
  },
  {
   "property": "C69",
   "status": "partial",
   "theorems": [
    "Blitzdg.Jacobi.C69_gauss_partial",
    "Blitzdg.Jacobi.C69_order_zero",
    "Blitzdg.Jacobi.C69_small_sum",
    "Blitzdg.Jacobi.C69_gauss_real",
    "Blitzdg.Jacobi.C69_one_point_real",
    "Blitzdg.Jacobi.C151_matrix",
    "Blitzdg.Jacobi.C151_weights"
   ],
   "note": "For all real alpha, beta > -1 with alpha + beta /= -1 and N >= 1 the rule is exact if and only if alpha = beta or alpha + beta >= 10 eps (C69_gauss_real); for N = 0 if and only if the weight function has integral 2 (C69_one_point_real). So it holds for all natural parameters with N >= 1, and fails elsewhere because the first diagonal entry is overwritten and because the single weight is always 2. For alpha + beta = -1 and N >= 1 the matrix has a NaN entry and every weight is NaN (C151_matrix, C151_weights). So the claim is settled for all parameters > -1."
  },
  {
   "property": "C70",
   "status": "proved",
   "theorems": [
    "Blitzdg.Jacobi.C70_gauss_lobatto",
    "Blitzdg.Jacobi.C70_gauss_lobatto_real"
   ],
   "note": "For all natural alpha = beta; C70_gauss_lobatto_real for all real alpha, beta > -1 with alpha + beta /= -1 that are equal or have alpha + beta + 2 >= 10 eps (symmetry if they are equal)."
  },
  {
   "property": "C71",
   "status": "proved",
   "theorems": [
    "Blitzdg.Nodes1D.C47_operators",
    "Blitzdg.DG2D.C47_quadrilateral",
    "Blitzdg.DG2D.C47_triangle_built",
    "Blitzdg.DG2D.C47_triangle_low"
   ],
   "note": "As C47 (LiftSpec is part of ElementSpec)."
  },
  {
   "property": "C72",
   "status": "proved",
   "theorems": [
    "Blitzdg.DG2D.C72_triangle",
    "Blitzdg.DG2D.C72_quadrilateral",
    "Blitzdg.DG2D.tri_span",
    "Blitzdg.DG2D.quad_span",
    "Blitzdg.DG2D.regular_of_mem"
   ],
   "note": ""
  },
  {
   "property": "C73",
   "status": "proved",
   "theorems": [
    "Blitzdg.DG2D.C73_triangle",
    "Blitzdg.DG2D.C73_quadrilateral"
   ],
   "note": "Integrals are iterated interval integrals over the reference element."
  },
  {
   "property": "C74",
   "status": "proved",
   "theorems": [
    "Blitzdg.DG2D.C74_triangle",
    "Blitzdg.DG2D.C74_quadrilateral",
    "Blitzdg.DG2D.faceMask_face"
   ],
   "note": ""
  },
  {
   "property": "C75",
   "status": "partial",
   "theorems": [
    "Blitzdg.Time.C75_loop",
    "Blitzdg.Time.C75_time_data"
   ],
   "note": "number of steps, error exit and output steps proved; the claim on stage times is refuted for burgers1d by C75_time_data"
  },
  {
   "property": "C76",
   "status": "proved",
   "theorems": [
    "Blitzdg.Drivers.C76_energy",
    "Blitzdg.Drivers.C76_stable"
   ],
   "note": ""
  },
  {
   "property": "C77",
   "status": "proved",
   "theorems": [
    "Blitzdg.Drivers.C77_conservation",
    "Blitzdg.Drivers.C77_consistency"
   ],
   "note": ""
  },
  {
   "property": "C78",
   "status": "proved",
   "theorems": [
    "Blitzdg.Drivers.C78_exact"
   ],
   "note": "alpha enters the discretisation only through the boundary values, see C79"
  },
  {
   "property": "C79",
   "status": "proved",
   "theorems": [
    "Blitzdg.Drivers.C79_conservation",
    "Blitzdg.Drivers.C79_consistency"
   ],
   "note": ""
  },
  {
   "property": "C80",
   "status": "proved",
   "theorems": [
    "Blitzdg.SW.C80_mass"
   ],
   "note": "Node construction, maps, operators and right-hand side are executable models; LAPACK through its contract."
  },
  {
   "property": "C81",
   "status": "proved",
   "theorems": [
    "Blitzdg.SW.C81_steady",
    "Blitzdg.SW.C81_rest"
   ],
   "note": ""
  },
  {
   "property": "C82",
   "status": "proved",
   "theorems": [
    "Blitzdg.SW.C82_no_wall"
   ],
   "note": "Documents a limitation of the program."
  },
  {
   "property": "C83",
   "status": "proved",
   "theorems": [
    "Blitzdg.SW.C83_simple",
    "Blitzdg.SW.C83_full"
   ],
   "note": ""
  },
  {
   "property": "C84",
   "status": "proved",
   "theorems": [
    "Blitzdg.SW.C84_clock",
    "Blitzdg.SW.C84_bounded"
   ],
   "note": "The clock is exact only if first and last step agree; the theorem gives the exact error."
  },
  {
   "property": "C85",
   "status": "partial",
   "theorems": [
    "Blitzdg.SW.C85_product",
    "Blitzdg.SW.C85_in_place",
    "Blitzdg.SW.C85_run_partial"
   ],
   "note": "C85_product: the matrix product keeps the integral. C85_in_place: the program's assignment to the array being read does not (refutation on a concrete grid with the program's own filter). C85_run_partial: runs without damping conserve mass."
  },
  {
   "property": "C86",
   "status": "partial",
   "theorems": [
    "Blitzdg.SW.C86_separate",
    "Blitzdg.SW.C86_shared",
    "Blitzdg.SW.C86_false"
   ],
   "note": "C86_separate: true if the two field sets had separate memory. C86_shared, C86_false: the copied fields struct shares memory and the program moves the fields by 1.5*dt."
  },
  {
   "property": "C87",
   "status": "partial",
   "theorems": [
    "Blitzdg.SW.C87_damping",
    "Blitzdg.SW.C87_pass",
    "Blitzdg.SW.C87_coeff_partial",
    "Blitzdg.SW.C87_overflow"
   ],
   "note": "Coefficient proved for orders up to four; from order five on the set-up writes past the end of its arrays (C87_overflow). C87_pass: the damping bound holds after every pass."
  },
  {
   "property": "C88",
   "status": "proved",
   "theorems": [
    "Blitzdg.SW.C88_budget",
    "Blitzdg.SW.C88_throws"
   ],
   "note": "C88_throws: without a wall face or without an open face the right-hand side throws."
  },
  {
   "property": "C89",
   "status": "partial",
   "theorems": [
    "Blitzdg.SW.C89_flat",
    "Blitzdg.SW.C89_slope_false"
   ],
   "note": "True for flat beds with any filter of the slopes (C89_flat); false for sloping beds (C89_slope_false: depth 10+x with exact slopes gives a non-zero momentum rate)."
  },
  {
   "property": "C90",
   "status": "proved",
   "theorems": [
    "Blitzdg.SW.C90_open",
    "Blitzdg.SW.C90_interior"
   ],
   "note": "C90_interior: interior faces with both ends listed become open too."
  },
  {
   "property": "C91",
   "status": "partial",
   "theorems": [
    "Blitzdg.SW.C91_depth_partial",
    "Blitzdg.SW.C91_overflow"
   ],
   "note": "Proved for files with at most Np*K values; longer files are written past the end of the array (C91_overflow)."
  },
  {
   "property": "C92",
   "status": "proved",
   "theorems": [
    "Blitzdg.SW.C92_run"
   ],
   "note": "The state returned last has not been tested."
  },
  {
   "property": "C93",
   "status": "partial",
   "theorems": [
    "Blitzdg.Ctx.C93_cubature",
    "Blitzdg.Ctx.C93_returns_partial",
    "Blitzdg.Ctx.C93_few",
    "Blitzdg.Ctx.C93_singular"
   ],
   "note": "Everything returned is correct (C93_cubature), and the call returns when there are exactly as many points as nodes or the solver reports success on the singular systems (C93_returns_partial). Missing from the full claim, and refuted: with fewer points than nodes the call overruns a buffer (C93_few); with more points than nodes the systems solved for the (unused) weak derivatives are singular, so a solver that reports singularity makes the call throw (C93_singular)."
  },
  {
   "property": "C94",
   "status": "proved",
   "theorems": [
    "Blitzdg.Ctx.C94_gauss",
    "Blitzdg.Ctx.C94_one",
    "Blitzdg.Ctx.C94_returns"
   ],
   "note": "exact arithmetic; LAPACK contracts; the call throws when the eigenvalue solver reports failure. NGauss >= 1."
  },
  {
   "property": "C95",
   "status": "partial",
   "theorems": [
    "Blitzdg.Py.C95_contiguous_partial",
    "Blitzdg.Py.C95_transposed",
    "Blitzdg.Py.C95_reversed",
    "Blitzdg.Py.C95_roundtrip",
    "Blitzdg.Py.C95_coordinates_partial",
    "Blitzdg.Py.C95_coordinates_large",
    "Blitzdg.Py.C95_coordinates_shape",
    "Blitzdg.Py.C95_bcType_partial",
    "Blitzdg.Py.C95_bcType_int64",
    "Blitzdg.Py.C95_bcType_large"
   ],
   "note": "Holds for C-contiguous arrays of the right element type and size; refuted for transposed and reversed views, other shapes, and 64-bit integers in setBCType."
  },
  {
   "property": "C96",
   "status": "proved",
   "theorems": [
    "Blitzdg.Py.C96_sparse"
   ],
   "note": ""
  },
  {
   "property": "C97",
   "status": "partial",
   "theorems": [
    "Blitzdg.Py.C97_careful_partial",
    "Blitzdg.Py.C97_context_dangles",
    "Blitzdg.Py.C97_mesh_dangles",
    "Blitzdg.Py.C97_owned",
    "Blitzdg.Py.C97_owned_src"
   ],
   "note": "Refuted: contexts do not keep their provisioner alive, provisioners not their mesh. Proved for programs that never give up an object another live one points to, and for owning objects."
  },
  {
   "property": "C98",
   "status": "proved",
   "theorems": [
    "Blitzdg.Poisson.C98_forms",
    "Blitzdg.Poisson.C98_forms_any_tags"
   ],
   "note": "Exact real arithmetic; triangles; LAPACK contract."
  },
  {
   "property": "C99",
   "status": "proved",
   "theorems": [
    "Blitzdg.Poisson.C99_definite",
    "Blitzdg.Poisson.C99_singular",
    "Blitzdg.Poisson.C99_bordered",
    "Blitzdg.Poisson.C99_mass"
   ],
   "note": "Coercivity via a proved trace inequality; positive definite with a Dirichlet face, singular without, invertible with the border; mass matrix positive definite."
  }
 ]
}