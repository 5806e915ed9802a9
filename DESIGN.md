# Formal model of blitzdg

Sources: /repo (C++ library, drivers and Python helpers), read as text.
Lean 4.33.0 with Mathlib; project in `lean/`.

## Approach

* Models are total computable functions over lists, naturals, integers and records, one per code function, each with a
  comment citing the file and lines. Undefined behaviour (out-of-bounds access, freeing twice, reading
  uninitialised storage) is a distinct outcome (`none`/an error constructor), so "no UB" is a theorem and not an assumption.
* Floating point: control flow is modelled over an abstract arithmetic (arbitrary operations and Boolean comparisons),
  so such theorems cover NaN, infinities and rounding. Numerical identities are proved over the reals or an arbitrary field;
  they are about exact arithmetic.
* External libraries (LAPACK, BLAS, CXSparse, UMFPACK, METIS, boost, blitz++, VTK) are not in the repository: they are modelled by their
  documented contract, either as a definition or as a hypothesis. This is part of the trusted base.
* Where the code contradicts the property, the negation is proved on a concrete witness, and what does hold is
  proved as a `_partial` theorem.

## Plan per property

* **C01 SparseTriplet behaves like an append-only list of entries** - state machine over (arrays,nnz,nzmax) with out-of-bounds write as a distinct outcome; invariant + refinement to the list of inserts by induction over histories.
* **C02 SparseTriplet growth is amortised linear** - relocation counter added to the same machine; potential argument.
* **C03 Dense to triplet conversion keeps exactly the entries above the tolerance** - row-major loop model, compared with an independent filter-of-positions specification.
* **C04 CSC conversion preserves the represented matrix** - column lists built by folding entries; represented matrix = sum of entries; flattened p/i/x arrays as CXSparse lays them out.
* **C05 removeDuplicates sums duplicates and keeps the matrix** - per column left fold merging equal rows (cs_dupl).
* **C06 prune removes exactly the small entries and nnz() reports what is left** - per column filter (cs_droptol, cs_sprealloc); nnz() part refuted for the empty result.
* **C07 transpose is the matrix transpose and an involution** - cs_transpose as counting pass over columns; value, sortedness, involution.
* **C08 multiply is the matrix product** - cs_multiply/cs_scatter per column accumulation.
* **C09 Copying a CSCMat is always a safe deep copy** - 32-bit wrap-around of rows*cols in the allocating constructor: refuted with a witness; proved under no-overflow.
* **C10 Flattening a matrix and reshaping it back is the identity** - sequential iterator model with bounds-checked writes.
* **C11 Index maps select from column-wise flattened fields** - as C10.
* **C12 kron(A,B) is the Kronecker product** - block writes with bounds checks: refuted; proved for what the code does (kron of the transpose, square A).
* **C13 unique returns representatives and a scatter that reconstructs the rows** - loop over an arbitrary sorted permutation; refuted for zero rows, proved otherwise.
* **C14 uniquetol assigns every row to a representative within tolerance** - in-place compaction loop on lists; invariants.
* **C15 uniquetolMatlab keeps each row within tolerance of its representative** - loop; refuted by a chain; what holds is proved.
* **C16 csvread returns exactly the table that the file renders** - reader model on character lists; round trip against an independent rendering relation.
* **C17 csvread never returns a ragged or partly converted table** - same model, failure analysis.
* **C18 Reader line accounting and skipping** - same model, invariant over call sequences.
* **C19 getNumRows can be called without disturbing reading** - refuted (no reset); count proved.
* **C20 Mesh connectivity is a symmetric, geometrically correct relation** - VToF/FToF product reduced to shared-vertex counts through C07/C08 semantics; involution.
* **C21 Connectivity stays sound on any element table** - same.
* **C22 Boundary table marks exactly the boundary faces** - same.
* **C23 Elements are stored counter-clockwise with the same geometry** - real arithmetic; triangles proved, quadrilaterals refuted.
* **C24 readMesh extracts the vertices of each element whatever the number of tags** - column extraction; proved for ntags=2, refuted otherwise.
* **C25 Mesh files can be read in any order without undefined behaviour** - refuted (readElements first); proved for the other order.
* **C26 Partition input describes each element's vertices** - index arithmetic.
* **C27 One-dimensional grids tile the interval** - field arithmetic.
* **C28 One-dimensional surface maps connect each face node with its neighbour** - loop models and closed forms.
* **C29 GMRES validates parameters before touching anything** - decision logic over abstract comparisons; NaN part refuted.
* **C30 GMRES always terminates with a meaningful flag within its budget** - executable model of solve over an arbitrary arithmetic record with a call trace; bounds by induction.
* **C31 GMRES success means the tolerance test passed** - same; refuted for non-finite recomputed residual, partial otherwise.
* **C32 GMRES reports callback failures** - same.
* **C33 Reported GMRES residual equals the true residual in exact arithmetic** - exact arithmetic model of the inner loop, Arnoldi relation.
* **C34 GMRES minimises the residual over the Krylov correction space** - same.
* **C35 Givens rotations eliminate and preserve length** - real algebra.
* **C36 LUSolver never leaks, double frees or solves without factors** - allocation-token machine; proved for single owner, refuted for copies.
* **C37 Dense solver wrappers solve the stated system and protect their inputs** - buffer transposition model with LAPACK contracts as hypotheses.
* **C38 Triangular modes are numbered bijectively** - nested loop enumeration.
* **C39 Spectral filter keeps low modes and damps the rest** - real filter coefficients; Nc=N and quadrilaterals refuted.
* **C40 Boundary hash lists every boundary face node exactly once under its tag** - fold over the table; idempotence refuted.
* **C41 Gauss face maps pair quadrature points across interior faces** - index arithmetic over symmetric connectivity.
* **C42 Element geometry factors invert the mapping** - field algebra.
* **C43 Face normals are unit, outward and balanced** - real algebra.
* **C44 Splitting an element yields N^2 consistent sub-triangles** - index arithmetic on the equispaced triangle.
* **C45 Quadrilateral output cells are simple polygons** - composition of split order and output swap.
* **C46 Interpolation operators interpolate** - matrix algebra on the model of C47; proved for triangles, refuted for quadrilaterals.
* **C47 Differentiation matrices differentiate polynomials exactly** - polynomial evaluation matrices. For triangles construction fails exactly if the nodes are not unisolvent (a node on the line `s = 1` other than the top vertex makes two rows equal). Unisolvent.lean: a matrix is invertible if every node has a function nonzero there and zero at all nodes of the same or lower rank (vertices, edges, interior), which reduces unisolvence to the inner nodes; LowOrder.lean: barycentric coordinates of the inner nodes for orders three to five (the warp is the polynomial interpolating the displacements), with explicit functions separating them.
* **C48 Jacobi polynomial recurrence produces orthonormal polynomials** - recurrence over polynomials; real parameters (Jacobi/RealParams.lean) through the differential equation and integration by parts against the weight, whose integral is the Beta function.
* **C49 LSERK4 is a fourth order method and does not depend on stale residual storage** - fold over the coefficient tables (literals as rationals); unrolled to a Butcher tableau whose order conditions are evaluated by the kernel.
* **C50 Wall boundary treatment reflects momentum** - real algebra.
* **C51 Numerical flux is single valued across a face** - real algebra.
* **C52 Bottom drag removes kinetic energy** - C++ version proved, Python version refuted.
* **C53 Positivity limiter preserves means and makes depth non-negative** - real algebra on lists.
* **C54 minmod returns the argument of smaller magnitude** - refuted and partial.
* **C55 Output file names are injective and sortable** - strings; injectivity refuted across fields, proved per field; order.
* **C56 Written CSV fields can be read back** - writer model composed with reader model; refuted for non-blank delimiters, proved for blank.
* **C57 joinPaths puts exactly one delimiter at the junction** - string functions with UB outcome for empty input.
* **C58 Triangle cubature rules integrate polynomials** - tables transcribed as rationals; kernel evaluation over the whole table, lifted to all polynomials by linearity.
* **C59 Arrays exported to Python have the shape of their data** - buffer length model; refuted for one getter.
* **C60 DG Poisson assembly stays in range and is symmetric** - loop model of insert calls; index ranges, counts, symmetry of the face terms.
* **C61 readMesh reproduces the file** - see the module header.
* **C62 readMesh rejects files it does not understand** - see the module header.
* **C63 One-dimensional metric terms are those of the elements** - see the module header.
* **C64 Unrestarted GMRES always succeeds in exact arithmetic** - see the module header.
* **C65 CSCMat assignment and swap exchange whole matrices** - see the module header.
* **C66 Trace maps pair every face node with itself or its neighbour's coincident node** - see the module header.
* **C67 Element corners have the coordinates of their vertices** - see the module header.
* **C68 Jacobi gradients are exact derivatives** - polynomial identities for the explicit Jacobi polynomials, both by recurrence.
* **C69 Gauss-Jacobi rules are exact** - Golub-Welsch from the spectral theorem of the symmetric tridiagonal matrix; contract of the eigenvalue routine as hypothesis.  For real parameters an exact criterion for the rule being right (`C69_gauss_real`, `C69_one_point_real`).
* **C70 Gauss-Lobatto points** - from C69 with both parameters raised by one and the derivative formula C68.
* **C71 The lift operator represents face integrals** - with C47; representation of face functionals through V V^T.
* **C72 Modal basis functions and their gradients are those of fixed polynomials** - homogenised Legendre polynomial in (r,s); chain rule off the vertex, direct evaluation at it; spanning by degree induction.
* **C73 Modal bases are orthonormal** - collapsed coordinates, one-dimensional orthonormality twice.
* **C74 Face nodes are Gauss-Lobatto points and the face masks list exactly them** - executable model of the node construction; the warp reproduces Gauss-Lobatto points on the edges; mask filter order.
* **C75 The time loop of the 1D drivers stops after the right number of steps** - loop with fuel; induction on the remaining steps. The part on stage times is false for burgers1d (all stages use the time at the start of the step); refuted by `C75_time_data`.
* **C76 The 1D advection discretisation is energy stable** - executable model of computeRHS on the arrays built by the 1D provisioner; weak form through the operator properties C47, C71; summation by parts.
* **C77 The 1D advection discretisation is conservative and consistent** - same weak form with test function one; exactness of the differentiation matrix.
* **C78 The Burgers reference solution solves the equation** - differentiation of the closed form.
* **C79 The 1D Burgers discretisation is conservative and consistent** - as C77, with the auxiliary gradient variable.
* **C80 The shallow water discretisation conserves mass between walls** - executable model of computeRHS on the arrays of the triangle provisioner; discrete divergence theorem per element (C47, C71), cancellation per face pair (C51, C66).
* **C81 Uniform flow along the walls and lakes at rest are steady** - derivative of a constant is zero, jump of equal states is zero, mirror state of a tangential flow is itself.
* **C82 sw2d-simple needs at least one wall face** - lookup in the tag map.
* **C83 The time step satisfies the Courant condition at every face node** - maximum over a list; metric factors positive.
* **C84 The clock of sw2d-simple equals the time the fields have been advanced** - induction over passes; exact error.
* **C85 Filtering keeps mass** - the product keeps the constant mode (C39); refuted for the in-place assignment of the program.
* **C86 One pass of sw2d with constant rate moves the fields by dt times the rate** - store model with shared arrays; refuted.
* **C87 The sponge layer damps and is confined to the neighbourhood of open faces** - loop invariants; overflow from order five on.
* **C88 Mass budget of sw2d** - as C80 with tide states and star depths.
* **C89 Water at rest stays at rest (sw2d)** - as C81; refuted for sloping beds.
* **C90 Open boundary faces are those with both ends listed** - loop invariant of the retagging, C40.
* **C91 Depth files are read in node order and clipped at 150** - loop invariant; overflow for long files.
* **C92 The clock of sw2d equals the time the fields have been advanced** - induction over passes.
* **C93 The cubature context integrates, differentiates and factors exactly** - exactness of the rules (C58) carried through the affine maps, interpolation (C46) and Cholesky (C37); refuted returns for too few points and for singular weak-derivative systems.
* **C94 Gauss face points integrate exactly along faces and match across them** - C69 plus symmetry of Gauss-Legendre rules (orthogonality of the nodal polynomial), C41 for the index maps, C43 for normals, divergence theorem on triangles.
* **C95 Arrays taken from Python arrive entry by entry** - strided views over a buffer; contiguous case proved, views and element types refuted.
* **C96 Exported sparse matrices are complete** - nested loop over columns; refinement to the column lists of C04.
* **C97 Objects obtained in Python stay valid** - object graph with liveness; invariant by induction over histories; refuted by two histories.
* **C98 The Poisson matrices are those of the interior penalty method** - loop model of the assembly in `Poisson/Model`; the inserted blocks are summed to a bilinear form (`Assemble`), blocks become integrals of piecewise polynomials (`Forms`, `FaceForms`), faces are paired (`Weak`).
* **C99 The Poisson systems are solvable** - trace inequality from the orthonormal Jacobi polynomials (`Trace`), coercivity and kernel (`Coercive`), finite-dimensional linear algebra.
* **C100 Poisson solves reproduce polynomials** - divergence theorem on a triangle, `buildBcRhs` as a functional (`rhs_form`), then C98 and C99.
* **C101 Node numbering for continuous functions glues exactly the coinciding nodes** - C14 applied to the node table of the grid.
* **C102 The continuous Poisson operator is the Galerkin operator** - assembly with scattered indices (`Poisson/Sem`), element integrals of C98, agreement of traces at N+1 points, kernel argument of C99; the padded part is refuted.
* **C103 The Poisson operator from Gauss and cubature contexts has the energy of the Laplacian** - loop model `Poisson/Cub` (aliased reversal, full reduction), assembly to a bilinear form, row sums of interpolation and derivative matrices; energy of constants refuted. `Poisson/CubFaces`: the complete bilinear form for all tags, a spec term per face in values and normal derivatives at Gauss points (normal derivatives read at the first face, neighbour's scaled by the area ratio, opposite values mirrored to the later point, constant coupling).
* **C104 The Poisson getters hand out what they are named after** - uniqueness of the represented matrix, then C96 and C98; the C++ getters are refuted.
* **C105 The 1D Poisson operator is a consistent, symmetric and negative definite discrete Laplacian** - array model of the operator, closed form, weak form through the reproducing property of Lift and the mass matrix; symmetry and definiteness refuted on piecewise quadratics.
* **C106 The 2D Poisson driver's operator is a consistent discrete Laplacian independent of the unit of length** - array model of the operator on the triangle grid of C80, face-wise closed form; consistency through exact differentiation of polynomials; scaling of each of its three parts with the mesh; refuted by the constant field. The driver's `uexact` and `rhs` compared by differentiation.
* **C107 The ins2d namelist file is read as written** - character-level model of the reader (line splitting, trimming, splitting at '=', unordered map); specification of lines by a relation; induction over the lines. Refuted for lines of blanks and for values with equal signs.
* **C108 The sparse Poisson operator can be built for every supported element type and order** - the face mass matrices of the model of C98 evaluated on quadrilateral contexts: the Vandermonde matrix of the second face has equal rows, so inversion throws. Order zero and oversized boundary data likewise. Refuted.
* **C109 ins2d: rates of change, step size and clock** - array model of computeRHS with the content of the uninitialised array as a parameter; closed form of the rate at rest; the step size as an extremum over the face nodes; induction over the passes. Refuted in each part.
* **C110 Implicit heat solver** - heat2d.py on top of the operator model (C98) and its export (C96); energy estimate for one implicit step, induction over passes; comparison of definite forms on the unit sphere for the limit. Refuted for the steady state.
* **C111 Vandermonde builder** - Curved/Vand.lean: buildVandermondeMatrix_numpy over the dense-inverse model (C37) and the export model (C59); interpolation from two-sided inverse and the span of the orthonormal polynomials. Refuted for fewer points than columns.
* **C112 Snapping vertices to a curve** - Curved/Snap.lean: loop of adjustStraightEdges over lists of points; invariant: the state is the closed form for the faces visited so far. Refuted for collapsing edges.
* **C113 Deforming elements** - Curved/Blend.lean: deformAndBlendElements with a memory that separates the storage of the context from the arrays made by accesses to its properties; frame argument for the refutation, interpolation (C111) and the blending functions for the partial result. `splev` is an arbitrary function of the parameter.
* **C114 Python shallow water rates** - SW/PyRhs.lean: sw2dComputeRHS with its flattened traces, gathers, wall reflection, face maxima and sources; shown equal node by node to the strong form already modelled (C80) plus sources; conservation of tracer by pairing faces, constant concentration by linearity, lake at rest over a slope refuted on the square.
* **C115 Weak-form shallow water rates** - SW/PyWeak.lean: sw2dComputeRHS_curved with its cubature and Gauss traces, face maxima, mass solves (V V^T / J, or two triangular solves with the Cholesky factor on elements listed as curved). The result is characterised by testing with every polynomial; totals by an involution on the Gauss points, constant concentration and still water by definiteness of the inner product. The pairing of the faces is a parameter, so periodic maps are covered.
* **C116 Periodic index arrays** - SW/PyMaps.lean: makeMapsPeriodic with its candidate lists, the rule for several candidates, the dictionary and the overwriting of the map, and the two calls of sw2d_curved.py. Partners as a function by uniqueness; for the Gauss points of a channel the result is shown to be a pairing of the faces as C115 asks for, from the symmetry of Gauss points and weights. Repeated points and the corner nodes of the nodal arrays are refuted. `C116_choice`: which of several candidates is taken.
* **C117 Boundary tags of the channel** - SW/PyMaps.lean correctTable: loop invariant over the table; on meshes between x = 0 and x = 8000 the retagged faces are on the boundary, because neighbours lie on opposite sides of their common face. Refuted for meshes with interior faces on one of the lines.
* **C118 Runs of sw2d_curved.py** - SW/PyLoop.lean: midpoint step with filter, clock, step from the mean depth at rest, blow-up test, loop with fuel. Induction over the passes on top of C115 (totals, concentration), maximum over face nodes for the step, sum of lower bounds for the end of the loop. The Courant condition is refuted where the water is deeper than its mean depth at rest.
* **C119 Runs of sw2d.py** - SW/PyLoop.lean: right-hand side as written in the driver, shown equal to that of swhelpers/rhs.py (C114); fixed step, count of passes, list of files written. Induction over the passes. Refuted for runs of fewer steps than outputs.
* **C120 Drag coefficient** - SW/PyLoop.lean dragNode: minimum over the wall nodes, tanh rewritten as a logistic function; range, order, values at three distances, and the effect with C52.
* **C121 Second order in time** - Time/Midpoint.lean: convergence of the midpoint rule with variable steps in a normed space (Taylor estimates from bounds on derivatives, stability, induction over the steps inside a tube around the solution). SW/PyOrderProps.lean: a pass of either driver is a step of that rule for the filtered rates; the rates of sw2d.py are shown to be a function of the nodal values, Lipschitz on deep bounded states (Time/Lipschitz.lean: closure of bounded Lipschitz functions under the operations used).
* **C122 Convergence of the advection program** - Drivers/AdvecRun.lean: the whole of src/advec1d/main.cpp. Time/Dissipative.lean: the low-storage Runge-Kutta scheme on a linear dissipative system over Hilbert spaces (stability polynomial against the exponential, error of a perturbed solution). Drivers/PolySpace.lean: piecewise polynomials with the L2 inner product, the upwind operator and its dissipativity. Drivers/AdvecInterp.lean: interpolants of a travelling wave solve the semi-discrete equation up to a remainder. Drivers/AdvecRunProps.lean: the arrays of the program hold the nodal values of those polynomials; induction over the passes. The constant is not computed, so nothing is said about the Courant number 0.8 of the program. `C122_degenerate`: order 0 or no elements.
* **C123 The Python advection script** - Drivers/PyAdvec.lean: advec1d.py with NumPy semantics (flattening in Fortran order, index arrays, negative indices, shapes), and the array properties of the one-dimensional provisioner. Drivers/PyAdvecProps.lean: same rates as the C++ program, entry by entry; loop and convergence as in C122. Plotting is modelled as a list of fields. `C123_index`: what a number in brackets means.
* **C124 The Python Poisson script** - Heat/PyPoisson.lean: poisson2d.py (triplets with the appended border, sums of duplicates, negated matrix, load vector, Fortran order). Heat/PyPoissonProps.lean: the bordered matrix is the one of C99, hence invertible on connected meshes; weak form of what is returned, uniqueness, multiplier; exactness for polynomials without boundary flux; what a constant forcing gives.
* **C125 Shallow water on quadrilaterals** - Quads/Disc.lean: sw2dquads.py (fluxes, right-hand side, filter, two-stage step, loop with output and abort) over the quadrilateral provisioner. GridProps: what the provisioner stores, from C42, C47, C74. Conserve: balance of one element (parallelogram: constant Jacobian, divergence theorem) and cancellation across faces. FilterProps: the mean mode passes the filter with factor one, later modes with factor zero. RunProps: induction over passes. Demo: a trapezoid on which mass is created.
* **C126 Depth reconstruction at faces** - SW/Recon.lean: surfaceReconstruction of swhelpers/limiters.py on arrays, including the in-place change of etaP. ReconProps.lean: closed form, bounds, rest, continuous bed, lengths; refuted: arguments unchanged, independence of the side.
* **C127 Boundary tags of mesh files** - Mesh/Edges.lean: the uncalled buildBCTable(edges); Mesh/EdgesProps.lean: readMesh does not depend on line elements or tags (over the reader of C61), closed form of the uncalled function on triangles, its failures.
* **C128 Floating-point clocks** - Time/FloatClock.lean: rounding to nearest even with p digits and unbounded exponents, and the time loop common to all drivers with a rounded clock. FloatClockProps.lean: error bound, termination, number of passes; refuted: exactly the planned number, termination without condition.
* **C129 Order of the representatives** - Blitz/OrderProps.lean: the result of the compaction loops is a sublist of the sorted rows; the running update of getOrdering equals the sum of squared deviations.
* **C130 Reading row by row** - Csv/RowProps.lean: the relation between reader state and physical lines of C18, followed through any history and one parseRowValues; trimming removes carriage returns.
* **C131 Mesh files that end too early** - Mesh/CutProps.lean: the model of readMesh carries the variable `line` and the stream's end-of-file flag, so that a failed read leaves the old text or an empty one as `std::getline` does; the outcome of a complete file cut behind any of its lines is computed case by case.
* **C132 Meshes built from Python arrays** - Py/BuildMesh.lean, Py/BuildMeshProps.lean: the element array is a buffer of 64-bit words decoded as IEEE doubles and cast to int, as the code does whatever the dtype is; the rest is the proof of C61 from the element table on.
* **C133 The source tree is found from the path of the test program** - Output/Path.lean, Output/PathProps.lean: the executable path is a list of bytes, the buffer of 1024 bytes is explicit; the root is stated by the shape `root ++ "/bin/test..."`.
* **C134 What is on disk after any sequence of output calls** - Output/Files.lean, Output/FilesProps.lean: the disk is a function from names to contents, a history is a list of calls; induction over the history.
* **C135 What a VTK file shows** - Output/Vtk.lean, Output/VtkProps.lean: the grid handed to the VTK writer is a structure of points, values and cells; the specification `Pictures` names the place of every point in its element and the value of the field there.
* **C136 A mesh manager over its lifetime** - Mesh/History.lean, Mesh/HistoryProps.lean: the input functions of C61 again, with the state left by an exception; a program is a list of calls that carries on after exceptions. The invariant `Fits` (array sizes match counters) by induction over the calls; agreement of every call with the functions of C61; independence of the previous state.
* **C137 Partition maps belong to the mesh** - same files: METIS is a parameter with a contract (`MetisOk`).
* **C138 What the Python shallow water programs start from** - SW/PyInit.lean, SW/PyInitProps.lean: the arrays before the loop as functions of the node coordinates; balance stated by `SteadyAt`, the rotating shallow water equations with derivatives of functions on the plane; vorticity through the exactness of the differentiation matrices and the chain rule.
* **C139 Which states of a run of the curved driver are written** - SW/PyInit.lean, SW/PyOutProps.lean: the loop of C118 with the file numbers; induction over the passes.
* **C140 The curve to which the wall is fitted** - Curved/Headland.lean, Curved/HeadlandProps.lean: arc length and resampling as list functions; the specification `OnPolygon` places a point on a side of the polygon at a given length.
* **C141 Boundary tags and temperatures of heat2d.py** - Heat/Bound.lean, Heat/BoundProps.lean: the loop over faces and the masked assignments as list functions; the specification gives the four sides of the trapezoid and the temperature on each. A face whose middle is on a side has both ends there, a boundary argument by the apex of its element; nodes of a face are on a side or away from it by the gap between nodes. The run composes C47, C98, C110.
* **C142 Rounding does not change which nodes face each other** - SW/Rounded.lean, SW/RoundedProps.lean, Nodes1D/Rounded.lean, Nodes1D/RoundedProps.lean: coordinates, face masks and the nearness test with every operation rounded, for any arithmetic with relative error u and any stored reference nodes. Error of a coordinate (3 rho + 20 u)M; the maps depend on the test only at nodes of partner faces, where distances are 0 or at least 2 tol times the face. In one dimension the ends of elements are computed from the same integers. Refuted for a unit triangle at 2^52.
* **C143 The simple shallow water program from start to end** - SW/SimpleRun.lean, SW/SimpleRunProps.lean: filter, initial fields, first step, loop with output and exceptions as one function of the grid and the number of passes allowed. Induction over passes for the list of files; start, outcomes, end of the loop under bounds on depth and speed, and the whole run from water at rest. The last state is never written (C143_last).
* **C144 The full shallow water program from start to end** - SW/FullRun.lean, SW/FullRunProps.lean: filter, depth file, bed slopes, open boundary, sponge, loop with output and exceptions as one function of mesh, grid, list of open vertices, values of the depth file and number of passes allowed. Outcomes by cases (file too long, no open face, order five and above, no wall, else); induction over passes for the list of files; one pass as a two-stage update on shared memory.
* **C145 The incompressible flow program advances the flow** - Ins2D/Run.lean, Ins2D/RunProps.lean: the program as one function of its argument count, namelist text, mesh reader, number parser, contents of uninitialised memory and number of passes allowed; the construction of the Poisson matrix is a parameter of a more general function, so that the theorem about what would happen otherwise is about the same code. The refutation composes the nodes of a quadrilateral with the failing Vandermonde matrix of face 2 (C108). The loop is described by an independent specification (Ins2D/LoopProps.lean): filtering in place row by row, the midpoint rule, the step, the files and the ways out.
* **C146 The Burgers program from start to end** - Drivers/BurgersRun.lean, Drivers/BurgersRunProps.lean: the program as one function of its constants, LAPACK and the number of passes allowed; induction over the passes for states and files. For the shipped constants the step size follows from the second Gauss-Lobatto node, a root of the derivative of the Legendre polynomial (C70), which is enclosed tightly enough to count the passes exactly.
* **C147 What is printed** - Output/Print.lean, Output/PrintProps.lean: a stream is its text with the notation and precision of real numbers; how a real number is written is a parameter (a word without blanks or line ends). An independent reader of printed matrices (lines, words, decimal numbers) recovers size and entries, for triplet matrices after any history (C01) and for well-formed compressed ones; the lines of a solver report; the tables of a mesh after any history (C136).
* **C148 The Poisson programs from start to end** - Drivers/PoissonRun.lean, Drivers/PoissonRunProps.lean: src/poisson1d/main.cpp and src/poisson2d/main.cpp composed from the operators of C105, C106, the solver of C29-C35, the flattening of C10 and the printing of C147. GMRES sees a vector of the Euclidean space; an operator that throws counts as a failed callback whose state keeps the exception. Proved: the callbacks' state is carried through `solve` unchanged (induction over its loops); both operators are linear (by the closed forms of C105, C106); then C33, C34, C64 apply. Files, fields, console text and error are given explicitly. In exact arithmetic.
* **C149 Sparse triplets built from arrays** - Sparse/Arrays.lean, Sparse/ArraysProps.lean: the two array constructors over lists as array contents (`max_element` as its loop, `+ 1` with overflow) and `swap` member by member. The object built satisfies the invariant of C01 with the first nnz entries, so histories and conversion follow from the theorems of C01 and C04.
* **C150 Rounding does not change which nodes of quadrilaterals face each other** - Quads/Rounded.lean, Quads/RoundedProps.lean: the bilinear coordinates, face masks and nearness test with every operation rounded. Error of a coordinate (5 rho + 40 u)M; the tensor product of Gauss-Lobatto points has no node near a side without being on it, so no condition on the nodes besides their spacing is left. Refuted for a unit square at 2^52.
* **C151 Where the Jacobi routines yield NaN** - Jacobi/Special.lean, Jacobi/SpecialProps.lean: the routines over numbers, infinities and NaN (division by zero, roots of negative numbers and poles of tgamma as in IEEE 754, no roundings); induction over the recurrence shows that the exact model hides no division by zero, except at alpha + beta = -1.
* **C152 A run that has broken down is noticed** - Special/Val.lean (numbers, infinities and NaN with IEEE comparison, `std::max`, and the reductions of blitz and numpy), Special/Breakdown.lean (the five tests and the passes around them, right-hand sides arbitrary), Special/BreakdownProps.lean: exact criterion of each test by induction over the field through an order embedding of the values other than NaN into the extended line; NaN at a node stays by induction over stages and passes; refuted for four programs.
* **C153 Dry nodes do not spoil the shallow water fluxes** - SW/Special.lean (speeds, coefficients, star step, surface terms and time step over numbers, infinities and NaN), SW/SpecialProps.lean: agreement with the exact model at positive depths, exact criterion for the maxima from the general lemma on `blitz::max`; refuted at dry nodes. The exact models of C51, C80 and the runs built on them assume wet states.
* **C154 Elements are stored counter-clockwise in floating-point arithmetic** - Mesh/Rounded.lean (the same model `ccw` of the loop over numbers whose operations round), Mesh/RoundedProps.lean: forward error bound of the determinant, then equality of the two loops by induction over the elements; counterexample in 53-bit arithmetic.
* **C155 The convergence history of a GMRES call** - Gmres/Verbose.lean (the loops of the solver with the output statements put back, and a screen with the format state of `std::cout`), Gmres/VerboseProps.lean. For every arithmetic, callbacks that may fail and start: `C155_same` (asking for the history changes nothing in what is returned, in the vector or in the calls made; not asking writes nothing), `C155_history` (either nothing is written, or a heading, a line for the guess and one line for each inner iteration finished, numbered cycle by cycle, with the rate the quotient of successive norms and the iteration numbers returned those of the last line; a failing iteration writes no line). In exact arithmetic `C155_exact`: nothing is written exactly when the guess is within the tolerance, the history starts with its relative residual, no line is above the one before it, also across restarts, rates lie between 0 and 1, and unless the solver breaks down the last line is the relative residual of the vector returned. `Shows.unique`: the lines determine the history. `C155_format` refutes that the stream is left as it was. Drivers/PoissonShow(Props).lean: the console of poisson1d, history and closing line (`C155_poisson1d`), and `C155_shipped`: the right-hand side of the shipped program is above the tolerance, so it always shows a history and prints its error with two digits after the point.
* **C156 The set-up of the curved shallow water program** - SW/CurvedStart.lean (sw2d_curved.py lines 35-109 put together from the models of C47, C95, C112, C113, C117, C140), SW/CurvedStartProps.lean, SW/CurvedStartDemo.lean. `C156_faces` (which faces are fitted, in which order), `C156_list` (which elements are handed on as curved, by the tags and the corners of the mesh file), `C156_straight` (refutes the curved walls: for every mesh, curve and spline routine the coordinates afterwards are those before, and the nodes of every face lie on the segment between its corners in the mesh file), `C156_needs` (refutes that it always returns: it raises without a node within 19 of the origin, whose indices it never uses, or without a wall node in its window), `C156_run` (on a channel given by its mesh file, every pass of the time loop keeps the totals up to the cubature error on the listed elements, from the mesh file on). A channel of four triangles on which the set-up returns and lists one element, and which meets all hypotheses of `C156_run`; a channel of two triangles on which it raises (`basin_start`, `channel_raises`).
* **C157 Stability of the advection programs** - Time/TwoStep.lean: two steps of LSERK4 on a dissipative operator with `dt ‖A‖ ≤ 2/5` do not increase the norm, up to the rounding of the coefficients. One step can (the stability polynomial is not dissipative for every such operator), so the proof writes the square of the norm after two steps as a Gram form and certifies its sign; `scheme_stable` iterates it. Drivers/Inverse.lean: inverse inequalities for polynomials of degree N with explicit constants from the Legendre basis the code itself computes (C48), hence `‖A‖ ≤ 3/2 (N+1)² s`. Drivers/AdvecStableProps.lean: the programs, by the refinement of C122 and C123. `HasEnergy` is the specification of the energy; `HasEnergy.unique` shows that it is determined by the field. The example runs the script with a step profile to its end.
* **C158 Rounded Runge-Kutta coefficients** - Time/Doubles.lean (the arrays as `fl 53` of the quotients, the lists handed to Python, a step with given arrays), Time/DoublesProps.lean: the sixteen-digit numerators are computed by the kernel and shown to be the only closest doubles by a gap lemma; the tableau, the order conditions and the stability polynomial with these numbers; `C158_close` compares with the exact quotients for every Lipschitz right-hand side, so that the theorems about the exact quotients (C49, C75-C79, C122, C157) carry over with an explicit error per step.
* **C159 Time stepping in floating-point arithmetic** - Time/FloatStep.lean (the two update statements of the stage loop with every product and sum rounded), Time/FloatStepProps.lean: the errors of a stage against the exact stage (`stage_pert`, chained five times), then two steps at a time as in C157 (`pert_stable`), and a telescoping sum of propagated local errors for the distance to exact arithmetic (`pert_close`).  The rounding of the right-hand side enters as a hypothesis; the norm enters by the factor `κ` between norms of fields with entries of the same size, which exists on every grid (`C159_entries`).
* **C160 Histories of a one-dimensional provisioner** - Nodes1D/Life.lean (object with unwritten arrays, `buildNodes`, `computeJacobian` and the Python getters; LAPACK may fail at any call), Nodes1D/LifeProps.lean: an invariant by induction over the calls, using C28, C47, C63 and C59. Refuted for `computeJacobian` on an object without nodes.
* **C161 Filtering over and over** - SW/FilterDecay.lean: the filter matrix multiplies the coefficients in the orthonormal modes (`GridSpec.damp_step`, by induction `GridSpec.damp_iter`), so the coefficients up to the cut-off stay and the others shrink at least by the largest of the damping factors below one; the kept part is specified as the orthogonal projection (`LowPart`), not by modes.
* **C162 How large a time step may be** - Time/Limits.lean: for an operator that conserves the energy the squared norm of a step is a combination of the squared norms of the powers of the operator (`skew_sq`) whose coefficients are evaluated exactly from the doubles (`gam_q`), which gives both directions; for symmetric operators the eigenvector basis reduces the claim to bounds of a polynomial of degree five on an interval (`amp_stable`, `amp_unstable`).
* **C163 A Python session with a triangular provisioner** - Py/Session.lean (storage of the provisioner with an unwritten filter, contexts as pointers into it, arrays as copies; one step function for `setCoordinates`, `buildFilter`, `dgContext`, reads and stores), Py/SessionProps.lean: an invariant on sizes by induction over the calls, last-write arguments for coordinates and filter, a simulation for stores; uses C39, C47, C59, C95. Refuted for the Jacobian after `setCoordinates`.
* **C164 A quadrilateral filter and the files written before it** - Quads/History.lean (a provisioner as its stored inverse, its filter and the files written; steps `writeFieldToFile` and `buildFilter`), Quads/HistoryProps.lean: an invariant on the stored inverse by induction over the calls; the Vandermonde matrix of the equidistant output points is a Kronecker square, which determines what the wrong inverse does. Holds at order one or when no file precedes `buildFilter`; refuted at every other order for every history with a file before it.

## Trusted base

1. **Lean's kernel** (4.33.0) and the Mathlib it is built against.
2. **Axioms**: only `propext`, `Classical.choice` and `Quot.sound`. No theorem uses anything else (no `sorry`, no
   compiler axiom, no bit-blasting). Finite tables (`Cub/Checks*`, concrete witnesses) are reduced by the kernel (`decide +kernel`).
3. **The reading of the C++ source.** The model is written by hand; each definition cites the lines. The seeded-bug log
   (`seeded/LOG.jsonl`) shows which theorems notice a wrong reading.
4. **Contracts of libraries that are not in /repo**, stated next to their use:
   * Blitz++: whole-array assignment evaluates element by element in storage order over the extent of the left side and without a temporary;
     copying an `Array` shares memory; iterators run in storage order; indices and shapes are not checked (no `BZ_DEBUG`).
     An access outside the storage is the outcome `Out.ub`.
   * blitz reductions and numpy on NaN (`Special/Val.lean`): `blitz::max` starts from the lowest double and takes over an entry that compares greater, `blitz::sum` adds up from 0, `numpy.max` hands NaN on; no
     `-ffast-math` (CMakeLists.txt sets none).
   * LAPACK: `Dense/Contracts.lean` and `Dense/CholProps.lean` (`GesvOk`, `GetriOk`, `PotrfOk`, `PotrfFull`, `SyevdOk`), `Ctx/CubatureProps.lean`
     (`GesvSolves`): what a call with `info = 0` returns in exact arithmetic and when `info` is zero. Every contract is inhabited
     by an exact solver (`exactPotrf_full`, `Dense/ExactEig.lean`, `Lapack.Ok` witnesses), so no theorem is vacuous through it.
   * CXSparse (`cs_compress`, `cs_dupl`, `cs_droptol`, `cs_transpose`, `cs_multiply`, `cs_spalloc`): modelled as definitions in `Sparse/Csc.lean`.
   * UMFPACK: allocation tokens and a success bit (`LU/Model.lean`).
   * scipy: `csc_matrix` adds up values given for the same place; `splu(A).solve(b)` solves the system when `A` is nonsingular and `splu` raises otherwise (`Heat/Model.lean`).
   * numpy and scipy: `argsort` returns the indices in an order in which the entries do not decrease, equal entries in any order (`IsArgsort`); `griddata` with method 'linear' in one dimension is `np.interp` (`interpAt`, `Curved/Headland.lean`). `splrep` with `splev` is an arbitrary function of the parameters and points that may raise (`curvedStart`); no theorem assumes anything about it.
   * scipy: `solve_triangular` solves the system with the upper triangle of the matrix, or its transpose with `trans='T'`, when the diagonal has no zero (`TriSolves` in `SW/PyWeakProps.lean`).
   * METIS: `MetisOk` (Mesh/HistoryProps.lean): if it succeeds, one part number below the number of parts per element and per vertex; if it fails it has written nothing. Nothing is assumed about the quality of the partition.
   * `std::sort`/`std::stable_sort`: any function returning a sorted permutation (`IsSort`). `std::unordered_map`/`std::map`: finite maps.
   * `std::stod`, `std::getline`, `operator>>`, stream state: `Csv/Model.lean`, on character lists, numbers by their decimal value.
   * boost::python/numpy: `from_data` is a view on storage with given shape, strides and element size (`Py/Model.lean`);
     `return_internal_reference`/no call policy decide what is kept alive (`Py/Life.lean`).
5. **Arithmetic.** `index_type` is C `int`: overflow is modelled where sizes are multiplied (C09, C28, C65, C74, C21); elsewhere naturals, i.e. the statement is
   about sizes that fit. `real_type` is `ℝ` (or an arbitrary field, or an arbitrary type with arbitrary comparisons) as
   stated per property. Rounding errors are not modelled: theorems over `ℝ` are about exact arithmetic; theorems over abstract arithmetic hold for
   IEEE doubles as well.

## What is modelled

| Code | Model | Properties |
|---|---|---|
| SparseTriplet.{hpp,cpp}, CSCMatrix.{hpp,cpp} | Sparse/ | C01-C09, C65 |
| BlitzHelpers.hpp, kron | Blitz/ | C10-C15 |
| CSVFileReader.{hpp,cpp}, CsvOutputter.cpp, VtkOutputter.cpp file names, PathResolver join | Csv/, Output/ | C16-C19, C55-C57 |
| MeshManager.{hpp,cpp} except the METIS call | Mesh/ | C20-C26, C61, C62 |
| Nodes1DProvisioner.cpp | Nodes1D/ | C27, C28, C47, C63, C71, C160 |
| GMRESSolver.{hpp,cpp} | Gmres/ | C29-C35, C64, C155 |
| LUSolver.{hpp,cpp}; DirectSolver, EigenSolver, DenseMatrixInverter, DenseCholeskyFactorizer | LU/, Dense/ | C36, C37 |
| JacobiBuilders.cpp | Jacobi/ | C48, C68-C70 |
| Triangle/QuadNodesProvisioner.cpp | DG2D/ | C38-C47, C66, C67, C71-C74 |
| buildCubatureVolumeMesh, buildGaussFaceNodes, context classes | Ctx/, Cub/ | C58, C93, C94 |
| LSERK4.hpp, advec1d, burgers1d | Time/, Drivers/ | C49, C75-C79, C122, C157-C159, C162 |
| src/burgers1d/main.cpp 28-117 as a whole | Drivers/BurgersRun | C146; exact reals, `count` unbounded, printing other than the error left out |
| src/poisson1d/main.cpp 35-112, src/poisson2d/main.cpp 58-116 as wholes | Drivers/PoissonRun | C148; exact reals; disclaimer, verbose lines of the solver and the unused arrays left out; poisson2d from the provisioned grid on |
| include/SparseTriplet.hpp 47-81, src/SparseTriplet.cpp 55-64 | Sparse/Arrays | C149; `nnz` non-negative; negative dimensions recorded as 0 |
| src/SparseTriplet.cpp 16-25, 66-78, src/CSCMatrix.cpp 17-26, 149-163, src/GMRESSolver.cpp 50-74, 91-101, src/MeshManager.cpp 44-52, 564-570, src/poisson2d/main.cpp 102-106 | Output/Print | C147; text of real numbers a parameter, settings other than notation and precision at their defaults, stream errors left out |
| advec1d.py, 1D array properties | Drivers/PyAdvec | C123, C157 |
| poisson2d.py lines 24-65 | Heat/PyPoisson | C124 |
| sw2dquads.py (fluxes, RHS, main loop); QuadNodesProvisioner physical grid, maps, filter as it uses them | Quads/ | C125; mesh file, plotting/vtk output and the initial bump are parameters |
| swhelpers/limiters.py surfaceReconstruction | SW/Recon.lean | C126; NumPy stretching of arrays of length one is left out |
| src/MeshManager.cpp buildBCTable(edges) (never called) | Mesh/Edges.lean | C127 |
| clocks `t += dt` of all drivers in floating point | Time/FloatClock.lean | C128; overflow and underflow left out, rounding inside a pass is part of the parameter `pass` |
| sw2d, sw2d-simple, swhelpers/{flux,limiters,rhs}.py | SW/ | C50-C54, C80-C92, C161 |
| src/sw2d-simple/main.cpp 38-174 as a whole | SW/SimpleRun | C143; printing left out, `count` unbounded, the mesh file is replaced by the grid built from it |
| src/sw2d/main.cpp 44-249 as a whole | SW/FullRun | C144; printing left out, `count` unbounded, mesh and depth file replaced by grid and values, the missing declaration of the provisioner supplied |
| Poisson2DSparseMatrix.cpp | Poisson/ | C60, C98-C104 |
| poisson1d, poisson2d drivers (operator, right-hand side) | Drivers/ | C105, C106 |
| ins2d (namelist, computeRHS, step size, loop) | Ins2D/ | C107, C109; operator start-up C108 |
| src/ins2d/main.cpp 52-265 as a whole; src/QuadNodesProvisioner.cpp 840-872 | Ins2D/Run | C145; printing left out; the mesh file is a function from names to meshes, the text of numbers a function from strings; the factorisation by UMFPACK a parameter |
| heat2d.py (assembly, factorisation, loop, scaling of output) | Heat/Model | C110; boundary tags and data are parameters |
| heat2d.py 17-110 (boundary tags, step, boundary data) | Heat/Bound | C141; exact reals; unused index lists `bottom`, `bottomLeft`, `mapD`, `mapN` only through the KeyError |
| TriangleNodesProvisioner.cpp 691-727, 807-808, 939-971, Nodes1DProvisioner.cpp 69-75 in rounding arithmetic | SW/Rounded, Nodes1D/Rounded | C142; unlimited exponents, no fused operations; the reference nodes are given |
| QuadNodesProvisioner.cpp 225-275, 358-362, 500-520 in rounding arithmetic | Quads/Rounded | C150; unlimited exponents, no fused operations; the reference nodes are given |
| include/VandermondeBuilders.hpp buildVandermondeMatrix_numpy | Curved/Vand | C111; contiguous array of doubles assumed |
| meshhelpers/curved.py adjustStraightEdges | Curved/Snap | C112; `xSpline`, `ySpline` of equal length |
| meshhelpers/curved.py deformAndBlendElements | Curved/Blend | C113; triangles; spline evaluation is a parameter |
| swhelpers/rhs.py sw2dComputeRHS, swhelpers/flux.py | SW/PyRhs | C114; exact reals, `np.float` taken as float (removed in NumPy 1.24) |
| swhelpers/rhs.py sw2dComputeRHS_curved, sw2d_curved.py lines 111-116 | SW/PyWeak | C115; exact reals, straight elements, arrays of the shape of the grid; dry points give `nan` in the code and are not covered |
| swhelpers/maps.py, sw2d_curved.py lines 40-44, 121-145 | SW/PyMaps | C116, C117; exact reals, non-negative indices, `xO`, `yO` of equal length; an array with no or several entries as a condition follows NumPy before 2.2 |
| sw2d_curved.py lines 175-184 and its time loop; sw2d.py right-hand side and time loop | SW/PyLoop | C118-C120; exact reals; the loop has fuel and theorems hold for every amount of it; plots and prints are left out; of the files written only the step numbers are kept; NaN does not occur in the model |
| src/PathResolver.cpp, src/whereami.c (Linux) | Output/Path | C133; the system call that reads the executable's path is a parameter |
| CsvOutputter, OutputterBase: calls and disk | Output/Files | C134; text of numbers as in C56; a disk on which a write succeeds completely or not at all |
| include/VtkOutputter.hpp writeFieldToFile, insertAllCells | Output/Vtk | C135; exact reals; the writer of VTK itself is not modelled |
| src/MeshManager.cpp 57-61, 74-122, 130-313, 491-562, 616-649 as operations on one object | Mesh/History | C136, C137; uninitialised tables are 0; a failing METIS has not written to the maps |
| sw2d_curved.py 22-34, 151-161, 187-238, 288-300; sw2d.py 163, 186-212 | SW/PyInit | C138, C139; exact reals; plots and prints left out |
| sw2d_curved.py 60-62, 72-93 | Curved/Headland | C140; exact reals; `splrep`, `splev` not modelled |
| sw2d_curved.py 35-109 as a whole | SW/CurvedStart | C156; exact reals; the `VtkOutputter` of line 54 and the prints left out; `splrep`, `splev` an arbitrary routine that raises or yields a curve |
| pyblitzdg.cpp and the `*_numpy` methods | Py/ | C59, C95-C97, C163 |
| QuadNodesProvisioner.cpp buildFilter and splitElements with VtkOutputter.hpp writeFieldToFile, over histories | Quads/History | C164; exact reals; fields of the right size |

## Conformance of the model

The proofs say nothing about whether the model is the code. As a check against an oracle that was not written with the model, the
repository's own unit tests are run on it (Verif/Conform). The expected values are those of the authors, who could run the code. These
are tests by kernel evaluation, not proofs, and no property rests on them.

* Helpers: SparseTripletTests.cpp (the array constructor and swap under C149), CSCMatrixTests.cpp (without the
  constructor from a `cs_di` pointer), BlitzHelpersTests.cpp (without storage order).
* Files: CSVFileReaderTests.cpp; MeshManagerTests.cpp, including `readMesh` on coarse_box.msh quoted in full (`coarse_read`: vertices,
  elements, EToE, EToF and boundary table are those of the test).
* Grids: Nodes1DProvisionerTests.cpp (connectivity, face mask, grid, Jacobian, volume maps, normals);
  TriangleNodesProvisionerTests.cpp, volume-to-face maps of coarse_box.msh (`coarse_maps`, `coarse_hash`).

All agree with the model. Tests that compare floating-point results of LAPACK, UMFPACK or Gauss rules with tables are not run: the model
of these parts is over the reals.

## What is not modelled

* `whereami.cpp` (third party) and the part of PathResolver that asks for the executable path; `Warning.hpp`; `Traits.hpp` (type traits).
* The inside of METIS (contract under C137), VTK's own writers (file contents), console output other than that of C147 and C155 (the progress lines of the programs; the characters of the numbers in a GMRES history, which C155 gives as value, notation, precision and width).
* Rounding errors, except those of C128, C142, C150, C154, C158 and C159; convergence orders on non-polynomial data, except C121.
* `DGContext2D::computeDifferentiationMatrices` (include/DGContext2D.hpp lines 222-254), which nothing calls.
* `cppdepends.py`, `setup.py` and CMake files. The unit tests are not modelled; part of them is run on the model, see above.

## Disagreements between the code and the properties

Each is a theorem about the model (the negation on a witness, or for a whole family), listed in the manifest under the property.

* C164 `QuadNodesProvisioner::computeInterpMatrix` overwrites the stored inverse Vandermonde matrix. From order two on, `buildFilter` after any `writeFieldToFile` gives a wrong filter, which turns functions of the first reference coordinate into functions of the second.
* C163 `setCoordinates` replaces the coordinates only: every context then shows new coordinates with the Jacobian, metric terms, normals and face scales of the old ones. Before the first `buildFilter` the property `filter` shows unwritten memory.
* C160 `computeJacobian()` before `buildNodes()` indexes with an uninitialised face mask.
* C06 `nnz()` is 1 for a matrix pruned to nothing. C09/C65 copying or assigning overflows `int` for large shapes, loses the shape of empty matrices, assignment to a moved-from object dereferences null.
* C12 `kron` computes kron(A^T, B) and runs out of bounds for non-square A.
* C13 `unique` of zero rows reports one row; C15 `uniquetolMatlab` chains rows so that a row can be far from its representative.
* C19 `getNumRows` leaves the reader at the end. C24 mesh elements with a number of tags other than two are misread. C25 reading elements before vertices writes out of bounds.
* C21 degenerate faces and `int` overflow in the connectivity keys. C23 clockwise quadrilaterals become self-intersecting. C67 two-column vertex arrays are read as three-column.
* C28 one-dimensional maps overflow `int` from K = 32768.
* C29 NaN tolerances pass validation; C31 a NaN residual is reported as success.
* C36 copying an LUSolver releases the factors twice.
* C39 filter cutoff equal to the order, zero or negative exponents; the quadrilateral filter damps by mode position. C40 repeated hash building appends.
* C45 split quadrilaterals are clockwise. C46 quadrilateral interpolation overwrites the stored inverse.
* C52 drag sign in swhelpers/rhs.py. C53 limiter leaves negative depths. C54 minmod of negative or equal arguments.
* C55 file numbers beyond seven digits lose order; C56 files written with `,;^|` cannot be read back; C57 empty paths.
* C58 the cubature rules 3 and 4 have missing commas. C59 `GaussFaceContext2D.sx` has the wrong shape.
* C156 sw2d_curved.py announces curved walls but runs on straight ones: `deformAndBlendElements` works on copies (C113), so `nodes.setCoordinates` writes back the coordinates it read. The fitted elements are still treated as curved, with cubature in place of the exact mass matrix. The set-up also raises on every mesh without a node within 19 of the origin, for indices that are never used.
* C155 `GMRESSolver::solve` with `verbose` sets `std::scientific` and `setprecision(2)` on `std::cout` and never restores them: poisson1d, which asks for the history, then prints its error in scientific notation with two digits after the point.
* C154 the orientation test computes the determinant without a guard: a clockwise triangle of doubles, thinner than the rounding errors, is stored clockwise.
* C153 at dry nodes the Lax-Friedrichs coefficient differs between the two sides of a face or is the lowest double; the star step of sw2d, meant for banks, divides by the star depth after it has been set to 0 and makes the whole element NaN at the first node without water above the higher bed, even at rest; with no wet face node the time step is negative.
* C152 advec1d and burgers1d never notice NaN (`blitz::max` passes NaN over, so `isnan(u_max)` is dead code), sw2d-simple and ins2d only when every entry is NaN; sw2d tests the elevation of the start of the pass, so that what the last pass leaves is untested. The error that advec1d and burgers1d print leaves nodes with NaN out.
* C66 an unmatched face node silently gets index 0. C69 Jacobi-Gauss weight for N = 0 is always 2; first diagonal entry overwritten for small alpha+beta, so that for unequal real parameters with alpha+beta < 10 eps every rule is wrong (exact criterion in `C69_gauss_real`); alpha+beta = -1 (Chebyshev weight of the first kind among them) makes gamma0 and the first off-diagonal entry NaN: polynomials and weights are then NaN throughout (C151). C74 mask overflow.
* C75 burgers1d evaluates boundary data at wrong stage times. C82-C92: shared memory of copied fields (C86), in-place filter (C85), set-up overruns (C87, C91), sloping beds are not at rest (C89), lagging elevation check (C92).
* C93 cubature contexts with fewer points than nodes overrun, with more the weak-derivative systems are singular. C95 strides, element types and shapes of numpy arguments are not checked. C97 contexts dangle after their provisioner is dropped.
* C60 the Poisson operator is not symmetric with some boundary tags. C101 the relative tolerance fuses distinct nodes of small meshes far from the origin. C102 the continuous operator is padded and singular.
  C103 the cubature operator gives constants negative energy. C104 `getOP()`/`getMM()` are exchanged in C++.
* C105 the surface term of the 1D Poisson operator lacks `Fscale`: not symmetric and not definite.
* C106 the surface term of the 2D Poisson operator lacks `Fscale` and its penalty is proportional to the largest Jacobian: the discrete equation changes with the unit of length. The driver's right-hand side is half the Laplacian of what it writes as `uexact`.
* C107 the reader of ins2d refuses a file containing a line of blanks; a value with one '=' makes the file unreadable and one with two is silently cut short.
* C108 on quadrilaterals the face mass matrix of face 2 is built from the coordinate that is constant along it: building the operator or the boundary vector throws for every order. ins2d, which runs on quadrilaterals, never reaches its first step. With order zero a face's second node is read. Boundary data larger than the grid overruns its buffer.
* C109 computeRHS uses the array `vort` without ever writing it; the list of wall nodes is looked up but not used, so that flow passes through walls; no pressure is computed in the loop, so fluid at rest falls; the step is the Courant number times the smallest rate (initially the smallest rate divided by the Courant number) instead of the Courant number divided by the largest; the clock is advanced by the step of the next pass.
* C110 heat2d.py adds the boundary contribution without the factor kappa*dt, so the temperature tends to the steady state divided by kappa*dt; the amplitude is lost in what is written, which is scaled to maximum one. The script also imports a module `cghelpers` that is not in the repository and calls the constructor of Poisson2DSparseMatrix with two arguments where the binding takes four; the model is of what follows.
* C111 buildVandermondeMatrix with the inverse and fewer points than `order + 1` writes past a buffer (the inverter copies all columns into rows*rows entries).
* C112 adjustStraightEdges moves both ends of a face to the same sample when it is nearest to both: the edge collapses.
* C113 deformAndBlendElements has no effect: `ctx.x[ids, k] += ...` adds to a fresh copy made by the property `x` and drops it; the function returns the coordinates unchanged. The tests `len(v1s_inds) == 0` and `> 1` look at the length of the tuple returned by `np.where`, which is always 1.
* C114 sw2dComputeRHS is not well balanced: still water with a level surface over a sloping bed gets a non-zero rate of momentum (the pressure term is differentiated after squaring the interpolated depth). `np.float` of line 262 no longer exists in NumPy since 1.24, so the function raises AttributeError there.
* **C116**: `makeMapsPeriodic` builds its dictionary from the keys without repetitions and the partners with repetitions: if a point is listed twice, all later points get the partner of an earlier one (`C116_repeated_false`). A point of the nodal arrays belongs to up to two faces of its element; all its entries are redirected, so nodes of interior faces at the ends of outflow faces are paired with nodes at the other end of the channel (`C116_corner_false`). The driver does not use the nodal array `vmapP` afterwards; the Gauss points it does use belong to one face only.
* **C117**: `correctBCTable` does not look whether a face is on the boundary: on a mesh with an interior face at x = 0 or x = 8000 it tags the interior face (`C117_interior_false`).
* **C118**: sw2d_curved.py sizes its steps with the wave speed of the mean depth at rest; where water at rest is deeper than that (its own initial state is, at the crest) the Courant number exceeds the one asked for by the factor √(h/H̄) (`C118_dt_false`).
* **C119**: sw2d.py computes its output interval by integer division; with fewer steps than outputs wanted it is zero and the first pass raises ZeroDivisionError (`C119_short_false`). The step is computed once, from the initial state, and not adapted later.
* **C120**: the drag coefficient is positive at every node, so the sign error of swhelpers/rhs.py (C52) makes every node flowing along the y axis gain energy (`C120_effect`).
* **C123**: on instability the script executes `raise("...")`, which raises TypeError (a string is not an exception) instead of the message; `xplot` and `uplot` are computed and not used, `plot(x, u)` draws one line for each node of the reference element.
* **C124**: poisson2d.py calls `Poisson2DSparseMatrix(ctx, meshManager)`; the module exports constructors with four arguments only, so the script as it stands ends with ArgumentError at line 24 (and `np.float` is gone since NumPy 1.24). The border is added without regard to compatibility: for a forcing whose integral is not zero the excess is spread equally over the nodes instead of being weighted with the mass matrix, so that adding a constant to the forcing changes the result (C124_constant_refuted). With a Dirichlet face the sum of the nodal values is still forced to zero. The only polynomial the concrete example of C124_exact covers is a constant (order one).
* **C125**: `QuadNodesProvisioner::buildFilter` walks over modes with the loops of a triangle (i + j <= N), so of the (N+1)^2 modes only the first (N+1)(N+2)/2 get a factor and the rest get zero: sw2dquads.py, which filters every rate, can never change a mode beyond these (C125_frozen). The strong form uses the nodal divergence times the pointwise Jacobian factors and a lift scaled pointwise by surface over volume Jacobian; that conserves mass on parallelograms only (C125_mass_refuted: one trapezoid). The mesh the script names, input/coarse_box_quads_fine.msh, has 64 elements off a parallelogram by up to 3.6e-4.
* **C126**: `surfaceReconstruction` adds to its argument `etaP` in place, so the caller's outer surface changes; the depth at a face depends on the side from which it is computed, so the two elements sharing a face do not agree on it (its call in swhelpers/rhs.py line 224 is commented out).
* **C127**: `readMesh` collects line elements but never passes them on: every boundary face becomes a wall, whatever tags the file carries. The overload of `buildBCTable` that takes line elements is never called; it would tag interior faces lying on the (infinite) line of a line element, all faces of a mesh with side below about 2e-3 (the tolerance is an area), and read coordinates of quadrilateral meshes with stride 4 out of an array with stride 3.
* **C128**: with double clocks the number of steps is not the planned one: for dt = 0.1 and finalTime = 1 every driver makes eleven steps instead of ten (sw2d.py then writes its "last" file one step before the end); with steps below half a unit in the last place of the clock the loops never end.
* **C131**: a mesh file that ends too early is not rejected in general. Cut behind `$Elements` it is accepted as a mesh without elements; cut among the element rows without a final newline the last row is used again for every missing one (C131_rows_repeated; in C131_cut_accepted the second triangle of a square is replaced by a copy of the first, and no face is a boundary face any more). With a final newline, or cut among the nodes or in the header, the code uses an element of an empty vector or uninitialised variables. The return values of readLine and parseRowValues are ignored throughout.
* **C132**: `buildMesh` reads the element array as doubles whatever its element type is. An integer array (numpy's default for a table of indices) gives a mesh in which every vertex number is 0, without complaint (C132_int64_wrong); a 32-bit array is read past its end. The doc string announces an Nv x K array, the code takes one row per element.
* **C133**: `PathResolver` finds the root only for programs whose path contains `/bin/test`. Longer paths than 1024 bytes overflow a buffer (C133_long); a directory called `x.exe` is shortened (C133_dot_exe); a backslash in the path selects the Windows delimiter (C133_backslash); for every other program, among them the drivers, the root is empty and building a file name from it reads in front of an empty string (C133_other, C133_driver, C133_top).
* **C134**: two calls with different fields or counters can name one file once a counter has more than seven digits (C134_collision). Output to a place that cannot be written is not reported (C134_silent).
* **C135**: for quadrilaterals the matrix that should interpolate to equidistant points is the identity, so what is drawn are the rectangles between the Gauss-Lobatto nodes. The picture is right all the same: the second mistake, the reversed order of the nodes, makes the cells counter-clockwise (C135_quad; the lattice reading under C45 would make them clockwise). But the call overwrites the stored inverse with one for the equidistant points (C135_quad_overwrites): from the first VTK file on, filters and interpolations built from the provisioner are wrong.
* **C136**: `readVertices` and `readElements` let `csvread` write the counters of the object before the file is known to be good. After a rejected table the counters describe the beginning of the new file and the array is the old one; exporting it then writes outside the exported array (C136_rejected_table, C136_rejected_program). A rejected mesh file leaves the vertices of the new file with the elements of the old (C136_rejected_mesh).
* **C137**: `partitionMesh` only prints that METIS failed and leaves maps of zeros, which are also what a partition into one part gives (C137_failure_silent). The maps survive the loading of another mesh; exporting them is then undefined if the new mesh is smaller (C137_stale, C137_stale_program), and before the first partition (C137_null).
* **C138**: `setCoordinates` moves the nodes of curved elements, and the vorticity is still formed with the metric of straight sides: it is wrong there by the derivative of the displacement (C138_vort_deformed).
* **C139**: the number of steps is planned with the first step and the output at the end of the run hangs on it. When the flow slows down the run takes fewer steps than planned and its last state is not written; in a short run no state but the first is (C139_last_false).
* **C140**: the wall nodes are put in order by x alone. On a vertical piece of wall the curve runs up and down in the order in which the nodes happen to be listed (C140_order_false). The program raises on every mesh without a node within 19 m of the origin, for the sake of two indices that are not used (C140_centre).
* **C141**: where the upper and the left side of the trapezoid meet, the nodes of both sides get the value of the left side, since it is assigned last; the value prescribed on the upper side differs by e^-8/4 (C141_corner_false). At the upper right corner the two sides agree.
* **C142**: the nearness test is relative to the face, but the coordinates carry errors relative to their size. In double precision a triangle with unit legs at x = 2^52 gets a wall node paired with the next node (C142_far_false); the bound shows no such effect while coordinates are below about 10^8 face lengths.
* **C150**: the same for quadrilaterals: a unit square at x = 2^52 gets a wall node paired with the next node (C150_far_false).
* **C143**: src/sw2d-simple writes before a pass, never after the last one: the state at the final time, the purpose of the run, is on no file, whatever the mesh (C143_last). On a mesh without walls one file is written before the exception (C143_no_wall).
* **C144**: src/sw2d too never writes its last state (C144_last). The blow-up test looks at the elevation computed before the pass, so a state that has blown up is used for one more pass, and with its number may be written (C144_run, C144_first). Fields at the start are written twice under number 0, by the set-up and by the first pass. A mesh without open faces is only noticed after the first files are written (C144_no_open), one without walls after three calls of the outputter (C144_no_wall).
* **src/sw2d/main.cpp** uses a variable `triangleNodesProvisioner` (lines 69 ff.) that is declared nowhere in the file; the model takes it to be a provisioner built from the mesh of line 64 ff. with order `n.N`.
* **C145**: src/ins2d cannot advance any flow. The matrix of its pressure equation is built before the loop, and building it throws for every quadrilateral mesh (C145_never, C145_throws).
* **C147**: `operator<<` of a GMRES report prints `out.msg.empty()` where the message is meant: whatever went wrong, the line reads "info: 0" (C147_message_lost). It also leaves the stream in scientific notation with two digits after the point, so src/poisson2d prints its largest value with three digits (C147_settings). The count in the first line of a printed compressed matrix is the allocated size: an empty matrix is announced with one entry (C147_csc_count). After a rejected vertex file, what is printed as the vertices mixes two files (C147_mesh_rejected).
* **C148**: src/poisson1d and src/poisson2d write `u` as the solution whatever flag the solver returns; poisson1d does not print the flag. On a mesh without walls poisson2d ends with an exception (C148_no_wall). Its right-hand side belongs to half the function called `uexact` (C106_exact_solution), and its "normMax u" is the size of the solution, not an error.
* **C149**: `SparseTriplet(nnz, ...)` with `nnz = 0` dereferences the end of an empty range. Sizes given by the caller are not compared with the indices; a size of zero with entries leaves an object that reports `empty()` and `nnz() > 0`.
