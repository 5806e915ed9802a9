{"id": "C01", "title": "SparseTriplet behaves like an append-only list of entries", "statement": "After any history of insert / expand / clear calls on a SparseTriplet, nnz() is the number of inserts since the last clear, and for every k < nnz() row(k), col(k), elem(k) are exactly the arguments of the k-th such insert; no insert ever writes outside the allocated arrays, and nzmax() >= nnz() always. The only failure is the documented exception raised when the capacity would exceed INT_MAX, and then no stored entry changes.", "quantifier": "every initial size, every finite sequence of insert/expand/clear calls with any arguments", "why_tests_cant": "the histories are unbounded and reallocation happens at size-dependent points", "anchors": ["include/SparseTriplet.hpp: SparseTriplet(rows,cols,nzmax), insert, expand, clear", "src/SparseTriplet.cpp: newSize, grow"]}
{"id": "C02", "title": "SparseTriplet growth is amortised linear", "statement": "Inserting n entries one by one into a SparseTriplet causes at most a constant multiple of n element relocations in total, and the allocated capacity never exceeds max(initial capacity, 2, 1.5 * number of stored entries).", "quantifier": "every initial capacity and every number n of insertions", "why_tests_cant": "an asymptotic bound over all n", "anchors": ["include/SparseTriplet.hpp: insert", "src/SparseTriplet.cpp: newSize, grow"]}
{"id": "C03", "title": "Dense to triplet conversion keeps exactly the entries above the tolerance", "statement": "SparseTriplet(mat, dropTol) stores precisely the positions (i,j) with |mat(i,j)| > dropTol, each exactly once, in row-major order, with the value mat(i,j), and its capacity equals the number of stored entries; with dropTol = 0 the triplet represents the same matrix as mat.", "quantifier": "every matrix size, every matrix content, every tolerance, any comparison predicate (so NaN included)", "why_tests_cant": "all matrices of all sizes", "anchors": ["src/SparseTriplet.cpp: SparseTriplet(const real_matrix_type&, real_type)", "include/BlitzHelpers.hpp: countNonzeros"]}
{"id": "C04", "title": "CSC conversion preserves the represented matrix", "statement": "Building a CSCMat from a SparseTriplet, or from a dense matrix, gives a matrix whose (i,j) value (sum of stored entries at (i,j)) equals the sum of the triplet's entries at (i,j), respectively mat(i,j) if |mat(i,j)| > dropTol and 0 otherwise; column pointers are monotone, start at 0 and end at the number of stored entries, and the entries of each column keep their insertion order.", "quantifier": "every triplet with non-negative indices (repeated positions allowed, indices beyond the declared size allowed), every dense matrix and tolerance", "why_tests_cant": "all entry lists, including duplicates and unsorted ones", "anchors": ["src/CSCMatrix.cpp: CSCMat(const SparseTriplet&), CSCMat(const real_matrix_type&, real_type)"]}
{"id": "C05", "title": "removeDuplicates sums duplicates and keeps the matrix", "statement": "After removeDuplicates no column of a CSCMat stores two entries with the same row, the represented matrix is unchanged, and the number of stored entries equals the number of distinct stored positions.", "quantifier": "every CSC matrix", "why_tests_cant": "all entry lists", "anchors": ["src/CSCMatrix.cpp: CSCMat::removeDuplicates"]}
{"id": "C06", "title": "prune removes exactly the small entries and nnz() reports what is left", "statement": "After prune(tol) the stored entries are exactly the previously stored entries with |value| > tol, in the same order, so prune(0) leaves the represented matrix unchanged; and nnz() then equals the number of stored entries.", "quantifier": "every CSC matrix, every tolerance", "why_tests_cant": "all entry lists, including the one where nothing survives", "anchors": ["src/CSCMatrix.cpp: CSCMat::prune", "include/CSCMatrix.hpp: nnz"]}
{"id": "C07", "title": "transpose is the matrix transpose and an involution", "statement": "transpose(A) represents the transpose of A, has swapped dimensions and the same number of entries; every column of the result is sorted by row index; transposing twice represents A again and yields sorted columns.", "quantifier": "every CSC matrix with in-range row indices", "why_tests_cant": "all matrices of all sizes", "anchors": ["src/CSCMatrix.cpp: CSCMat::transpose, transpose"]}
{"id": "C08", "title": "multiply is the matrix product", "statement": "multiply(A,B) represents the product A*B for all compatible matrices, stores at most one entry per position, and throws exactly when cols(A) != rows(B).", "quantifier": "every pair of CSC matrices over any commutative semiring of values", "why_tests_cant": "all matrices", "anchors": ["src/CSCMatrix.cpp: multiply"]}
{"id": "C09", "title": "Copying a CSCMat is always a safe deep copy", "statement": "Copy construction or copy assignment of any valid CSCMat writes only inside freshly allocated storage and yields a matrix equal to the original, later changes to one not affecting the other; swap exchanges contents.", "quantifier": "every valid CSC matrix, including large dimensions whose product does not fit in a 32-bit int", "why_tests_cant": "the failing sizes are too large to be exercised by unit tests", "anchors": ["src/CSCMatrix.cpp: CSCMat(index_type,index_type,index_type), CSCMat(const CSCMat&), operator=, swap"]}
{"id": "C10", "title": "Flattening a matrix and reshaping it back is the identity", "statement": "reshapeMatTo1D followed by reshape1DToMat with the same byRows flag returns the original matrix; reshape1DToMat followed by reshapeMatTo1D returns the original array; element (i,j) of an m x n matrix is found at position i*n+j (by rows) or j*m+i (by columns); exactly m*n array cells are touched.", "quantifier": "all sizes, contents and both orderings", "why_tests_cant": "all sizes", "anchors": ["include/BlitzHelpers.hpp: reshapeMatTo1D, reshape1DToMat, fullToVector, vectorToFull"]}
{"id": "C11", "title": "Index maps select from column-wise flattened fields", "statement": "For a field u stored Np x K and a map of node numbers below Np*K, fullToVector(byRows=false) followed by applyIndexMap yields out(k) = u(map(k) mod Np, map(k) div Np), and accesses stay in bounds exactly when all map entries are in range.", "quantifier": "all sizes, maps and fields", "why_tests_cant": "all sizes", "anchors": ["include/BlitzHelpers.hpp: applyIndexMap, fullToVector"]}
{"id": "C12", "title": "kron(A,B) is the Kronecker product", "statement": "kron(A,B) returns the (Ar*Br) x (Ac*Bc) matrix whose entry (i*Br+p, j*Bc+q) is A(i,j)*B(p,q).", "quantifier": "all matrices A and B of all sizes", "why_tests_cant": "the existing test uses a symmetric A, for which the defect is invisible", "anchors": ["include/BlitzHelpers.hpp: kron"]}
{"id": "C13", "title": "unique returns representatives and a scatter that reconstructs the rows", "statement": "For unique(A) = (gather, scatter): every index in gather is a row number, the gathered rows are pairwise different, scatter has one entry per row and row gather[scatter[i]] equals row i for every i; no index is read or written out of range. For a matrix with no rows both vectors are empty.", "quantifier": "every matrix over a totally ordered value type, every number of rows and columns, every (unstable) sorting algorithm", "why_tests_cant": "all inputs; result of std::sort on ties is unspecified", "anchors": ["include/BlitzHelpers.hpp: unique, details::CompareExact"]}
{"id": "C14", "title": "uniquetol assigns every row to a representative within tolerance", "statement": "For uniquetol(A,tol) with tol > 0: scatter gives every row a number below gather.size(), row i agrees with row gather[scatter[i]] within the column-scaled tolerance, each representative is assigned to itself, and gather lists distinct row numbers. In particular gathering and scattering a nodal field numbers all rows of A without omission.", "quantifier": "every matrix, tolerance, column ordering and sort outcome", "why_tests_cant": "in-place compaction and erase depend on the whole data layout", "anchors": ["include/BlitzHelpers.hpp: uniquetol, details::CompareEQ, details::CompareEQByDim, details::getOrdering"]}
{"id": "C15", "title": "uniquetolMatlab keeps each row within tolerance of its representative", "statement": "For uniquetolMatlab(A,tol), tol > 0: every row i agrees within the column-scaled tolerance with row gather[scatter[i]].", "quantifier": "every matrix and tolerance", "why_tests_cant": "chains of close rows are data dependent", "anchors": ["include/BlitzHelpers.hpp: uniquetolMatlab"]}
{"id": "C16", "title": "csvread returns exactly the table that the file renders", "statement": "For every rectangular table of non-blank fields free of delimiter characters, written one row per line with arbitrary runs of delimiters between the fields, arbitrary surrounding white space and arbitrary blank lines, csvread returns nrows = number of rows, ncols = number of columns, and the row-major sequence of the converted fields.", "quantifier": "every table, every admissible delimiter set, every layout of blanks, with or without a newline at end of file", "why_tests_cant": "infinitely many layouts", "anchors": ["include/CSVFileReader.hpp: csvread, parseRowIterator, tokenizeLine, getNonemptyLine", "src/CSVFileReader.cpp: countCols, readLine"]}
{"id": "C17", "title": "csvread never returns a ragged or partly converted table", "statement": "If any non-blank line after the skipped ones has a field count different from the first one, or a field that does not convert completely, csvread throws and returns nothing; if it returns, then data.size() = nrows*ncols.", "quantifier": "every file content", "why_tests_cant": "all malformed inputs", "anchors": ["include/CSVFileReader.hpp: parseRowIterator, strCast, csvread"]}
{"id": "C18", "title": "Reader line accounting and skipping", "statement": "After construction with nskip, the reader is positioned at physical line nskip and getLineNum() equals the number of physical lines consumed so far, after any sequence of readLine / skipLines / parse calls; construction throws exactly when the delimiter string is invalid, the file cannot be opened, or the file has fewer than nskip lines.", "quantifier": "every file, nskip, delimiter string and sequence of calls", "why_tests_cant": "histories", "anchors": ["include/CSVFileReader.hpp: skipLines, setToStart, getLineNum, checkDelimiters", "src/CSVFileReader.cpp: CSVFileReader, readLine"]}
{"id": "C19", "title": "getNumRows can be called without disturbing reading", "statement": "getNumRows() returns the number of non-blank lines from line nskip on, and leaves the stream at the start of line nskip, so that a following parse reads the first row and a second getNumRows() returns the same number.", "quantifier": "every file and every reading position", "why_tests_cant": "depends on call order", "anchors": ["include/CSVFileReader.hpp: getNumRows (documentation)", "src/CSVFileReader.cpp: getNumRows"]}
{"id": "C20", "title": "Mesh connectivity is a symmetric, geometrically correct relation", "statement": "For every conforming mesh, EToE/EToF pair each interior face with the unique other face having the same two end vertices; the relation is an involution; a face is paired with itself exactly when no other face has the same two vertices.", "quantifier": "every element table of triangles or quadrilaterals with distinct vertices per face in which each edge is shared by at most two faces", "why_tests_cant": "all meshes", "anchors": ["src/MeshManager.cpp: buildConnectivity"]}
{"id": "C21", "title": "Connectivity stays sound on any element table", "statement": "For any element table (edges shared by any number of faces) whose faces have distinct end vertices, EToE/EToF of a face is either itself, and then no other face has the same two vertices, or a different face with the same two vertices; all entries are valid element and local face numbers.", "quantifier": "every element table", "why_tests_cant": "arbitrary non-manifold input", "anchors": ["src/MeshManager.cpp: buildConnectivity"]}
{"id": "C22", "title": "Boundary table marks exactly the boundary faces", "statement": "After readMesh/buildMesh, bcType of a face is Wall if no other face of the mesh has the same two vertices, and 0 otherwise.", "quantifier": "every conforming triangle or quadrilateral mesh", "why_tests_cant": "all meshes", "anchors": ["src/MeshManager.cpp: buildBCTable(index_type), buildConnectivity"]}
{"id": "C23", "title": "Elements are stored counter-clockwise with the same geometry", "statement": "After readMesh/buildMesh every element's vertex list is a reordering of the input list, the element has non-negative signed area, and it has the same set of edges as in the input.", "quantifier": "every element of every mesh, triangle or quadrilateral, over exact arithmetic", "why_tests_cant": "all vertex coordinates", "anchors": ["src/MeshManager.cpp: buildMesh, readMesh (counter-clockwise enforcement)"]}
{"id": "C24", "title": "readMesh extracts the vertices of each element whatever the number of tags", "statement": "For an $Elements line 'id type ntags tag_1..tag_ntags v_1..v_n' of a triangle or quadrilateral, the stored element is (v_1-1,...,v_n-1) up to reordering.", "quantifier": "every element row with any number of tags allowed by the format", "why_tests_cant": "the format allows any ntags, test files all use 2", "anchors": ["src/MeshManager.cpp: readMesh, parseElem"]}
{"id": "C25", "title": "Mesh files can be read in any order without undefined behaviour", "statement": "Any sequence of readVertices, readElements and readMesh calls with well-formed files, starting from a new MeshManager, performs no out-of-bounds memory access, and after both readVertices and readElements (in any order) connectivity and boundary tables are available.", "quantifier": "every call sequence", "why_tests_cant": "order-dependent state", "anchors": ["src/MeshManager.cpp: readVertices, readElements, buildConnectivity", "src/CSCMatrix.cpp: CSCMat(rows,cols,nnz)"]}
{"id": "C26", "title": "Partition input describes each element's vertices", "statement": "The element pointer array handed to the partitioner delimits, for every element, exactly that element's NumFaces vertices in EToV, and covers EToV completely.", "quantifier": "every mesh", "why_tests_cant": "all sizes", "anchors": ["src/MeshManager.cpp: partitionMesh"]}
{"id": "C27", "title": "One-dimensional grids tile the interval", "statement": "For N >= 1, K >= 1 and reference nodes from -1 to 1 the one-dimensional grid starts at the left end point, ends at the right one, the last node of each element coincides with the first node of the next, and element widths are equal; if the reference nodes increase then so do the grid nodes.", "quantifier": "every order, number of elements, interval and node set, exact arithmetic", "why_tests_cant": "all N, K, real intervals", "anchors": ["src/Nodes1DProvisioner.cpp: buildNodes"]}
{"id": "C28", "title": "One-dimensional surface maps connect each face node with its neighbour", "statement": "For every N >= 1, K >= 1: vmapM lists the end nodes of the elements in order; vmapP of every interior face is the node of the adjacent element at the same location and vmapP o pairing is an involution; the two end faces (mapI, mapO) map to themselves or are treated as boundary; all indices are within range.", "quantifier": "every N, K and interval", "why_tests_cant": "all sizes", "anchors": ["src/Nodes1DProvisioner.cpp: buildConnectivityMatrices, buildFaceMask, buildMaps, buildNormals"]}
{"id": "C29", "title": "GMRES validates parameters before touching anything", "statement": "GMRESSolver::solve throws invalid_argument exactly when kspaceSz < 1, maxits < 1, relTol < 0, absTol < 0, divTol <= 0 or stgTol < 0; in that case neither callback is invoked and x is unchanged. Accepted tolerances are usable: no NaN tolerance is accepted.", "quantifier": "every parameter record", "why_tests_cant": "all float values incl. NaN", "anchors": ["src/GMRESSolver.cpp: checkGMRESParams", "include/GMRESSolver.hpp: solve"]}
{"id": "C30", "title": "GMRES always terminates with a meaningful flag within its budget", "statement": "For any callbacks, right-hand side, guess and valid parameters, solve returns after at most maxits outer iterations of at most min(N,kspaceSz) inner iterations, so at most 2 + maxits*(min(N,kspaceSz)+1) matrix-vector products and maxits*(min(N,kspaceSz)+1) preconditioner applications; the returned flag is never 'unconverged'; innerIts and outerIts lie within the budget.", "quantifier": "every callback behaviour (also failing or stateful), every arithmetic including NaN and infinities", "why_tests_cant": "adversarial callbacks and arithmetic", "anchors": ["include/GMRESSolver.hpp: GMRESSolver::solve"]}
{"id": "C31", "title": "GMRES success means the tolerance test passed", "statement": "If solve returns flag success then the residual norm of the returned x, computed from one matrix-vector product, is finite and at most max(relTol*||b||, absTol), whenever testTrueRnrm is set.", "quantifier": "every callback, arithmetic and parameter record", "why_tests_cant": "needs all executions", "anchors": ["include/GMRESSolver.hpp: GMRESSolver::solve"]}
{"id": "C32", "title": "GMRES reports callback failures", "statement": "If a matrix-vector or preconditioner call needed for the result reports failure then solve stops without making further calls and returns matvec_fail or precon_fail, and x is the iterate after the last completed update.", "quantifier": "every failing call position", "why_tests_cant": "all crash points", "anchors": ["include/GMRESSolver.hpp: GMRESSolver::solve"]}
{"id": "C33", "title": "Reported GMRES residual equals the true residual in exact arithmetic", "statement": "In exact real arithmetic with a linear operator A and preconditioner M, in every inner iteration the quantity the solver tests against the tolerance equals the Euclidean norm of b - A*x_new, where x_new is the iterate it would produce by stopping there; hence success in exact arithmetic implies ||b - A x|| <= convTol.", "quantifier": "every real matrix, preconditioner, right-hand side, guess and inner iteration number", "why_tests_cant": "for-all over reals and dimensions", "anchors": ["include/GMRESSolver.hpp: GMRESSolver::solve", "include/LinAlgHelpers.hpp: applyGivens"]}
{"id": "C34", "title": "GMRES minimises the residual over the Krylov correction space", "statement": "In exact arithmetic the iterate produced after i inner iterations has the smallest residual norm among all x0 + M^{-1} z with z in the span of the stored basis, so restarts never increase the residual norm.", "quantifier": "every real problem", "why_tests_cant": "for-all over reals", "anchors": ["include/GMRESSolver.hpp: GMRESSolver::solve"]}
{"id": "C35", "title": "Givens rotations eliminate and preserve length", "statement": "applyGivens with parameters from drotg(a,b) maps (a,b) to (r,0) with r^2=a^2+b^2 and preserves the Euclidean length of every pair.", "quantifier": "all reals", "why_tests_cant": "all reals", "anchors": ["include/LinAlgHelpers.hpp: drotg, applyGivens", "src/LinAlgHelpers.cpp: drotg"]}
{"id": "C36", "title": "LUSolver never leaks, double frees or solves without factors", "statement": "For any sequence of factorize (succeeding, failing symbolically, failing numerically, or with a non-square matrix) and solve calls followed by destruction, every factorisation object handed out by the library is released exactly once, solve before a successful factorize throws, and solve uses factors of the last factorised matrix.", "quantifier": "every call sequence with every failure pattern", "why_tests_cant": "histories with failures", "anchors": ["src/LUSolver.cpp: factorize, solve, freeMem", "include/LUSolver.hpp: LUSolver"]}
{"id": "C37", "title": "Dense solver wrappers solve the stated system and protect their inputs", "statement": "Under the LAPACK contract, DirectSolver::solve(A,B,X) gives A X = B, DenseMatrixInverter gives A*Ainv = I, the Cholesky wrapper gives R with R^T R = A and zero strictly lower part, and the symmetric eigen wrapper gives A V = V diag(w) with columns as eigenvectors; inputs are unmodified; on failure an exception is thrown and outputs are unmodified.", "quantifier": "all sizes and matrices, both outcomes of the library call", "why_tests_cant": "all sizes; row/column-major transposition errors cancel on symmetric test data", "anchors": ["src/DirectSolver.cpp: solve", "src/DenseMatrixinverter.cpp: computeInverse", "src/DenseCholeskyFactorizer.cpp: computeCholesky", "src/EigenSolver.cpp: solve"]}
{"id": "C38", "title": "Triangular modes are numbered bijectively", "statement": "The double loop over (i,j), i+j <= N numbers the (N+1)(N+2)/2 simplex modes with 0..Np-1, each exactly once, so every column of the Vandermonde matrices and every filter coefficient is written exactly once.", "quantifier": "every polynomial order", "why_tests_cant": "all N", "anchors": ["src/TriangleNodesProvisioner.cpp: computeVandermondeMatrix, computeGradVandermondeMatrix, buildFilter"]}
{"id": "C39", "title": "Spectral filter keeps low modes and damps the rest", "statement": "buildFilter(Nc,s) gives a filter that leaves every modal coefficient of total degree <= Nc unchanged, multiplies the others by a factor in (0,1], and is well defined for every 0 <= Nc and s; with Nc >= N it is the identity.", "quantifier": "every order N, cut-off Nc and exponent s, triangles and quadrilaterals", "why_tests_cant": "all N, Nc, s", "anchors": ["src/TriangleNodesProvisioner.cpp: buildFilter", "src/QuadNodesProvisioner.cpp: buildFilter"]}
{"id": "C40", "title": "Boundary hash lists every boundary face node exactly once under its tag", "statement": "After buildBCHash(bcType), for every tag t != 0 the list under t contains exactly the face-node numbers of the faces with bcType t, each exactly once and in increasing order; no list exists for tag 0; calling it again with the same or a modified table replaces the previous lists.", "quantifier": "every mesh size, number of face nodes, tag table and history of calls", "why_tests_cant": "histories", "anchors": ["src/TriangleNodesProvisioner.cpp: buildBCHash", "src/QuadNodesProvisioner.cpp: buildBCHash"]}
{"id": "C41", "title": "Gauss face maps pair quadrature points across interior faces", "statement": "In the Gauss face context mapM is the identity numbering and mapP is an involution that maps the g-th point of a face to the (NGauss-1-g)-th point of the neighbouring face; points on boundary faces map to themselves; boundary lists contain exactly the points on faces with that tag.", "quantifier": "every mesh with symmetric connectivity and every NGauss", "why_tests_cant": "all meshes", "anchors": ["src/TriangleNodesProvisioner.cpp: buildGaussFaceNodes"]}
{"id": "C42", "title": "Element geometry factors invert the mapping", "statement": "For every element with nonzero Jacobian the computed metric terms [rx ry; sx sy] are the inverse of the Jacobian matrix [xr xs; yr ys] of the reference-to-element map; the affine map sends the three reference vertices to the three element vertices in order; for a triangle J is half its signed area, hence positive exactly for counter-clockwise vertex order.", "quantifier": "all vertex coordinates", "why_tests_cant": "all reals", "anchors": ["src/TriangleNodesProvisioner.cpp: buildPhysicalGrid", "src/QuadNodesProvisioner.cpp: buildPhysicalGrid"]}
{"id": "C43", "title": "Face normals are unit, outward and balanced", "statement": "For every counter-clockwise triangle the computed normals have unit length, point out of the element, the surface Jacobians are half the edge lengths, and the sum over faces of sJ*n is zero.", "quantifier": "all non-degenerate triangles", "why_tests_cant": "all reals", "anchors": ["src/TriangleNodesProvisioner.cpp: computeNormals/buildPhysicalGrid"]}
{"id": "C44", "title": "Splitting an element yields N^2 consistent sub-triangles", "statement": "splitElements produces for each element of order N exactly N^2 sub-triangles with valid node numbers, whose union covers all nodes, all with the same orientation and area 1/N^2 of the reference element when nodes are equispaced, and the linear field values are taken at the matching nodes.", "quantifier": "every order N >= 1 and number of elements", "why_tests_cant": "all N", "anchors": ["src/TriangleNodesProvisioner.cpp: splitElements"]}
{"id": "C45", "title": "Quadrilateral output cells are simple polygons", "statement": "Cells written for quadrilateral elements list the four corners in cyclic order.", "quantifier": "every element and order", "why_tests_cant": "all sizes", "anchors": ["src/QuadNodesProvisioner.cpp: splitElements", "include/VtkOutputter.hpp: insertAllCells"]}
{"id": "C46", "title": "Interpolation operators interpolate", "statement": "computeInterpMatrix(rout,sout) of the triangle and quadrilateral provisioners maps nodal values of every polynomial representable on the element to its values at the output points, and queries do not change the state of the provisioner.", "quantifier": "every order, every set of output points, every polynomial of the element space; exact arithmetic, LAPACK correct when it reports success", "why_tests_cant": "for-all over points and polynomials; state corruption is invisible in a single call", "anchors": ["src/TriangleNodesProvisioner.cpp: computeInterpMatrix", "src/QuadNodesProvisioner.cpp: computeVandermondeMatrix, computeInterpMatrix"]}
{"id": "C47", "title": "Differentiation matrices differentiate polynomials exactly", "statement": "After construction, Dr and Ds map the nodal values of every polynomial of the element space (degree <= N in 1D, total degree <= N on triangles, degree <= N in each variable on quadrilaterals) to the nodal values of its partial derivatives, in particular annihilate constants; the weak matrices Drw, Dsw map p to the w of the space with (w,t) = (p, dt/dr) for all t of the space.", "quantifier": "every N >= 1, every polynomial of the space; exact arithmetic, LAPACK correct when it reports success", "why_tests_cant": "all polynomials and orders", "anchors": ["src/Nodes1DProvisioner.cpp: buildDr", "include/VandermondeBuilders.hpp", "src/TriangleNodesProvisioner.cpp: computeDifferentiationMatrices", "src/QuadNodesProvisioner.cpp: computeDifferentiationMatrices"]}
{"id": "C48", "title": "Jacobi polynomial recurrence produces orthonormal polynomials", "statement": "The values returned by computeJacobiPolynomial for alpha=beta=0 are those of polynomials of exact degree p that are orthonormal on [-1,1]; P_n(-x) with (alpha,beta) equals (-1)^n P_n(x) with (beta,alpha).", "quantifier": "every degree, every real argument", "why_tests_cant": "all degrees", "anchors": ["src/JacobiBuilders.cpp: computeJacobiPolynomial"]}
{"id": "C49", "title": "LSERK4 is a fourth order method and does not depend on stale residual storage", "statement": "One LSERK4 step gives the same result whatever the residual register contained before; unrolled, it is an explicit Runge-Kutta step whose coefficients satisfy the eight order conditions of order four up to the rounding of the tabulated literals (1e-25).", "quantifier": "every state, right-hand side function and step size", "why_tests_cant": "all right-hand sides", "anchors": ["include/LSERK4.hpp", "src/LSERK4.cpp", "src/advec1d/main.cpp: time loop"]}
{"id": "C50", "title": "Wall boundary treatment reflects momentum", "statement": "At every wall node the exterior state has the same depth, opposite normal momentum, equal tangential momentum and equal kinetic energy, and the numerical mass flux through the wall is zero.", "quantifier": "all states and unit normals", "why_tests_cant": "all reals", "anchors": ["src/sw2d-simple/main.cpp: computeRHS", "src/sw2d/main.cpp: computeRHS"]}
{"id": "C51", "title": "Numerical flux is single valued across a face", "statement": "The Lax-Friedrichs flux computed from both sides of an interior face agrees up to the sign of the normal, and equals the physical flux when both states are equal; the wave speed scaling its dissipation is the largest absolute characteristic speed of the equations over all directions.", "quantifier": "all pairs of states, normals and wave speeds", "why_tests_cant": "all reals", "anchors": ["src/sw2d-simple/main.cpp: computeRHS", "swhelpers/rhs.py: sw2dComputeRHS"]}
{"id": "C52", "title": "Bottom drag removes kinetic energy", "statement": "The drag contributions to the momentum equations satisfy u*dragx + v*dragy <= 0 for every state and CD >= 0.", "quantifier": "all states", "why_tests_cant": "all reals", "anchors": ["src/sw2d/main.cpp: computeRHS", "swhelpers/rhs.py: sw2dComputeRHS, sw2dComputeRHS_curved"]}
{"id": "C53", "title": "Positivity limiter preserves means and makes depth non-negative", "statement": "positivityPreservingLimiter2D leaves the element means of h, hu and hv unchanged, leaves an element untouched when its scaling factor is one, and returns non-negative depths whenever the mean depth is non-negative.", "quantifier": "all element states", "why_tests_cant": "all reals", "anchors": ["swhelpers/limiters.py: positivityPreservingLimiter2D"]}
{"id": "C54", "title": "minmod returns the argument of smaller magnitude", "statement": "minmod(a,b) returns the argument of smaller magnitude when a and b have the same sign (also when they are equal), and 0 otherwise.", "quantifier": "all reals a, b", "why_tests_cant": "all sign/equality cases", "anchors": ["swhelpers/limiters.py: minmod"]}
{"id": "C55", "title": "Output file names are injective and sortable", "statement": "generateFileName gives different names for different (field, number) pairs, and for one field the names sort lexicographically in the order of the numbers.", "quantifier": "all field names and non-negative file numbers", "why_tests_cant": "all names", "anchors": ["src/CsvOutputter.cpp: generateFileName", "src/VtkOutputter.cpp: generateFileName"]}
{"id": "C56", "title": "Written CSV fields can be read back", "statement": "A field written with writeFieldToFile using a given delimiter, read with csvread using the same delimiter, gives back the same shape and field texts.", "quantifier": "every matrix with at least one row and column, every admissible delimiter", "why_tests_cant": "all sizes and delimiters", "anchors": ["src/CsvOutputter.cpp: writeFieldToFile", "include/CSVFileReader.hpp: csvread"]}
{"id": "C57", "title": "joinPaths puts exactly one delimiter at the junction", "statement": "joinPaths(a,b) is a with a trailing delimiter removed, one delimiter, then b with a leading delimiter removed, for all strings, without undefined behaviour.", "quantifier": "all strings including empty ones", "why_tests_cant": "all strings", "anchors": ["src/PathResolver.cpp: joinPaths"]}
{"id": "C58", "title": "Triangle cubature rules integrate polynomials", "statement": "For every admissible NCubature the rule has weights summing to the area 2 of the reference triangle (to table precision), points inside the triangle, and integrates every polynomial of total degree <= NCubature exactly up to table precision.", "quantifier": "every rule in the table and every polynomial up to its degree", "why_tests_cant": "all polynomials; and nobody checked all rules", "anchors": ["include/TriangleCubatureRules.hpp: TriangleCubatureRules"]}
{"id": "C59", "title": "Arrays exported to Python have the shape and entries of their data", "statement": "Every array property of the context, mesh and matrix classes returns a numpy array whose shape is that of the C++ array and whose entry (i,j) (or (i), (i,j,k)) is the entry of the C++ array, without writing outside the new array.", "quantifier": "every property, every order, number of elements, number of Gauss or cubature points", "why_tests_cant": "The shape handed to numpy and the size of the array copied are computed at different places; they only disagree for some combinations of sizes, and an overrun need not be visible", "anchors": ["src/GaussFaceContext2D.cpp", "src/DGContext2D.cpp", "src/CubatureContext2D.cpp", "src/MeshManager.cpp get_*_numpy", "src/TriangleNodesProvisioner.cpp constructor, get_DGContext", "src/QuadNodesProvisioner.cpp constructor"]}
{"id": "C60", "title": "DG Poisson assembly stays in range and is symmetric", "statement": "The interior-penalty DG Poisson operator only inserts entries at positions below the declared size, never more than the storage it allocated without reallocation, and is symmetric for Dirichlet and Neumann conditions in exact arithmetic when the connectivity is symmetric.", "quantifier": "every mesh with symmetric connectivity, every order", "why_tests_cant": "all meshes", "anchors": ["src/Poisson2DSparseMatrix.cpp: buildPoissonOperator"]}
{"id": "C61", "title": "readMesh reproduces the file", "statement": "Reading a well-formed Gmsh 2 text file whose elements have two tags gives an object with one element per triangle (or, if the file has any, per quadrilateral) in file order with the file's vertices, the coordinates of every node at its place, and correct connectivity and boundary tables, independently of what the object held before and of uninitialised memory.", "quantifier": "every such file: any number of nodes in any numbering order, any number of element rows of any kind, any spacing", "why_tests_cant": "all files and all previous object states", "anchors": ["src/MeshManager.cpp: readMesh, parseElem, buildConnectivity, buildBCTable", "src/CSVFileReader.cpp: CSVFileReader"]}
{"id": "C62", "title": "readMesh rejects files it does not understand", "statement": "A file without the $MeshFormat or $Nodes line at its place, or with an unsupported version, a binary format or a float size other than 8 is rejected with an exception; so is an element row of 1-4 vertices whose type code does not match the number of vertices.", "quantifier": "every text file", "why_tests_cant": "all malformed files", "anchors": ["src/MeshManager.cpp: readMesh"]}
{"id": "C63", "title": "One-dimensional metric terms are those of the elements", "statement": "After computeJacobian the Jacobian is half the element width at every node, rx is its reciprocal and Fscale is rx at the face nodes, provided the differentiation matrix differentiates linear functions exactly.", "quantifier": "every interval, number of elements, node set and such matrix, exact arithmetic", "why_tests_cant": "A test checks one grid; the statement is for all grids and orders.", "anchors": ["src/Nodes1DProvisioner.cpp: computeJacobian"]}
{"id": "C64", "title": "Unrestarted GMRES always succeeds in exact arithmetic", "statement": "In exact real arithmetic, if kspaceSz is at least the number of unknowns, the preconditioned operator is injective, the parameters are valid and divTol > 1, then solve returns flag success and an x whose residual norm is at most max(relTol*||b||, absTol), from every initial guess.", "quantifier": "every finite-dimensional real problem, guess and parameter record", "why_tests_cant": "for-all over reals and dimensions", "anchors": ["include/GMRESSolver.hpp: GMRESSolver::solve"]}
{"id": "C65", "title": "CSCMat assignment and swap exchange whole matrices", "statement": "Swapping two CSCMat objects exchanges dimensions, sizes and all entries and swapping twice restores both; assignment a = b gives a the contents of b whatever a held before, including self-assignment and assignment to an object that was moved from.", "quantifier": "all pairs of matrices, including moved-from objects", "why_tests_cant": "Tests only check a few matrices; the moved-from target and the overflow in the copying constructor are never exercised.", "anchors": ["src/CSCMatrix.cpp: operator=, swap", "include/CSCMatrix.hpp: CSCMat"]}
{"id": "C66", "title": "Trace maps pair every face node with itself or its neighbour's coincident node", "statement": "After building the maps, vmapM lists the volume node of every face node in order; on a boundary face the exterior node equals the interior one; on an interior face whose neighbour has exactly one coincident node, vmapP is that node of the neighbour, mapP is its face-node number and mapP is an involution; mapB and vmapB list exactly the face nodes whose interior and exterior node agree.", "quantifier": "every mesh with symmetric connectivity, every order, every coordinate array and tolerance", "why_tests_cant": "ranges over all meshes, orders and orientations", "anchors": ["src/TriangleNodesProvisioner.cpp: buildMaps", "src/QuadNodesProvisioner.cpp: buildMaps"]}
{"id": "C67", "title": "Element corners have the coordinates of their vertices", "statement": "The physical grid of element k is built from the first two coordinates of vertices EToV(k,0), EToV(k,1), ... in that order; no array is read outside its bounds when every entry of EToV is a vertex number, however many coordinates per vertex the mesh stores.", "quantifier": "every mesh, vertex dimension and element table with valid vertex numbers", "why_tests_cant": "all meshes; a wrong stride is invisible on files with three coordinates", "anchors": ["src/TriangleNodesProvisioner.cpp: buildPhysicalGrid", "src/QuadNodesProvisioner.cpp: buildPhysicalGrid", "src/MeshManager.cpp: buildMesh, readVertices"]}
{"id": "C68", "title": "Jacobi gradients are exact derivatives", "statement": "The value returned by computeGradJacobi(x, alpha, beta, N) is the derivative at x of the function computed by computeJacobiPolynomial(., alpha, beta, N).", "quantifier": "every degree, every real argument, all parameters alpha, beta > -1 with alpha + beta other than -1; exact arithmetic", "why_tests_cant": "all degrees and arguments; difference quotients only sample the claim", "anchors": ["src/JacobiBuilders.cpp: computeGradJacobi", "src/JacobiBuilders.cpp: computeJacobiPolynomial"]}
{"id": "C69", "title": "Gauss-Jacobi rules are exact", "statement": "computeJacobiQuadWeights(alpha, beta, N) returns N+1 points strictly increasing inside (-1,1) and positive weights that integrate every polynomial of degree <= 2N+1 exactly against the weight (1-x)^alpha (1+x)^beta; if the eigenvalue routine fails it throws and changes nothing.", "quantifier": "every order and parameters, every polynomial; exact arithmetic, eigenvalue routine correct when it reports success", "why_tests_cant": "all polynomials, all orders and parameters", "anchors": ["src/JacobiBuilders.cpp: computeJacobiQuadWeights", "src/EigenSolver.cpp: solve"]}
{"id": "C70", "title": "Gauss-Lobatto points", "statement": "computeGaussLobottoPoints(0, 0, N) returns N+1 points that increase strictly from -1 to 1, are symmetric about 0 and whose interior points are the critical points of the Legendre polynomial of degree N.", "quantifier": "every order N >= 1; exact arithmetic, eigenvalue routine correct when it reports success", "why_tests_cant": "all orders", "anchors": ["src/JacobiBuilders.cpp: computeGaussLobottoPoints"]}
{"id": "C71", "title": "The lift operator represents face integrals", "statement": "After construction, the columns of the lift matrix belonging to face f map the values of a face polynomial g of degree <= N at the face nodes to the nodal values of the polynomial w of the element space with (w,p) = integral over face f of g*p for every p of the space (in 1D: value of p at face f).", "quantifier": "every order N >= 1, every face, face polynomial and polynomial of the space; exact arithmetic, LAPACK correct when it reports success", "why_tests_cant": "all polynomials and orders", "anchors": ["src/Nodes1DProvisioner.cpp: buildLift", "src/TriangleNodesProvisioner.cpp: buildLift", "src/QuadNodesProvisioner.cpp: buildLift"]}
{"id": "C72", "title": "Modal basis functions and their gradients are those of fixed polynomials", "statement": "At every point of the reference triangle (square), the values and the two gradient components the code computes for mode (i,j) are the value and the partial derivatives of one polynomial of total degree i+j (degree i in s and j in r), including at the collapsed vertex s=1; the modes up to order N span all polynomials of total degree <= N (of degree <= N in each variable).", "quantifier": "every mode, order and point", "why_tests_cant": "all points, in particular the removable singularity at the vertex", "anchors": ["src/TriangleNodesProvisioner.cpp: evaluateSimplexPolynomial, rsToab, evaluateGradSimplex, computeGradVandermondeMatrix", "src/QuadNodesProvisioner.cpp: computeVandermondeMatrix, computeGradVandermondeMatrix"]}
{"id": "C73", "title": "Modal bases are orthonormal", "statement": "The integral over the reference triangle (square) of the product of two modes is 1 if they are equal and 0 otherwise.", "quantifier": "all pairs of modes of all orders", "why_tests_cant": "infinitely many pairs; exact integrals", "anchors": ["src/TriangleNodesProvisioner.cpp: evaluateSimplexPolynomial", "src/QuadNodesProvisioner.cpp: computeVandermondeMatrix"]}
{"id": "C74", "title": "Face nodes are Gauss-Lobatto points and the face masks list exactly them", "statement": "After node construction each face of the reference triangle (square) carries exactly the N+1 Gauss-Lobatto points, Fmask(.,f) lists the nodes of face f in order of the running coordinate, every node closer than the tolerance to a face is listed; the quadrilateral nodes are the tensor product of the Gauss-Lobatto points. If other nodes are closer than the tolerance to a face the mask array overflows.", "quantifier": "every order N >= 1; exact arithmetic, LAPACK correct when it reports success", "why_tests_cant": "all orders", "anchors": ["src/TriangleNodesProvisioner.cpp: buildNodes, computeEquilateralNodes, computeWarpFactor, xyTors", "src/QuadNodesProvisioner.cpp: buildNodes"]}
{"id": "C75", "title": "The time loop of the 1D drivers stops after the right number of steps", "statement": "The driver's loop performs the smallest number of steps n with n*dt >= finalTime unless the solution exceeds the stability bound, in which case it stops with an error; output files are written at every tenth step, and the time passed to the right-hand side is the time of the stage.", "quantifier": "all final times, step sizes, states and right-hand sides", "why_tests_cant": "all step sizes and right-hand sides", "anchors": ["src/advec1d/main.cpp: main", "src/burgers1d/main.cpp: main"]}
{"id": "C76", "title": "The 1D advection discretisation is energy stable", "statement": "For c >= 0 the semi-discrete energy of advec1d never grows: the L2 inner product of the solution with its right-hand side is minus c/2 times the sum of the squared jumps between elements (the inflow value being zero) and of the squared outflow value.", "quantifier": "every order, every number of elements, every state", "why_tests_cant": "all states", "anchors": ["src/advec1d/main.cpp: computeRHS"]}
{"id": "C77", "title": "The 1D advection discretisation is conservative and consistent", "statement": "The integral of the right-hand side equals inflow minus outflow (interior fluxes cancel), and on nodal values of a polynomial of degree at most N vanishing at the inflow end it is exactly -c times the derivative.", "quantifier": "every order, every number of elements, every state", "why_tests_cant": "all states and polynomials", "anchors": ["src/advec1d/main.cpp: computeRHS"]}
{"id": "C78", "title": "The Burgers reference solution solves the equation", "statement": "Burgers2(x,t,alpha,nu,c) satisfies u_t + alpha u u_x = nu u_xx for every x and t.", "quantifier": "all x, t and nonzero alpha, nu", "why_tests_cant": "all reals", "anchors": ["src/burgers1d/main.cpp: Burgers2"]}
{"id": "C79", "title": "The 1D Burgers discretisation is conservative and consistent", "statement": "The integral of the right-hand side of burgers1d is the difference of a flux at the left end and one at the right end (interior advective, viscous and penalty fluxes cancel), and on nodal values of a polynomial F whose square has degree at most N and which agrees with the boundary data it is exactly -F F' + nu F''.", "quantifier": "every order, number of elements, state, time and viscosity", "why_tests_cant": "all states and polynomials", "anchors": ["src/burgers1d/main.cpp: computeRHS"]}
{"id": "C80", "title": "The shallow water discretisation conserves mass between walls", "statement": "When every boundary face of a triangle mesh is tagged as a wall, the integral over the domain of the computed rate of change of the depth is zero.", "quantifier": "every order, every conforming counter-clockwise triangle mesh, every wet state", "why_tests_cant": "all meshes, orders and states; a test sees one run with rounding", "anchors": ["src/sw2d-simple/main.cpp: computeRHS", "src/TriangleNodesProvisioner.cpp"]}
{"id": "C81", "title": "Uniform flow along the walls and lakes at rest are steady", "statement": "A state with the same depth and momentum everywhere, whose momentum is parallel to every wall, has zero rate of change at every node; in particular water at rest over a flat bed.", "quantifier": "every order, mesh, uniform state", "why_tests_cant": "all meshes and states", "anchors": ["src/sw2d-simple/main.cpp: computeRHS"]}
{"id": "C82", "title": "sw2d-simple needs at least one wall face", "statement": "On a mesh without a face tagged as wall the right-hand side throws, whatever the state.", "quantifier": "every order, mesh without wall tags, state", "why_tests_cant": "all meshes", "anchors": ["src/sw2d-simple/main.cpp: computeRHS", "std::unordered_map::at"]}
{"id": "C83", "title": "The time step satisfies the Courant condition at every face node", "statement": "The computed step is positive, satisfies dt * (|u| + sqrt(g h)) * Fscale <= CFL/((N+1)^2) (times the factor of the program) at every face node, and is the largest such.", "quantifier": "every mesh, order and wet state", "why_tests_cant": "all states and meshes", "anchors": ["src/sw2d-simple/main.cpp: main", "src/sw2d/main.cpp: computeTimeStep"]}
{"id": "C84", "title": "The clock of sw2d-simple equals the time the fields have been advanced", "statement": "After any number of passes the clock equals the sum of the steps with which the fields were advanced, up to the difference of the last and the first step size (the program adds the size of the next step). A pass that does not raise leaves a surface elevation of magnitude at most 1e8 at every node.", "quantifier": "every run of every length", "why_tests_cant": "all runs", "anchors": ["src/sw2d-simple/main.cpp: main"]}
{"id": "C85", "title": "Filtering keeps mass", "statement": "Applying the exponential filter to the rate of change leaves its integral unchanged; so a run between walls keeps the total mass.", "quantifier": "every order, cut-off, exponent, state, number of steps", "why_tests_cant": "all filters, states and runs", "anchors": ["src/sw2d-simple/main.cpp: main", "src/TriangleNodesProvisioner.cpp: buildFilter"]}
{"id": "C86", "title": "One pass of sw2d with constant rate moves the fields by dt times the rate", "statement": "The two-stage scheme is consistent: for a constant rate of change and no sponge, one pass adds dt times the rate.", "quantifier": "every rate, step size, state", "why_tests_cant": "all states; aliasing is invisible in the API", "anchors": ["src/sw2d/main.cpp: main loop", "fields copy"]}
{"id": "C87", "title": "The sponge layer damps and is confined to the neighbourhood of open faces", "statement": "Damping never increases a momentum, keeps its sign and bounds it; the coefficient at a node is S(1-d/R) with d the distance to the nearest open face node if d<R, and zero otherwise.", "quantifier": "every state, mesh, radius, strength", "why_tests_cant": "all meshes and orders", "anchors": ["src/sw2d/main.cpp: buildSpongeCoeff, main loop"]}
{"id": "C88", "title": "Mass budget of sw2d", "statement": "The integral of the rate of change of the depth equals minus the integral over open faces of the outward momentum plus half the largest wave speed times the height of the water above the tide; nothing is lost through walls or between elements, over any bed.", "quantifier": "every mesh, order, bed, state with positive depths, time", "why_tests_cant": "all meshes, beds, states", "anchors": ["src/sw2d/main.cpp: computeRHS"]}
{"id": "C89", "title": "Water at rest stays at rest (sw2d)", "statement": "Away from open faces, water at rest with a level surface has zero rates of change, whatever the continuous bed.", "quantifier": "every mesh, order, bed", "why_tests_cant": "all beds", "anchors": ["src/sw2d/main.cpp: computeRHS"]}
{"id": "C90", "title": "Open boundary faces are those with both ends listed", "statement": "After the set-up of sw2d the faces treated as open are exactly those tagged Out or having both ends in the list of open boundary vertices.", "quantifier": "every mesh, list of vertices", "why_tests_cant": "all meshes", "anchors": ["src/sw2d/main.cpp: retagging loop"]}
{"id": "C91", "title": "Depth files are read in node order and clipped at 150", "statement": "Value number k*Np+n of the file, raised to 150, becomes the depth at node n of element k; missing values become 150.", "quantifier": "every file, every Np and K", "why_tests_cant": "all files", "anchors": ["src/sw2d/main.cpp: readDepthData"]}
{"id": "C92", "title": "The clock of sw2d equals the time the fields have been advanced", "statement": "After any number of passes the clock is the initial time plus the sum of the step sizes used, each computed from the state at the start of its pass; every state a pass started from had passed the blow-up test.", "quantifier": "every run of every length", "why_tests_cant": "all runs", "anchors": ["src/sw2d/main.cpp: main loop, computeTimeStep"]}
{"id": "C93", "title": "Cubature volume context is exact", "statement": "For a triangle grid built by the provisioner and every cubature order for which buildCubatureVolumeMesh returns, the returned context maps nodal values of every polynomial of degree at most N to its values and its x- and y-derivatives at the cubature points of every element, its weights are positive and integrate every polynomial of degree at most NCubature over each element (to 2e-14 of its size), its mass matrices give the cubature of products and are symmetric, and the stored Cholesky factors are upper triangular factors of them. The call returns for every rule whose points determine the polynomials provided the solver accepts the systems for the weak derivatives.", "quantifier": "all conforming counter-clockwise meshes, all orders N, all integers NCubature, all polynomials, all elements, all LAPACK implementations meeting the contract", "why_tests_cant": "Tests evaluate a few functions on a few meshes; exactness for all polynomials and all elements, and what happens when there are fewer or more cubature points than nodes, are statements about all inputs.", "anchors": ["src/TriangleNodesProvisioner.cpp: buildCubatureVolumeMesh, computeDifferentiationMatrices, computeInterpMatrix", "include/CubatureContext2D.hpp", "include/TriangleCubatureRules.hpp"]}
{"id": "C94", "title": "Gauss face points integrate exactly along faces and match across them", "statement": "On a grid of counter-clockwise triangles, for every number of Gauss points, the context returned by buildGaussFaceNodes places the points inside each face in counter-clockwise order, interpolates and differentiates polynomials of the element degree exactly at them, carries unit outward normals, weights that integrate polynomials up to degree 2*NGauss-1 exactly along each face (so the discrete divergence theorem holds), maps every point of an interior face to the point of the neighbour at the same place (same weight, opposite normal; an involution), maps boundary points to themselves, and lists every boundary point once under the tag of its face.", "quantifier": "every conforming triangle mesh, element order and number of Gauss points", "why_tests_cant": "Point placement depends on symmetry of the Gauss points and on the opposite orientation of the neighbour's face, for all meshes and orders; tests look at a few meshes with tolerances", "anchors": ["src/TriangleNodesProvisioner.cpp buildGaussFaceNodes", "include/GaussFaceContext2D.hpp", "src/JacobiBuilders.cpp computeJacobiQuadWeights"]}
{"id": "C95", "title": "Arrays taken from Python arrive entry by entry", "statement": "A numpy array passed to writeFieldToFile, buildBcRhs, setCoordinates or setBCType is used with the entries Python shows for it, or is rejected; no memory outside it or outside the destination is touched.", "quantifier": "every array: any shape, strides, element type", "why_tests_cant": "Contiguous arrays of the right type behave; views, other integer types and other shapes are silently misread", "anchors": ["src/VtkOutputter.cpp writeFieldToFile_numpy", "src/Poisson2DSparseMatrix.cpp buildBcRhs_numpy", "src/TriangleNodesProvisioner.cpp setCoordinates_numpy", "src/MeshManager.cpp set_BCType_numpy"]}
{"id": "C96", "title": "Exported sparse matrices are complete", "statement": "The rows (row, column, value) returned by getOP and getMM are the stored entries of the operator in column order, padded by zero rows at most; the coordinate matrix made from them is the operator.", "quantifier": "every well-formed sparse matrix", "why_tests_cant": "All sizes and fill patterns, including storage larger than the number of entries", "anchors": ["src/Poisson2DSparseMatrix.cpp getOP_numpy, getMM_numpy"]}
{"id": "C97", "title": "Objects obtained in Python stay valid", "statement": "In every sequence of creating, using and giving up objects from Python, no operation on an object still held reads storage that has been destroyed.", "quantifier": "every history of operations", "why_tests_cant": "Destruction order is decided by reference counts; a dangling pointer usually still reads plausible data", "anchors": ["src/pyblitzdg/pyblitzdg.cpp", "include/DGContext2D.hpp", "include/TriangleNodesProvisioner.hpp Mesh2D", "src/VtkOutputter.cpp constructor"]}
{"id": "C98", "title": "The Poisson matrices are those of the interior penalty method", "statement": "For nodal values u, v of piecewise polynomials U, V of degree at most N, v'*OP*u is the symmetric interior penalty form (element gradients, jumps, mean normal derivatives, penalty 20000(N+1)^2 times the larger length/area ratio, Dirichlet terms; nothing on Neumann faces and walls), plus the mean-value constraint with the border, and v'*MM*u is the integral of U V.", "quantifier": "every conforming triangle mesh, every order for which a grid exists, all nodal vectors", "why_tests_cant": "Equality of bilinear forms for all vectors on all meshes.", "anchors": ["src/Poisson2DSparseMatrix.cpp: buildPoissonOperator"]}
{"id": "C99", "title": "The Poisson systems are solvable", "statement": "With at least one Dirichlet face on a connected mesh the operator is positive definite and OP*u=b has exactly one solution for every b; without one the operator is singular (constants) and the bordered operator has exactly one solution for every right-hand side; the mass matrix is always positive definite.", "quantifier": "every connected conforming triangle mesh, every order, every right-hand side", "why_tests_cant": "Invertibility for all meshes and orders depends on the penalty constant beating the trace inequality.", "anchors": ["src/Poisson2DSparseMatrix.cpp: buildPoissonOperator", "include/Poisson2DSparseMatrix.hpp: getOP, getMM"]}
{"id": "C100", "title": "Poisson solves reproduce polynomials", "statement": "For a DG Poisson matrix built on a valid triangular mesh and a boundary vector built from values of U on Dirichlet faces and of its outward normal derivative on Neumann faces and walls, the nodal values of every polynomial U of degree at most N satisfy OP u = MM f + rhs with f the nodal values of -Laplacian U; with a Dirichlet face on a connected mesh they are the only solution, and without one the bordered system returns U minus its nodal mean with multiplier 0.", "quantifier": "every valid mesh, tag assignment, order N, polynomial U of degree at most N and every face data arrays with those values", "why_tests_cant": "Manufactured-solution tests use one mesh and one function and compare up to a tolerance; exactness is over all meshes and a whole space of polynomials.", "anchors": ["src/Poisson2DSparseMatrix.cpp: Poisson2DSparseMatrix::buildBcRhs", "src/Poisson2DSparseMatrix.cpp: Poisson2DSparseMatrix::buildPoissonOperator", "poisson2d.py"]}
{"id": "C101", "title": "Node numbering for continuous functions glues exactly the coinciding nodes", "statement": "For every triangular grid whose nodes are either equal or further apart than the tolerance, the provisioner's gather and scatter lists give every node a number below gather's length, gather names one node for each number, and two nodes of the grid get the same number exactly if they lie at the same place.", "quantifier": "every grid with separated nodes, every element order and every correct sorting algorithm", "why_tests_cant": "The numbering depends on tie breaking in a sort and on a relative tolerance; a test looks at one mesh, while gluing the wrong two nodes only shows as a wrong solution.", "anchors": ["src/TriangleNodesProvisioner.cpp: TriangleNodesProvisioner::buildMaps", "include/BlitzHelpers.hpp: uniquetol", "include/DGContext2D.hpp: gather, scatter"]}
{"id": "C102", "title": "The continuous Poisson operator is the Galerkin operator", "statement": "Built from a grid and its node numbering, the operator is symmetric, v^T OP u is the integral of grad U . grad V for the continuous piecewise polynomials with coefficients u and v (these are continuous across faces), v^T MM u is the integral of U V and MM is positive definite; with border the matrix is invertible on a connected mesh. The last part holds only for the leading block of size gather.size()+1: as soon as elements share a node the remaining rows and columns are zero.", "quantifier": "every valid mesh, order, numbering, coefficient vectors and connected mesh", "why_tests_cant": "Tests cannot show that quadratic forms agree for all coefficient vectors on all meshes; singularity of the padded matrix only appears when it is factorised.", "anchors": ["src/Poisson2DSparseMatrix.cpp: Poisson2DSparseMatrix::buildSEMPoissonOperator", "include/Poisson2DSparseMatrix.hpp: Poisson2DSparseMatrix"]}
{"id": "C103", "title": "The Poisson operator from Gauss and cubature contexts has the energy of the Laplacian", "statement": "Built from a grid, its Gauss face context and its cubature context, the constructor returns two matrices or throws because an element is degenerate to machine precision; MM gives the cubature of products of piecewise polynomials, OP the cubature of grad U . grad V plus face terms, and without a Dirichlet face OP annihilates constants and has no negative energy. The last part is false: with any interior face and no Dirichlet face the entries of OP sum to a negative number.", "quantifier": "every valid triangular mesh, order, tag assignment, Gauss context and cubature context meeting their contracts, and every vector of nodal values", "why_tests_cant": "Tests check a few entries on one mesh; a wrong reduction over indices only shows as a spurious energy of constants, on every mesh.", "anchors": ["src/Poisson2DSparseMatrix.cpp: Poisson2DSparseMatrix::buildPoissonOperator(dg, mesh, bcType, gCtx, cubCtx)", "include/Poisson2DSparseMatrix.hpp", "include/LinAlgHelpers.hpp: normFro, normMax"]}
{"id": "C104", "title": "The Poisson getters hand out what they are named after", "statement": "getOP gives the discrete Laplacian and getMM the mass matrix: for all nodal values u, v of piecewise polynomials U, V, v^T getOP u is the interior penalty form and v^T getMM u the integral of U V. True for the arrays handed to Python; in C++ the two are swapped.", "quantifier": "every valid mesh, order, tag assignment and vectors of nodal values", "why_tests_cant": "Both matrices are sparse symmetric of the same size, so size and symmetry checks pass; the forms have to agree for all vectors on all meshes.", "anchors": ["include/Poisson2DSparseMatrix.hpp: getOP, getMM", "src/Poisson2DSparseMatrix.cpp: getOP_numpy, getMM_numpy", "src/ins2d/main.cpp: main"]}
{"id": "C105", "title": "The 1D Poisson operator is a consistent, symmetric and negative definite discrete Laplacian", "statement": "The operator that the 1D Poisson program hands to GMRES returns for every vector. Applied to the nodal values of a polynomial of degree at most the order that vanishes at both ends it gives exactly the right-hand side the program builds from the nodal values of the second derivative, so exact solutions solve the linear system. It is symmetric, and its energy is negative for every non-zero vector, as for the Laplacian with zero boundary values.", "quantifier": "all orders, numbers of elements, intervals, vectors and polynomials", "why_tests_cant": "The unit tests do not run the driver; symmetry and definiteness are statements about all pairs of vectors, consistency about all polynomials.", "anchors": ["src/poisson1d/Poisson1d.hpp PoissonOperator::operator()", "src/poisson1d/main.cpp main"]}
{"id": "C106", "title": "The 2D Poisson driver's operator is a consistent discrete Laplacian independent of the unit of length, and its 'exact' solution solves its equation", "statement": "Applied to the nodal values of a polynomial of degree at most N that vanishes on the walls and has zero normal derivative on Neuman faces, PoissonOperator returns the nodal values of its Laplacian; it never leaves its arrays and throws only when the mesh has no wall face. Multiplying all mesh coordinates by s divides the operator by s squared. The function written as uexact solves the equation handed to GMRES.", "quantifier": "every conforming mesh, order, boundary tagging, input vector, polynomial and scale factor", "why_tests_cant": "Consistency ranges over all polynomials and meshes, and the dependence on the unit of length shows only when the same problem is compared across scales.", "anchors": ["src/poisson2d/Poisson2d.hpp PoissonOperator::operator()", "src/poisson2d/main.cpp main", "include/LinAlgHelpers.hpp normMax"]}
{"id": "C107", "title": "The ins2d namelist file is read as written", "statement": "The parameter file is read line by line: empty lines and lines starting with '#' are ignored, a line 'key = value' assigns the value to the key without regard to case or surrounding blanks, the first assignment counts; a file which cannot be opened, a missing number or a malformed line is refused with an exception, and no file content leads to undefined behaviour.", "quantifier": "every file content, every set of keys and values", "why_tests_cant": "File contents are unbounded; only a proof covers every combination of blanks, comments, repeated keys and malformed lines.", "anchors": ["src/ins2d/main.cpp main (lines 37-98)"]}
{"id": "C108", "title": "The sparse Poisson operator can be built for every supported element type and order", "statement": "For a conforming grid of triangles or of quadrilaterals of any order accepted by the nodes provisioner, the sparse Poisson operator and its boundary vector are built, and boundary data of the wrong size is refused.", "quantifier": "every grid, element type, order, boundary tagging and boundary data", "why_tests_cant": "A test builds the operator for one grid and one order; failure on a whole element type or on mis-sized data ranges over all of them.", "anchors": ["src/Poisson2DSparseMatrix.cpp buildPoissonOperator, buildBcRhs", "src/ins2d/main.cpp main"]}
{"id": "C109", "title": "ins2d: rates of change are determined by the fields, fluid at rest with balanced weight stays at rest, the step satisfies the Courant condition and the clock measures it", "statement": "The rates of change computed by the incompressible solver are a function of grid and fields; fluid of uniform density at rest stays at rest; the step size times the largest propagation rate is at most the Courant number; and the clock shows the sum of the steps by which the fields were advanced.", "quantifier": "every grid with a wall face, every state, Courant number, order, number of passes", "why_tests_cant": "Dependence on memory contents, on all states and on the number of passes cannot be observed in finitely many runs.", "anchors": ["src/ins2d/main.cpp main (lines 160-259), computeRHS (lines 268-432)"]}
{"id": "C110", "title": "The implicit heat solver is stable for every step size, conserves heat and tends to the steady state of its boundary data", "statement": "heat2d.py runs without error for every diffusivity and step size whose product is not negative; every pass solves the implicit Euler step of the weak heat equation; the distance in L2 of two runs with the same boundary data never grows; without Dirichlet faces and without flux the integral of the temperature is constant; with a Dirichlet face the temperature tends to the steady state given by the boundary data, from every initial state.", "quantifier": "all triangle grids built by the provisioner, boundary tags, diffusivities, step sizes, boundary data, initial states and numbers of passes", "why_tests_cant": "Stability for every step size and convergence from every initial state are statements about infinitely many runs of unbounded length; a run normalises what it writes, so a wrong amplitude is not seen in the output.", "anchors": ["heat2d.py", "src/Poisson2DSparseMatrix.cpp: buildPoissonOperator, buildBcRhs", "src/pyblitzdg/pyblitzdg.cpp: Poisson2DSparseMatrix"]}
{"id": "C111", "title": "The Vandermonde matrices handed to Python evaluate and interpolate polynomials", "statement": "buildVandermondeMatrix(r, False, N) returns the values at the points r of the orthonormal polynomials of degrees 0..N (0..len(r)-1 without an order), as an array of shape (len(r), N+1). With the inverse asked for and N+1 distinct points the second array is the two-sided inverse, so that multiplying by it and by the matrix at other points interpolates every polynomial of degree at most N exactly; repeated points or a number of points other than N+1 are refused.", "quantifier": "all lists of points, all orders", "why_tests_cant": "Exact interpolation is a statement about all polynomials and all sets of distinct points.", "anchors": ["include/VandermondeBuilders.hpp buildVandermondeMatrix_numpy, computeVandermondeMatrix", "src/pyblitzdg/pyblitzdg.cpp VandermondeBuilder"]}
{"id": "C112", "title": "Boundary vertices near a curve are moved onto it, once and consistently", "statement": "adjustStraightEdges lists exactly the boundary faces both of whose ends lie within 200 of a sample of the curve, moves the ends of those faces (and no other vertex) to the nearest sample, by at most 200, flags exactly the moved vertices, does not depend on the order of the faces, changes nothing when called again, and leaves edges edges.", "quantifier": "all meshes, boundary faces, curves", "why_tests_cant": "The order of the faces and the sharing of vertices between faces range over all meshes.", "anchors": ["meshhelpers/curved.py adjustStraightEdges"]}
{"id": "C113", "title": "Elements on a curved boundary are deformed so that their boundary nodes lie on the curve", "statement": "deformAndBlendElements returns coordinates in which the nodes of every listed face lie on the curve at parameters in proportion to the nodes, while the nodes of the other faces of the element and of all other elements have not moved.", "quantifier": "all orders, meshes, curves, lists of curved faces", "why_tests_cant": "Agreement with the curve at all nodes for all curves and orders, and conformity with all neighbours, are not observable on samples.", "anchors": ["meshhelpers/curved.py deformAndBlendElements", "src/DGContext2D.cpp x_numpy, y_numpy"]}
{"id": "C114", "title": "Python shallow water rates with a tracer", "statement": "On a provisioned triangular mesh with a tagged wall, sw2dComputeRHS returns rates for every wet state. Depth and momenta get the rates of the strong form right-hand side of the C++ code plus the Coriolis, bed slope and drag terms of the arguments. With every boundary face tagged as a wall, the total rates of volume and of tracer are zero. A tracer of constant concentration keeps it: its rate is that constant times the rate of depth. Still water of constant depth over a flat bed stays still and a continuous tracer in it does not change. Still water with a level surface over a sloping bed stays still: refuted. Without any wall face the call raises KeyError.", "quantifier": "every provisioned mesh and order, every wet state and tracer, every gravity, Coriolis, drag and bed slope", "why_tests_cant": "the claims range over all meshes, orders and states; a balance that fails by a term of the size of the discretisation is hidden by tolerances", "anchors": ["swhelpers/rhs.py sw2dComputeRHS", "swhelpers/flux.py sw2dComputeFluxes", "sw2d.py"]}
{"id": "C115", "title": "The weak-form right-hand side of the Python shallow water solver is the weak form it claims to be, conserves volume and tracer, keeps constant concentrations and still water", "statement": "For every state on a triangle grid with cubature and Gauss face contexts and a wall, sw2dComputeRHS_curved returns rates which, less the Coriolis, drag and bed terms, are the piecewise polynomials whose inner product with every polynomial of the order of the grid is the cubature of the fluxes against its gradient minus the Gauss sums of the local Lax-Friedrichs flux along the faces. The flux speed is the largest over both sides of the face, walls reflect. If every unpaired face is a wall, the totals of the rates of depth and tracer vanish up to the rounding of the cubature table (exactly when no element is listed as curved). A tracer of constant concentration keeps it. Water at rest of constant depth over a flat bed keeps its depth, a continuous tracer its values. Without a wall, or with an index beyond the Gauss points, the call raises an exception. The choice of curved elements and of the pairing of faces (own or periodic) is free.", "quantifier": "all grids, orders, cubature and Gauss contexts satisfying their specification, pairings of the faces, lists of curved elements, states, tracers, gravity, Coriolis, drag and bed slopes", "why_tests_cant": "the weak form quantifies over all test polynomials and all states; a test run compares a few numbers on one mesh and cannot tell a consistent scheme from one which is nearly so", "anchors": ["swhelpers/rhs.py: sw2dComputeRHS_curved", "sw2d_curved.py: J, curvedEls, gmapM, gmapP", "src/TriangleNodesProvisioner.cpp: buildCubatureVolumeMesh, buildGaussFaceNodes"]}
{"id": "C116", "title": "The periodic index arrays pair each point of an open end with the point opposite and nothing else", "statement": "If the listed points are distinct and each has exactly one listed point on its level (within 1e-3) and more than 1000 away, makeMapsPeriodic redirects every entry at a listed point to that point, keeps all other entries, and redirecting twice leads back. In a periodic channel whose Gauss points at the open ends are at least 1e-3 apart the arrays built by the driver pair the points of each open face with the points of the face opposite, with equal weights and opposite normals, keep all other pairs, and the right-hand side run with them conserves volume and tracer. If a listed point has no point opposite, or there is no open face, an exception is raised.", "quantifier": "all index arrays, coordinates, grids, channels, orders and numbers of Gauss points, states and tracers", "why_tests_cant": "the pairing must hold for every point of every mesh; one mesh with points in convenient order does not show that repeated points or corner nodes are paired wrongly", "anchors": ["swhelpers/maps.py: makeMapsPeriodic", "sw2d_curved.py: gmapM, gmapP, vmapM, vmapP"]}
{"id": "C117", "title": "Correcting the boundary table tags the two ends of the channel and nothing else", "statement": "On every conforming mesh the table returned by correctBCTable has the given tag on each face whose midpoint is within 1e-6 of x = 0 or x = 8000 and is unchanged elsewhere. If the mesh lies between the two lines, with vertices on the lines or at least 2e-6 away, the tagged faces are exactly the faces on the lines, and all of them are boundary faces. A vertex number beyond the table raises an exception.", "quantifier": "all conforming meshes of counter-clockwise triangles, tables and tags", "why_tests_cant": "must hold for every mesh of a channel; a test checks the tags of one mesh", "anchors": ["swhelpers/maps.py: correctBCTable", "sw2d_curved.py: bcType"]}
{"id": "C118", "title": "A run of the curved shallow water driver keeps its clock, totals and concentrations, and its steps obey the Courant condition", "statement": "In every run of the time loop the clock shows the sum of the steps taken and at the end exceeds the final time by less than the last step. With walls and paired faces a pass changes the totals of volume and tracer by at most the step times the cubature error on elements listed as curved; without such elements the totals are kept exactly over any run. A constant concentration stays constant while the water is deep enough to be positive at the quadrature points. Each step is the largest for which waves at the speed of the mean depth at rest, carried by the flow, obey the Courant condition; a pass succeeds or raises because a depth exceeds 1e8, and the loop ends if the flow stays bounded.", "quantifier": "all grids, orders, pairings, filters, states, numbers of passes and final times", "why_tests_cant": "they concern every history of steps, with step sizes that depend on the states; a test runs one history", "anchors": ["sw2d_curved.py: time loop, dt", "swhelpers/rhs.py: sw2dComputeRHS_curved"]}
{"id": "C119", "title": "A run of the flat-bed shallow water driver takes the planned number of steps, writes the planned files and keeps totals, concentrations and still water", "statement": "A run that does not raise takes exactly ceil(finalTime/dt) steps, ends at or less than one step after the final time, and writes file 0, each multiple of the output interval and the last step, once each and in order: between numOuts+1 and 2*numOuts+1 files. Its right-hand side is that of swhelpers/rhs.py without drag over a level bed. Between walls the totals of volume and tracer are kept over any number of passes, constant concentrations stay constant, and still water stays exactly still. The step is the largest that obeys the Courant condition in the initial state.", "quantifier": "all meshes provisioned by the library, orders, filters, states with positive depth, final times and numbers of outputs", "why_tests_cant": "exact counts and conservation over runs of every length; short runs, which raise ZeroDivisionError, are not tested", "anchors": ["sw2d.py: sw2dComputeRHS, time loop, numSteps, outputInterval"]}
{"id": "C120", "title": "The drag coefficient lies between zero and its maximum and falls with the distance from the walls", "statement": "For every list of wall nodes with at least one entry the coefficient of every node is computed; it depends only on the distance from the nearest wall node, lies strictly between 0 and the maximum, is larger at the nearer of two nodes, is half the maximum at half the given length, within a twenty-thousandth of the maximum at the wall and below a twenty-thousandth of it from the given length on. With the C++ source terms every moving node loses energy. Without wall nodes an exception is raised.", "quantifier": "all wall nodes, nodes, maxima and lengths", "why_tests_cant": "holds for every distance; monotone dependence on the nearest of many points cannot be settled by samples", "anchors": ["sw2d_curved.py: CD, length_tol"]}
{"id": "C121", "title": "The time stepping of the Python shallow water drivers is second order accurate", "statement": "For every smooth solution with positive depth of the semi-discrete equations (filtered rates of the driver) there is a constant such that every run begun on the solution, with small enough steps, misses it after each pass by at most the constant times the square of the largest step, at every node and for every field. An explicit bound with the Lipschitz constant of the rates and the bounds of the derivatives holds for both drivers and for variable steps, with any error at the start.", "quantifier": "all grids provisioned by the library with a wall, filters, gravity, Coriolis parameters, smooth solutions, numbers of passes and steps", "why_tests_cant": "an order of accuracy is a statement about all small steps; tests see a few", "anchors": ["sw2d.py: time loop", "sw2d_curved.py: time loop"]}
{"id": "C122", "title": "The advection program converges to the travelling wave", "statement": "For a sufficiently small Courant number (a bound that depends only on the polynomial order) the one-dimensional advection program makes ceil(T/dt) steps and returns. Every field it computes, and the error it prints, differs from the initial profile shifted by c*t by at most an explicit bound in the Courant number, the element width, the profile's derivative of order N+1 and its size at the inflow end. For a profile vanishing at the inflow end the error is of order 4 in time and N-1/2 in space. It writes the grid once and the field of every tenth step. It gives up only if that bound is of the order of 1e8.", "quantifier": "every polynomial order N >= 1, interval, number of elements, speed c > 0, final time, Courant number below the bound, profile with N+1 continuous derivatives", "why_tests_cant": "a test runs one profile on one grid and compares with one tolerance; that the error goes to zero with the grid and the step, for every profile, is a statement about all of them", "anchors": ["src/advec1d/main.cpp main", "src/advec1d/main.cpp computeRHS", "include/LSERK4.hpp LSERK4", "src/Nodes1DProvisioner.cpp Nodes1DProvisioner::buildNodes"]}
{"id": "C123", "title": "The Python advection script computes what the C++ program computes", "statement": "advec1dComputeRHS of advec1d.py returns, on every grid and for every field, entry by entry the rates of the C++ computeRHS. The array properties it reads have the shape and entries of the C++ arrays. The script makes ceil(T/dt) steps, plots after each, and every plotted field differs from the travelling wave by at most the bound of C122.", "quantifier": "every polynomial order, grid, field, speed, final time, Courant number below a bound, smooth profile", "why_tests_cant": "index arrays, flattening order and shapes agree on one grid without agreeing on all; convergence is about all grids", "anchors": ["advec1d.py advec1dComputeRHS", "src/Nodes1DProvisioner.cpp Nodes1DProvisioner::get_nx_numpy", "src/pyblitzdg/pyblitzdg.cpp Nodes1DProvisioner"]}
{"id": "C124", "title": "The Python Poisson script solves the Neumann problem up to one multiplier", "statement": "With the operator and mass matrix of the library, poisson2d.py on a connected mesh always factorises its bordered matrix and returns the only nodal field with sum zero which satisfies the discrete equations of Laplace(u) = f up to a single multiplier; without Dirichlet faces the multiplier is minus the integral of f over the number of nodes, and a polynomial of degree at most N without boundary flux is recovered from its Laplacian up to a constant. It is not true that adding a constant to f leaves the result unchanged.", "quantifier": "every connected mesh, order, boundary tagging and forcing", "why_tests_cant": "Depends on invertibility of a matrix assembled for an arbitrary mesh and on a uniqueness claim over all fields; a run on one box mesh shows neither.", "anchors": ["poisson2d.py", "src/pyblitzdg/pyblitzdg.cpp: Poisson2DSparseMatrix", "src/Poisson2DSparseMatrix.cpp"]}
{"id": "C125", "title": "The shallow water script on quadrilaterals: mass, steady states, schedule and the filter", "statement": "sw2dquads.py on any conforming mesh of convex quadrilaterals, at any order: (a) if the elements are parallelograms and walls close the domain, the rate it computes has total depth exactly zero for every state, and every run, of any length and with the filter the script builds, keeps the total depth; (b) a uniform state whose velocity is tangential to the walls has rate zero, and a run keeps it; (c) a mesh without walls makes the rate raise an error; (d) a run makes the number of steps the final time and the step size ask for, writes the fields at the multiples of twenty and stops with an error as soon as the depth exceeds 1e8. It is not true that mass is kept on general quadrilaterals: on one trapezoid a uniform drift creates water at the rate 1/12. It is not true that the scheme evolves all modes of the field: the filter, whose loops are those of a triangle, zeroes the later modes, so the change over a run of any length has degree at most (N+1)/2 in the second reference coordinate on every element.", "quantifier": "every order N >= 1, every conforming mesh of convex quadrilaterals with its connectivity, every state, gravity, step size, final time and number of passes, every filter cutoff and exponent", "why_tests_cant": "a test runs one mesh, one order and one state for some steps; totals over all states, meshes and numbers of steps, and the degree of every possible change, cannot be enumerated", "anchors": ["sw2dquads.py", "src/QuadNodesProvisioner.cpp: QuadNodesProvisioner::buildPhysicalGrid, buildMaps, buildFilter", "src/pyblitzdg/pyblitzdg.cpp"]}
{"id": "C126", "title": "Depth reconstruction at faces keeps depths positive and bounded, and does not touch its arguments", "statement": "surfaceReconstruction(etaM, hM, etaP, hP) returns depths that are at least 1e-3, at most the larger of 1e-3 and the depths given, equal on both sides when the surface is level, and unchanged when the bed is continuous; arrays of different lengths raise; the arrays passed by the caller keep their values and the result does not depend on which side is called inner.", "quantifier": "all real surface and depth arrays of all lengths", "why_tests_cant": "The limits and the sign tests interact; the bound has to hold for every pair of states at every face.", "anchors": ["swhelpers/limiters.py surfaceReconstruction", "swhelpers/limiters.py minmod"]}
{"id": "C127", "title": "Boundary tags given in the mesh file reach the boundary table", "statement": "After reading a mesh file the boundary table holds, for every boundary face, the physical tag of the line element of the file that lies on it (wall if it has none or the tag is 0), and 0 for interior faces.", "quantifier": "all mesh files in the format, all tags", "why_tests_cant": "The effect of the tags has to be compared over all files that differ in their tags.", "anchors": ["src/MeshManager.cpp readMesh", "src/MeshManager.cpp buildBCTable(edges)", "src/MeshManager.cpp buildBCTable"]}
{"id": "C128", "title": "With a floating-point clock every time loop ends after the planned number of steps", "statement": "A driver whose clock is a floating-point number, advanced by t += dt with rounding to nearest, leaves its loop at the first clock not below the final time; the number of steps is the planned one, ceil(finalTime/dt), and the clock equals the sum of the steps up to rounding.", "quantifier": "all precisions, final times, step sequences and right-hand sides", "why_tests_cant": "Rounding errors accumulate over any number of steps; whether the loop ends or takes one more step depends on all of them.", "anchors": ["src/advec1d/main.cpp main", "src/burgers1d/main.cpp main", "src/sw2d/main.cpp main", "src/sw2d-simple/main.cpp main", "src/ins2d/main.cpp main", "sw2d.py", "sw2d_curved.py", "sw2dquads.py", "advec1d.py"]}
{"id": "C129", "title": "uniquetol lists the representatives in lexicographic order of the most spread columns", "statement": "uniquetol(A,tol) with tol > 0 lists the representatives (gather) in strictly increasing lexicographic order when the columns are compared by decreasing spread about their mean; uniquetolMatlab lists them in nondecreasing lexicographic order by decreasing 2-norm of the columns. So the numbering of the nodes built from them does not depend on the sorting algorithm beyond ties between columns.", "quantifier": "every matrix with at least one column, every positive tolerance, every sorting algorithm that sorts", "why_tests_cant": "depends on the running variance over all rows and on the in-place compaction of a sorted list", "anchors": ["include/BlitzHelpers.hpp: details::getOrdering, uniquetol, orderColsByNorm, uniquetolMatlab"]}
{"id": "C130", "title": "Reading row by row returns exactly the next nonblank line, for Windows line ends too", "statement": "After any sequence of reader operations, setNumCols(n) followed by parseRowValues with n arguments reports the end of the file if only blank lines are left; otherwise it consumes the next nonblank line and the blank ones before it, and returns its fields converted in order if there are n and all convert, and throws if not. With another number of arguments it throws without consuming anything. csvread gives the same result for a file whose lines end in carriage return and newline.", "quantifier": "every file, delimiter set, construction, history of operations and number of columns", "why_tests_cant": "the result depends on the position left behind by an arbitrary history and on arbitrary text", "anchors": ["include/CSVFileReader.hpp: CSVFileReader::parseRowValues, parseRowIterator, setNumCols, getNonemptyLine", "csvread"]}
{"id": "C131", "title": "A mesh file that ends too early is rejected", "statement": "Reading a mesh file that has been cut off behind any of its lines before the last element row ends in an exception, and never in a mesh object.", "quantifier": "all mesh files in the format, all places to cut, with and without final newline", "why_tests_cant": "The outcome depends on where the file ends; each position takes another path through ignored return values.", "anchors": ["src/MeshManager.cpp readMesh", "include/CSVFileReader.hpp parseRowValues", "src/CSVFileReader.cpp readLine"]}
{"id": "C132", "title": "A mesh built from two numpy arrays is the mesh they describe", "statement": "After buildMesh(EToV, Vert) the mesh object has the vertices of Vert and the elements of EToV (up to the orientation of an element), and its tables describe that mesh, whatever the element type of the arrays.", "quantifier": "all arrays of element numbers and vertices", "why_tests_cant": "The reinterpretation of memory gives right results for one element type only; the tables depend on the whole mesh.", "anchors": ["src/MeshManager.cpp buildMesh", "src/pyblitzdg/pyblitzdg.cpp MeshManager"]}
{"id": "C133", "title": "The source tree is found from the path of the test program", "statement": "A program that runs from the build tree of the project can construct a path resolver and obtain the root directory of the source tree, and the input file path it builds is root/input/name, whatever the path of the tree is.", "quantifier": "all executable paths, all names of input files", "why_tests_cant": "The result depends on every byte of the absolute path of the executable: its length, its blanks, and occurrences of the delimiters anywhere in it.", "anchors": ["src/PathResolver.cpp PathResolver", "src/PathResolver.cpp get_RootPath", "src/whereami.c getExecutablePath", "src/PathResolver.cpp joinPaths"]}
{"id": "C134", "title": "What is on disk after any sequence of output calls", "statement": "After any sequence of CSV or VTK output calls, with any fields and counters, every file named by a call holds what the last such call for that field and counter wrote, all other files are untouched, and reading a file back gives the numbers written.", "quantifier": "all histories of output calls, all initial disk contents", "why_tests_cant": "The claim is about every sequence of calls; two different fields or counters may name the same file only far out in a run, and failures to open a file are silent.", "anchors": ["src/CsvOutputter.cpp writeFieldToFile", "src/CsvOutputter.cpp writeFieldsToFiles", "include/OutputterBase.hpp generateFileName", "src/VtkOutputter.cpp writeFieldsToFiles"]}
{"id": "C135", "title": "What a VTK file shows", "statement": "A VTK file written for a discontinuous field of order N shows N squared cells per element that tile it, without overlaps and with consistent orientation, every point at its place in its element and carrying the value of the field there; writing the file leaves the discretisation unchanged.", "quantifier": "all orders, meshes of triangles and quadrilaterals, fields", "why_tests_cant": "Reordering, interpolation to the output lattice, and cell numbering must agree for all orders and elements; a picture that looks plausible for smooth data hides misplaced values.", "anchors": ["include/VtkOutputter.hpp writeFieldToFile", "include/VtkOutputter.hpp insertAllCells", "src/TriangleNodesProvisioner.cpp splitElements", "src/QuadNodesProvisioner.cpp splitElements", "src/QuadNodesProvisioner.cpp computeInterpMatrix"]}
{"id": "C136", "title": "A mesh manager over its lifetime", "statement": "Whatever sequence of reading, building and partitioning calls a program makes on one mesh manager, some of them rejected with an exception that the program catches: a call that is rejected leaves the previous mesh in place, the exported vertex, element and boundary arrays always have the announced shape and the manager's data, and a mesh that is read later is the one a new manager would read.", "quantifier": "all histories of calls, all file contents and Python arrays", "why_tests_cant": "The state left behind by a rejected call depends on the row at which the file is rejected and on what the manager held before; a test sees one history.", "anchors": ["src/MeshManager.cpp readVertices", "src/MeshManager.cpp readElements", "src/MeshManager.cpp readMesh", "src/MeshManager.cpp buildMesh", "include/CSVFileReader.hpp csvread", "src/MeshManager.cpp get_Vertices_numpy", "src/MeshManager.cpp get_Elements_numpy", "src/MeshManager.cpp get_BCType_numpy"]}
{"id": "C137", "title": "Partition maps belong to the mesh", "statement": "After a mesh has been partitioned the exported maps give every element and every vertex of the current mesh one part number below the requested number of parts; a partition that could not be computed is reported.", "quantifier": "all histories of calls, all meshes, all numbers of parts, all outcomes of METIS", "why_tests_cant": "Whether the maps still describe the mesh depends on the calls made since, and the failures of METIS are not reachable from a test of the library.", "anchors": ["src/MeshManager.cpp partitionMesh", "src/MeshManager.cpp get_ElementPartitionMap_numpy", "src/MeshManager.cpp get_VertexPartitionMap_numpy"]}
{"id": "C138", "title": "What the Python shallow water programs start from", "statement": "The state from which the curved shallow water program starts is a jet in balance: depth and momenta at the nodes are values of a steady flow of the plane, the clipping of the depth does nothing, depth, speed and concentration stay within stated bounds, the flow is slower than the waves, the first step obeys the Courant condition with the waves of the depth at rest, and the first file shows the same quantities as the later ones; vorticity is that of the flow on elements with straight sides. The flat-bed program starts at rest with a plane surface and positive depth within 32 km.", "quantifier": "all grids, node coordinates and parameters of the jet", "why_tests_cant": "a test looks at the nodes of one mesh and cannot tell balance from a small imbalance; the bounds hold for every mesh", "anchors": ["sw2d_curved.py", "sw2d.py", "src/TriangleNodesProvisioner.cpp setCoordinates_numpy"]}
{"id": "C139", "title": "Which states of a run of the curved driver are written", "statement": "A run of the curved shallow water program writes file 0, a file for every fiftieth step and one for the step planned as the last, each once and in order, and the state at the end of the run is written.", "quantifier": "all rates, states, final times and numbers of passes", "why_tests_cant": "the number of steps is planned with the first step while the steps change with the flow; a test with one flow misses the runs that end early", "anchors": ["sw2d_curved.py lines 229-300"]}
{"id": "C140", "title": "The curve to which the wall is fitted", "statement": "The points from which the curve is made are the wall nodes in the stated range from left to right; the parameter is the length along them, the resampled points lie on the polygon through the nodes at equal lengths, begin and end at its ends, and do not depend on the order in which the nodes are listed.", "quantifier": "all lists of wall nodes and all results of sorting that numpy may return", "why_tests_cant": "the order in which wall nodes are listed comes from the mesh, equal entries may be sorted either way, and nodes shared by two faces are listed twice", "anchors": ["sw2d_curved.py lines 60-93"]}
{"id": "C141", "title": "Boundary tags and boundary temperatures of the heat program", "statement": "On a triangulation of the trapezoid with the corners (0,0), (4,0), (3,1.3), (1,1.3) heat2d.py tags the faces of the left, right and upper side as Dirichlet and those of the lower side as Neuman, leaves interior faces alone, hands over at every node of a Dirichlet face the temperature prescribed on its side (-1/4, 1 - 10y/13, (e^(4(x-3)) - 1)/4), one value per place, between -1/4 and 1, and zero flux; it then runs, and its temperature tends to the steady solution for these data up to the factor 1/(kappa dt).", "quantifier": "all triangulations of the trapezoid whose vertices are on a side or at least a small distance from it, all orders for which the grid is built, all CFL and kappa > 0, all numbers of passes", "why_tests_cant": "A run shows one mesh and one order; the classification of faces by comparison with 1e-12, the value at corners where two sides meet and convergence concern every mesh and every number of passes.", "anchors": ["heat2d.py", "src/Poisson2DSparseMatrix.cpp", "src/pyblitzdg/pyblitzdg.cpp"]}
{"id": "C142", "title": "Rounding does not change which nodes face each other", "statement": "In floating-point arithmetic the one-dimensional provisioner always has the connectivity and surface maps of exact arithmetic, and the coordinates on the two sides of an interface are the same number. The triangle provisioner has the face masks, trace maps and boundary lists of exact arithmetic as long as the rounding errors of the coordinates are small against NodeTol times the shortest face; on a triangle far enough from the origin a wall node is paired with a different node and lost from the boundary list.", "quantifier": "one dimension: all roundings that keep integers, all intervals, orders, numbers of elements; triangles: all conforming meshes, all orders with points 4 NodeTol apart (unconditionally orders one to five), all arithmetics with relative error u, all stored nodes with error rho, coordinates up to M and faces of length at least l with 5(3 rho + 20 u)M < NodeTol l", "why_tests_cant": "A test sees a few meshes near the origin; how coordinate size, face length and tolerance interact for every mesh and every rounding needs an error analysis.", "anchors": ["src/TriangleNodesProvisioner.cpp", "src/Nodes1DProvisioner.cpp", "include/LinAlgHelpers.hpp"]}
{"id": "C143", "title": "The simple shallow water program from start to end", "statement": "On every mesh the program builds its filter, sets water of depth ten plus a bump of height one at rest and computes a first step that is the largest allowed by the Courant condition. It writes the elevation of the states after 0, 10, 20, ... passes under these numbers, each once and in order, and the files written before an exception stay. A run that reaches the final time has made at least one pass, ends less than one step after it, and its last state is written. On a mesh with a wall nothing undefined happens and an exception means that a pass moved the surface by more than 1e8 at some node; on a mesh without a wall the first file is written and the program raises. While depths stay positive and speeds bounded the loop ends within the number of passes given by the bounds; from water at rest it ends, with the water at rest in all files.", "quantifier": "every mesh with at least one element, every order, every number of passes", "why_tests_cant": "The number of passes, the failing pass and the mesh are unbounded; a test sees one run of one mesh and cannot tell a file that was not written from one written late.", "anchors": ["src/sw2d-simple/main.cpp: main"]}
{"id": "C144", "title": "The full shallow water program from start to end", "statement": "With a depth file that has at most one value per node the program starts from water at rest with a level surface, at least 150 deep. Without an open face it writes elevation and velocities at rest and raises; with an open face but no wall it raises in the first pass, after writing the static fields as well; otherwise the loop runs and nothing undefined happens. It writes elevation and velocities of the states after 0, 20, 40, ... passes under these numbers, and depth, slopes, sponge and coordinates under 0. Each pass advances the clock by the Courant step of the state it starts from. An exception in the loop means that the surface had moved by more than 1e8 at some node before the pass. A run that reaches the final time makes at least one pass, ends less than one step after it, and writes its last state. While there is water everywhere and speeds are bounded the loop ends within the number of passes given by the bounds.", "quantifier": "every mesh with at least one element, order, depth file, list of open boundary vertices and number of passes", "why_tests_cant": "all meshes, files, lists and run lengths, including those that fail", "anchors": ["src/sw2d/main.cpp: main, readDepthData, buildSpongeCoeff, computeTimeStep, computeRHS", "src/sw2d/SW2d.hpp: physParams, numParams"]}
{"id": "C145", "title": "The incompressible flow program advances the flow", "statement": "Started with the name of a namelist file, ins2d reads the parameters and the quadrilateral mesh, builds nodes, filter and Poisson matrix, sets stratified fluid at rest and advances it to the final time. Refuted: whatever the file and the mesh contain, the program never reaches its time loop and writes no field; with a sensible file and mesh everything before the Poisson matrix is built and the program ends with an exception. Were the matrix built, the loop would be entered with fluid at rest and densities between 1 and 1.003, and on a mesh with a wall no number of passes would lead to undefined behaviour: each pass would be the midpoint rule with rates filtered in place, every tenth density would be written, the step would be the Courant number times the smallest rate over the face nodes, and a density beyond 1e8 would end the run with an exception. With another number of arguments the program tells how to call it and reads nothing.", "quantifier": "all namelist files, meshes, orders, parameters, contents of uninitialised memory and numbers of passes; all LAPACK implementations that satisfy the contract", "why_tests_cant": "A test can show that one file and one mesh fail; that no file and no mesh can make the program reach its loop is a statement about all of them.", "anchors": ["src/ins2d/main.cpp: main", "src/QuadNodesProvisioner.cpp: get_DGContext, computeInterpMatrix", "src/Poisson2DSparseMatrix.cpp: buildPoissonOperator"]}
{"id": "C146", "title": "The Burgers program from start to end", "statement": "The program starts from the reference solution at time 0, takes fixed steps given by the Courant and diffusion limits, makes the least number of passes that reaches the final time unless a pass gives a value above 1e8, and nothing undefined happens. It writes the grid once and the states after 0, 10, 20, ... passes, each once, in order and under these numbers; on an exception the files written before stay. The error is printed exactly if the final time is reached and is the largest distance from the reference solution at the time reached. As shipped the program makes 94 passes and leaves the files x.dat, u0000000.dat, ..., u0000090.dat; advec1d as shipped makes 87 and leaves u0000000.dat, ..., u0000080.dat.", "quantifier": "every interval, order at least one, number of elements, positive Courant number and viscosity, speed other than zero, number of passes allowed, LAPACK that meets its contract and previous contents of the arrays", "why_tests_cant": "A test sees one run with one set of constants; the number of passes and the files must be right for all of them, and for runs that fail.", "anchors": ["src/burgers1d/main.cpp: main, Burgers2", "src/advec1d/main.cpp: main", "include/LSERK4.hpp"]}
{"id": "C147", "title": "What is printed can be read back", "statement": "Printing a triplet matrix after any history of insertions appends to the stream its size, its number of entries and its entries in order, one per line, such that a reader of lines, words and decimal numbers recovers all of them, with the values of all lines starting in one column when the indices are in range; printing a compressed matrix does the same column by column. A printed solver report names the outcome, both iteration counts and the residual, and different outcomes have different texts. Printing the vertices or elements of a mesh prints one line per vertex or element with its coordinates or vertex numbers. (The message of a report is not printed, the report changes the settings of the stream, the count printed for a compressed matrix is its allocated size, and after a rejected vertex file the tables are mixed.)", "quantifier": "all histories of a triplet matrix, all well-formed compressed matrices, all reports, all histories of a mesh, all streams, every way of writing real numbers as words", "why_tests_cant": "tests compare the text of a few matrices; that widths, separators and order never make the text ambiguous, for all sizes and all index values, needs an argument over all texts", "anchors": ["src/SparseTriplet.cpp operator<<", "src/CSCMatrix.cpp operator<<", "src/GMRESSolver.cpp ConvFlagToStr, operator<<", "src/MeshManager.cpp printArray, printVertices, printElements", "src/poisson2d/main.cpp main"]}
{"id": "C148", "title": "The Poisson programs write a field whose residual is the reported one", "statement": "poisson1d, on every line of elements, and poisson2d, on every mesh with a wall, run to the end whatever the solver does. poisson1d writes the nodes, the field u, sin(pi x) and -pi^2 sin(pi x), and prints the largest distance of u from sin(pi x) at a node. poisson2d hands the right-hand side, the field u and sin(pi x) sin(pi y) to the outputter under number 0 and prints the number of elements, the solver's report and the largest absolute value of u. In both, the relative residual in the report is that of the written field, success is reported exactly when this residual is below the tolerance, divergence is never reported, and the residual is at most that of the initial guess; with at most as many unknowns as the Krylov space holds and a one-to-one operator it is a success. On a mesh without a wall poisson2d ends with an exception unless its initial guess is zero.", "quantifier": "all intervals, orders and numbers of elements; all triangle meshes and orders; all previous contents of the arrays; exact arithmetic", "why_tests_cant": "A test runs one mesh and looks at one residual; it cannot show that report and file agree on all meshes, nor what happens on meshes without walls.", "anchors": ["src/poisson1d/main.cpp main", "src/poisson2d/main.cpp main", "src/poisson1d/Poisson1d.hpp PoissonOperator", "src/poisson2d/Poisson2d.hpp PoissonOperator", "include/GMRESSolver.hpp GMRESSolver::solve"]}
{"id": "C149", "title": "Sparse triplets built from arrays", "statement": "A triplet built from arrays of row indices, column indices and values with at least one entry holds exactly the first nnz entries in their order, has the smallest size with room for them (so zero rows and columns at the end of the matrix they came from are lost) and exactly the capacity used; every later history of insert, expand and clear behaves as if the entries had been inserted first, and the compressed matrix made of it has that size and represents the sums at equal positions. With nnz = 0 the constructor reads an element that is not part of its input: undefined for empty arrays, and otherwise a size taken from it. With the sizes given, indices are not checked: the size reported may be too small for the entries, and a size of zero does not make the object empty. Swapping exchanges everything.", "quantifier": "all arrays and numbers of entries, all value types, all later histories", "why_tests_cant": "a test uses one set of arrays; sizes, spare elements and later growth have to hold for all, and the case without entries is only wrong for some memory contents", "anchors": ["include/SparseTriplet.hpp SparseTriplet(nnz, rowPtr, colPtr, elemsPtr)", "include/SparseTriplet.hpp SparseTriplet(rows, cols, nnz, rowPtr, colPtr, elemsPtr)", "src/SparseTriplet.cpp swap"]}
{"id": "C150", "title": "Rounding does not change which nodes of quadrilaterals face each other", "statement": "In floating-point arithmetic the quadrilateral provisioner has the face masks, trace maps and boundary lists of exact arithmetic as long as the rounding errors of the bilinear coordinates are small against NodeTol times the shortest face; on a unit square far enough from the origin a wall node is paired with a different node and lost from the boundary list.", "quantifier": "all conforming meshes of convex counter-clockwise quadrilaterals, all orders with points 4 NodeTol apart (unconditionally orders one to five), all arithmetics with relative error u, all stored nodes with error rho, coordinates up to M and faces of length at least l with 5(5 rho + 40 u)M < NodeTol l", "why_tests_cant": "A test sees a few meshes near the origin; how coordinate size, face length and tolerance interact for every mesh and every rounding needs an error analysis.", "anchors": ["src/QuadNodesProvisioner.cpp: buildNodes, buildPhysicalGrid, buildMaps", "include/LinAlgHelpers.hpp: distanceLessThanEps"]}
{"id": "C151", "title": "Where the Jacobi routines yield NaN", "statement": "For parameters alpha, beta > -1, computeJacobiPolynomial and computeJacobiQuadWeights yield no infinity and no NaN through division by zero, roots of negative numbers or poles of the gamma function, except when alpha + beta = -1: then computeJacobiPolynomial returns NaN for every degree and point, and every weight of computeJacobiQuadWeights with N >= 1 is NaN. computeGradJacobi yields numbers for all alpha, beta > -1.", "quantifier": "all real parameters > -1, every degree, every point, every result of the eigenvalue routine; no roundings, overflow or underflow", "why_tests_cant": "a continuum of parameters with an exceptional line; tests sample a few integer parameters", "anchors": ["src/JacobiBuilders.cpp: computeJacobiPolynomial", "src/JacobiBuilders.cpp: computeGradJacobi", "src/JacobiBuilders.cpp: computeJacobiQuadWeights"]}
{"id": "C152", "title": "A run that has broken down is noticed", "statement": "Every time-stepping program stops with an error as soon as a pass of its loop leaves NaN, an infinity or a value of more than 1e8 in size in the tested field, and otherwise goes on. The code does so in the Python programs, and one pass late in sw2d. In advec1d and burgers1d NaN is never noticed, not even when the whole field is NaN; in sw2d-simple and ins2d it is noticed only when the whole field is NaN. A node that holds NaN keeps it for the rest of the run, and the error these programs print at the end is never NaN: it is the error over the other nodes.", "quantifier": "every list of values (numbers, infinities, NaN), every right-hand side, step size and number of passes", "why_tests_cant": "A test sees one field; which fields a maximum overlooks is a statement about all of them, and a run that goes on after a breakdown looks like a good one.", "anchors": ["src/advec1d/main.cpp main", "src/burgers1d/main.cpp main", "src/sw2d-simple/main.cpp main", "src/sw2d/main.cpp main", "src/ins2d/main.cpp main", "sw2d.py", "sw2d_curved.py", "sw2dquads.py", "advec1d.py", "include/LinAlgHelpers.hpp normMax"]}
{"id": "C153", "title": "Dry nodes do not spoil the shallow water fluxes", "statement": "Where the depth is not positive the shallow water programs still compute a dissipation coefficient that is the same from both sides of a face, finite rates and a positive time step. With positive depths they do. Otherwise not: a state without positive depth is passed over by the coefficient, and with it the state across the face if it lies on the inner side, so that the two sides of a face get different coefficients and mass is not conserved; if no inner state of a face is wet the coefficient is the lowest double. In sw2d one face node where no water stands above the higher of the two beds makes the depth NaN in its whole element in the same pass and ends the run in the next. If no face node is wet the time step is negative. In sw2d.py one dry face node makes both evaluations of the rate NaN on its element and the pass raises an exception.", "quantifier": "every list of wet or dry state pairs, every normal, bed depth, right-hand side and order", "why_tests_cant": "Tests run wet states; the behaviour at dry nodes rests on how maxima treat NaN, for every combination of wet and dry nodes.", "anchors": ["src/sw2d-simple/main.cpp computeRHS", "src/sw2d/main.cpp computeRHS computeTimeStep", "src/sw2d-simple/main.cpp main", "sw2d.py sw2dComputeRHS"]}
{"id": "C154", "title": "Elements are stored counter-clockwise in floating-point arithmetic", "statement": "With coordinates stored and computed in floating point, readMesh and buildMesh still leave every triangle counter-clockwise, with the vertices it had. They do, and give exactly the table of exact arithmetic, when twice the area of every element exceeds 8(u L^2 + eta L + eta), L being its largest coordinate difference, u the unit roundoff and eta the underflow error. For thinner elements the claim is false: a clockwise triangle of doubles whose determinant is computed as 0 is stored clockwise.", "quantifier": "every mesh of triangles or quadrilaterals, every rounding with unit roundoff at most 1/16", "why_tests_cant": "Whether a rounded determinant has the right sign is a statement about all coordinates; the failing triangles are thinner than any test mesh.", "anchors": ["src/MeshManager.cpp readMesh buildMesh"]}
{"id": "C155", "title": "The convergence history GMRES writes is the true one and has no other effect", "statement": "Asking GMRESSolver::solve for the convergence history changes neither the result, nor the solution vector, nor the calls of the matrix and the preconditioner; not asking for it writes nothing. The history has a heading, a line for the initial guess and exactly one line per completed inner iteration, numbered by outer and inner iteration in order; rates are the quotients of successive residual norms. In exact arithmetic the norms never increase, also across restarts, and the last line is the relative residual norm of the vector returned unless the solver broke down. The output stream keeps the format it had.", "quantifier": "All matrices, preconditioners (also failing ones), right hand sides, guesses, parameters and states of the console; exact real arithmetic on inner product spaces for the norms", "why_tests_cant": "A test sees the lines of a few systems; that the lines follow every restart, failure and early end, and that printing never interferes with the iteration, is a statement about all runs", "anchors": ["include/GMRESSolver.hpp: GMRESSolver::solve", "include/GMRESSolver.hpp: GMRESParams::verbose", "src/poisson1d/main.cpp: main"]}
{"id": "C156", "title": "The set-up of the curved shallow water program", "statement": "For every triangle mesh on which it returns, the set-up of sw2d_curved.py (tag correction, grid, filter, wall curve, fitting of boundary faces, new coordinates) hands on, as elements to be treated as curved, exactly those with a tagged boundary face both of whose corners lie within 200 of the wall curve. The grid it hands on has its wall nodes on that curve. It returns for every valid mesh. On a channel closed by walls between x = 0 and x = 8000 every following pass of the time loop keeps the totals of volume and tracer up to the cubature error on the curved elements.", "quantifier": "every triangle mesh, order, spline routine, index sort and wall curve; every state and pass of the time loop that follows", "why_tests_cant": "A test runs one mesh with one wall and looks at the picture; which elements are listed, where the nodes end up and whether the program can get through its set-up depend on every corner of the mesh and on the curve.", "anchors": ["sw2d_curved.py", "swhelpers/maps.py correctBCTable", "meshhelpers/curved.py adjustStraightEdges", "meshhelpers/curved.py deformAndBlendElements", "src/pyblitzdg/pyblitzdg.cpp setCoordinates"]}
{"id": "C157", "title": "The advection programs are stable for every initial profile", "statement": "With a step size such that c*dt/h is at most 2/(15 (N+1)^2), the one-dimensional advection program and the Python script make ceil(T/dt) steps. The energy of every field they compute (the integral of the square of the piecewise polynomial) is at most 9/4 (1+1e-24)^(2j) times the energy of the initial field, j being the number of steps, whatever the initial profile. They give up only if the initial energy is of the order of 1e16 times the element width.", "quantifier": "every polynomial order N >= 1, interval, number of elements, speed c > 0, final time, step size below the bound, and every initial profile without any smoothness; all steps of the run", "why_tests_cant": "Stability is a statement about all initial fields and any number of steps; a growing mode that a test's smooth profile does not excite, or excites too weakly for the few steps of the test, is missed.", "anchors": ["src/advec1d/main.cpp: main", "include/LSERK4.hpp: LSERK4", "advec1d.py"]}
{"id": "C158", "title": "Rounded Runge-Kutta coefficients", "statement": "The time stepping coefficients the compiled library holds, and hands to Python, are the double precision numbers nearest to the published quotients, in the published order. With these rounded numbers a step is still a five-stage explicit Runge-Kutta step whose order-four conditions hold to 1e-16; for every right-hand side with Lipschitz constant L and every step up to 1/L it differs from the step with the exact quotients by at most 2e-15 of an Euler step; and on every linear system whose energy does not grow, steps up to 2/5 over the norm of the operator increase the norm at most by 3/2 (1 + 1e-15)^n. The rounded scheme is however not exactly consistent: with u' = 1 each step advances by slightly more than the step size.", "quantifier": "all right-hand sides, states, register contents, step sizes and numbers of steps; all doubles as competitors for the nearest one", "why_tests_cant": "a test compares a few runs with a tolerance; it cannot tell a mistyped digit of a coefficient from rounding, nor bound the effect of the rounding for every right-hand side and any number of steps", "anchors": ["include/LSERK4.hpp: LSERK4::rk4a, LSERK4::rk4b", "src/pyblitzdg/pyblitzdg.cpp: lserk4wrapper", "src/advec1d/main.cpp: main", "advec1d.py"]}
{"id": "C159", "title": "Time stepping is stable in floating-point arithmetic", "statement": "With every product and sum of the Runge-Kutta stage loop rounded to double precision, and a right-hand side that is a linear operator up to a relative error rho, any number n of time steps on a system whose energy does not grow increases the norm of the field at most by the factor 3/2 (1 + 1e-15 + 288 eta)^n, provided the step times the norm of the operator is at most 2/5; eta is rho plus the unit roundoff times a constant of the grid. The computed field differs from the one in exact arithmetic by at most 162 n eta times such a factor: rounding errors add up but are not amplified.", "quantifier": "all grids and numbers of unknowns, linear operators with non-growing energy, computed right-hand sides within the error, step sizes up to the limit, initial fields and register contents, numbers of steps", "why_tests_cant": "a run shows the rounding errors of one field and one number of steps; that no field and no number of steps lets them grow exponentially needs the stability of the scheme", "anchors": ["include/LSERK4.hpp: LSERK4::rk4a, LSERK4::rk4b", "src/advec1d/main.cpp: main", "src/burgers1d/main.cpp: main", "advec1d.py"]}
{"id": "C160", "title": "What Python reads from a one-dimensional provisioner does not depend on the history of calls", "statement": "After the constructor and any sequence of buildNodes() and computeJacobian() calls, some of which may have raised because LAPACK failed, the properties xGrid, Dr, Lift, nx, vmapM and vmapP hold the right values as soon as one buildNodes() has returned normally, and rx and Fscale once computeJacobian() has been called: repeating a call, or a later failing call, changes nothing, and no sequence of calls is undefined behaviour.", "quantifier": "all orders N >= 1, numbers of elements whose tables fit int, non-empty intervals, initial memory contents, sequences of calls, and outcomes of the LAPACK routines at each call", "why_tests_cant": "a test runs one or two call sequences on one build; stale memory, repeated construction and exceptions in between give unboundedly many histories", "anchors": ["src/Nodes1DProvisioner.cpp: Nodes1DProvisioner, buildNodes, computeJacobian, get_xGrid_numpy, get_Dr_numpy, get_Fscale_numpy, get_rx_numpy, get_Lift_numpy, get_nx_numpy, get_vmapM_numpy, get_vmapP_numpy", "src/pyblitzdg/pyblitzdg.cpp: BOOST_PYTHON_MODULE", "advec1d.py"]}
{"id": "C161", "title": "Filtering a field over and over converges to its low-degree part", "statement": "On every triangular grid, for every cut-off other than the polynomial order and every exponent of at least one, multiplying a field by the filter matrix any number of times keeps, element by element, the best mean-square approximation of the field by polynomials of degree up to the cut-off, never increases the mean square of the field, and shrinks the remainder at least geometrically with a factor below one that is the same for all fields; the nodal values converge to those of the kept part.", "quantifier": "all grids and orders the provisioner builds, cut-offs, exponents of at least one, fields, elements, numbers of filterings", "why_tests_cant": "a run filters some fields a few times; that no field is amplified, and what is left after arbitrarily many filterings, is a statement about the whole spectrum of the matrix at every order", "anchors": ["src/TriangleNodesProvisioner.cpp: TriangleNodesProvisioner::buildFilter, TriangleNodesProvisioner::computeVandermondeMatrix", "include/TriangleNodesProvisioner.hpp: TriangleNodesProvisioner::get_Filter", "src/sw2d/main.cpp: main"]}
{"id": "C162", "title": "How large a time step the Runge-Kutta loop admits", "statement": "With the coefficients the programs hold, any number n of time steps on a linear system that conserves the energy increases the norm at most by the factor (1 + 1e-16)^n if the step times the norm of the operator is at most 3.3, and an oscillation grows by at least two per cent per step if the step times its frequency is at least 3.35; on a symmetric dissipative system the factor is (1 + 1e-12)^n up to 4.6, and a decaying field grows by at least five per cent per step from 4.7 on. The contents of the register before a step do not matter.", "quantifier": "all linear systems that conserve energy, or are symmetric and dissipative; all step sizes up to or beyond the limits, initial fields, register contents, numbers of steps", "why_tests_cant": "a run that stays bounded says nothing about longer runs or other frequencies; where growth sets in depends on all five coefficients of both arrays together", "anchors": ["include/LSERK4.hpp: LSERK4::rk4a, LSERK4::rk4b", "src/advec1d/main.cpp: main", "src/burgers1d/main.cpp: main", "src/pyblitzdg/pyblitzdg.cpp: lserk4wrapper", "advec1d.py"]}
{"id": "C163", "title": "A Python session with a triangular provisioner", "statement": "In any sequence of calls of setCoordinates, buildFilter, dgContext, reads of context properties and stores into the arrays received: every context, whether obtained before or after, shows the coordinates of the last setCoordinates (or the mesh nodes) and the filter of the last buildFilter; all other properties stay those of construction and agree with the mesh; arrays received are copies, so nothing but a store changes them and stores never change later reads; and the Jacobian shown is always that of the coordinates shown.", "quantifier": "all triangular grids the provisioner builds, all finite sequences of calls, all contexts of the session, all contents of unwritten memory", "why_tests_cant": "a test fixes one sequence of calls and one grid; the claim is about what every earlier and later handle shows after any history", "anchors": ["src/TriangleNodesProvisioner.cpp: setCoordinates_numpy, buildFilter, get_DGContext", "src/DGContext2D.cpp: *_numpy", "include/DGContext2D.hpp: DGContext2D", "src/pyblitzdg/pyblitzdg.cpp: TriangleNodesProvisioner, DGContext2D"]}
{"id": "C164", "title": "A quadrilateral filter does not depend on output", "statement": "After any sequence of buildFilter and writeFieldToFile calls on one quadrilateral provisioner, the filter is the one the last buildFilter call would give on a newly built provisioner, and every file shows the field handed over.", "quantifier": "every order, conforming mesh of convex quadrilaterals, filter parameters, and every finite sequence of calls with fields of the right size", "why_tests_cant": "It is a statement about all call histories; a test that builds the filter first, as the programs in the repository do, never meets the order of calls that breaks it.", "anchors": ["src/QuadNodesProvisioner.cpp: buildFilter, computeVandermondeMatrix, computeInterpMatrix, splitElements", "include/VtkOutputter.hpp: writeFieldToFile"]}
