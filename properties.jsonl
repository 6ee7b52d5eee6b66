{"id": "C01", "title": "Processor grid is a bijection between ranks and grid coordinates", "statement": "Whenever IGASetUp accepts a communicator size and an element grid, the processor counts it stores multiply to exactly the communicator size, no direction gets more processors than it has elements, every count the user fixed with IGASetProcessors is kept, and the map rank -> (i,j,k) is a bijection from {0..size-1} onto the processor grid.", "quantifier": "every communicator size, every rank, dim 1..3, every element grid, every pattern of user-fixed counts, every floating point guess used by the automatic factorisation", "why_tests_cant": "the automatic factorisation depends on rounding of sqrt/pow and on the divisors of the communicator size; tests only run on a handful of communicator sizes", "anchors": ["src/petigapart.c: IGA_Partition", "src/petigapart.c: IGA_Part2D, IGA_Part3D, IGA_PART2D_INNER, IGA_PART3D_INNER", "src/petiga.c: IGASetUp_Stage1, IGASetProcessors"]}
{"id": "C02", "title": "Block distribution of a direction is a balanced partition", "statement": "For N items over P processes the index ranges handed to the processes are contiguous, consecutive, disjoint, cover 0..N-1 exactly, differ in length by at most one with the longer ones first, and are all non-empty when N >= P.", "quantifier": "every N >= 0, every P >= 1, every rank", "why_tests_cant": "off-by-one errors in the remainder handling show only for particular N mod P", "anchors": ["src/petigapart.c: IGA_Dist1D", "src/petigapart.c: IGA_Distribute"]}
{"id": "C03", "title": "Every element of the mesh is visited by exactly one process, exactly once", "statement": "Running the BeginElement/NextElement/EndElement loop on all processes visits each element of the global tensor-product grid on exactly one process and exactly once there, and the loop can be run again afterwards with the same result.", "quantifier": "every element grid in 1..3 dimensions, every accepted processor grid, every number of repetitions of the loop", "why_tests_cant": "needs all grids and all processor grids at once; a test sees one decomposition", "anchors": ["src/petigaelem.c: IGABeginElement, IGANextElement, IGAEndElement", "src/petigapart.c: IGA_Partition, IGA_Distribute"]}
{"id": "C04", "title": "Next-knot search", "statement": "IGA_NextKnot forward returns the first index after k whose knot is strictly larger, or the last index when there is none; backward it returns the last index before k whose knot is strictly smaller, or 0; and for 0<=k<=m it reads no knot outside the array.", "quantifier": "every knot sequence, every start index, both directions", "why_tests_cant": "boundary cases (no larger knot, k at the ends, long repeated runs) are combinatorially many", "anchors": ["src/petigaaxis.c: IGA_NextKnot"]}
{"id": "C05", "title": "Knot vector validation accepts exactly the legal knot vectors", "statement": "IGAAxisSetKnots succeeds iff the degree has been set, there are at least 2(p+1) knots, the sequence is non-decreasing and no knot value at index >= 1 and below the last index occurs more than p times in a row; when it fails the axis is unchanged, and when it succeeds IGAAxisGetKnots returns exactly the sequence given.", "quantifier": "every degree, every knot sequence of every length, every prior axis state", "why_tests_cant": "acceptance is a statement about all sequences; tests try a few", "anchors": ["src/petigaaxis.c: IGAAxisSetKnots, IGAAxisGetKnots"]}
{"id": "C06", "title": "Reported spans are exactly the non-empty knot intervals of the domain", "statement": "After IGAAxisSetKnots succeeds, IGAAxisGetSpans lists, in strictly increasing order and without repetition, exactly the indices k with p <= k <= n and U[k] < U[k+1] (with the domain end handled as in the code), and IGAAxisGetSizes returns their number as the number of elements.", "quantifier": "every accepted knot vector and degree", "why_tests_cant": "spans drive all later loops; repeated knots at arbitrary places cannot be enumerated", "anchors": ["src/petigaaxis.c: IGAAxisGetSpans, IGAAxisSetKnots"]}
{"id": "C07", "title": "Axis initialisers build legal knot vectors with consistent sizes", "statement": "IGAAxisInitUniform and IGAAxisInitBreaks, for accepted arguments, build a non-decreasing knot vector that IGAAxisSetKnots would accept, of length 2(p+1)+(N-1)(p-C), with exactly N spans, whose breakpoints are the given (equally spaced) breaks, each interior one of multiplicity p-C; the element count, node count and span list they store are the same as those IGAAxisSetUp / IGAAxisSetKnots recompute from the knots, periodic or not.", "quantifier": "every degree p >= 1, every continuity 0 <= C < p, every number of elements N >= 1, every interval or break sequence, periodic or not", "why_tests_cant": "the in-place periodic overwrite reads entries it may already have written when N is small; only a proof covers all (p,C,N)", "anchors": ["src/petigaaxis.c: IGAAxisInitUniform, IGAAxisInitBreaks, IGAAxisSetUp"]}
{"id": "C08", "title": "Periodic axes have translation invariant knots", "statement": "After IGAAxisInitUniform or IGAAxisInitBreaks on a periodic axis, shifting an index by the number of nodes nnp shifts the knot by the period: U[j+nnp] = U[j] + (U[m-p]-U[p]) whenever both indices are legal, so basis function j+nnp is the periodic image of basis function j, and nnp = N(p-C).", "quantifier": "every p, C, N, interval/breaks", "why_tests_cant": "needs all (p,C,N) including N smaller than p where the extension wraps several times", "anchors": ["src/petigaaxis.c: IGAAxisInitUniform, IGAAxisInitBreaks"]}
{"id": "C09", "title": "An accepted axis has at least one element", "statement": "An axis accepted by IGAAxisSetKnots followed by IGASetUp has at least one non-empty element in its parametric domain.", "quantifier": "every accepted knot vector", "why_tests_cant": "depends on a coincidence of multiplicities at the domain ends", "anchors": ["src/petigaaxis.c: IGAAxisSetKnots, IGAAxisGetSpans", "src/petiga.c: IGASetUp_Stage1"]}
{"id": "C10", "title": "Span search terminates and brackets the point", "statement": "IGA_FindSpan terminates for every parameter value, reads only legal knots, and for U[p] <= u < U[n+1] returns the unique k with p <= k <= n and U[k] <= u < U[k+1]; for u at or beyond the right end it returns n and before the left end p.", "quantifier": "every legal knot vector and every real u", "why_tests_cant": "binary search with real comparisons: termination and bracketing need an invariant, not samples", "anchors": ["src/petigabasis.c: IGA_FindSpan"]}
{"id": "C100", "title": "Matrices can be written and read by different numbers of processes", "statement": "A matrix made with IGACreateMat and written with MatView to a binary file is written in the natural order of the nodes whatever the number of processes; read with MatLoad by any other number of processes into a matrix made with IGACreateMat for the same axes, every pair of unknowns gets the entry it had, and the two matrices have the same nonzero pattern, so that the copy of values is legal. Copies made with MatDuplicate, however often, behave the same and keep the IGA they belong to.", "quantifier": "all axes, Galerkin and collocation, all decompositions of writer and reader, numbers of components, matrix entries, chains of duplications", "why_tests_cant": "a test writes with one and reads with a few process counts; the property concerns all pairs of decompositions, and a permutation that is its own inverse on the tested grid hides an inverted index map", "anchors": ["src/petigamat.c: MatView_MPI_IGA, MatLoad_MPI_IGA, MatDuplicate_IGA, IGACreateMat", "src/petigagrid.c: IGA_Grid_GetAO"]}
{"id": "C101", "title": "A DM made from an IGA shares it correctly", "statement": "An IGA lives exactly as long as the program, a DM or a vector or matrix refers to it, and a DM as long as the program or a vector or matrix does, whatever the order of the destroy calls and whichever calls failed. After DMSetUp or DMLoad the DM reports the block size, dimensions, local-to-global mapping and types of its IGA. Vectors and matrices requested from the DM have the DM's type (or the IGA's if it has none) and the IGA's block size, and the request leaves the IGA's own types alone. A clone, coordinate DM or sub-DM has an IGA of its own with the requested number of fields and the same types. No program that follows the rules uses or releases freed memory.", "quantifier": "all programs (finite sequences of create, set-up, load, set-type, reference, destroy, clone and create-object calls on any number of IGAs, DMs, vectors and matrices), all outcomes of the PETSc calls inside them", "why_tests_cant": "the order of destroy calls and the call that fails are arbitrary; a test exercises a handful of orders, and a dangling pointer after a failed creation is visible only when the objects are released later", "anchors": ["src/petigadm.c: DMIGACreate, DMIGASetIGA, DMSetUp_IGA, DMLoad_IGA, DMCreateGlobalVector_IGA, DMCreateLocalVector_IGA, DMCreateMatrix_IGA, DMClone_IGA, DMCreateCoordinateDM_IGA, DMCreateSubDM_IGA, DMDestroy_IGA", "src/petiga.c: IGADestroy, IGAClone, IGASetVecType, IGASetMatType"]}
{"id": "C102", "title": "The Laplace, Poisson and L2 projection programs solve the problem they state", "statement": "The system that the Laplace program assembles (value 1 on the lower side of every direction, flux as given, no source) is symmetric positive definite and its only solution is the vector of ones, on any number of processes; on a NURBS geometry the vector of ones still solves it. The system of the Poisson program (value 1 on all sides, source 1, spline basis) is symmetric positive definite; its only solution takes the value 1 on the sides and has the least Dirichlet energy among all functions of the space that do. The system of the projection program is symmetric positive definite and its only solution is the function of the space nearest, in the quadrature norm, to the given function; a sum of powers of the coordinates of degree at most that of the space is reproduced exactly, and with a geometry the sum of the coordinates is.", "quantifier": "all dimensions 1 to 3, degrees, knot vectors, continuity, periodicity (at least one direction not periodic for Laplace and Poisson), rules with enough points, processor grids, geometries with positive Jacobian, functions to project", "why_tests_cant": "the programs are run by the test suite on a few meshes with a check on the error; solvability, the minimum property and independence of the decomposition are statements about all of them", "anchors": ["demo/Laplace.c: SystemGalerkin, main", "demo/Poisson.c: System, main", "demo/L2Projection.c: System, Linear, Quadratic, Cubic, main", "src/petigaksp.c: IGAComputeSystem", "src/petigaform.c: IGASetBoundaryValue, IGASetBoundaryLoad", "demo/Poisson1D.c:System,main", "demo/Poisson2D.c:System,main", "demo/Poisson3D.c:System,main"]}
{"id": "C103", "title": "Option aliases and defaults never override what the user asked for", "statement": "After declaring aliases and defaults for options, an option has the value the user gave through the alias, else the value the user gave for the option itself, else the default, and no other option changes, whatever the order of the declarations; rejecting an option reports an error exactly when the user gave it; reading an option yields the user's value or the default, never a value invented from text that cannot be read; a text read stays as it was when further texts are read.", "quantifier": "all options databases, prefixes, option names, values, and all sequences of declarations and reads", "why_tests_cant": "the precedence must hold for every command line and every order of calls; tests try a few command lines", "anchors": ["src/petigaopts.c: IGAOptionsAlias, IGAOptionsDefault, IGAOptionsReject, IGAGetOptEnum, IGAGetOptString, IGAGetOptBool, IGAGetOptInt, IGAGetOptReal, IGAGetOptScalar"]}
{"id": "C104", "title": "The tangents of the nonlinear demos are the exact derivatives of their residuals", "statement": "The Jacobian callback shipped with Bratu (steady Galerkin and collocation, time dependent), ElasticRod, CahnHilliard2D, CahnHilliard3D, PatternFormation and NavierStokesKorteweg2D is the derivative of the shipped residual callback at every admissible state, time and shift, so the assembled matrix is the derivative of the assembled residual and Newton's method converges as the theory says; the admissible states are those at which the residual is defined: concentration different from 0 and 1, density different from 1.", "quantifier": "all numbers of basis functions and unknowns, shape functions, parameters, shifts, rates, states and directions; assembled: all partitions, set-ups and fields", "why_tests_cant": "a wrong tangent still converges, only slower, or only near special states; comparing with differences at a few states cannot exclude a wrong term elsewhere", "anchors": ["demo/Bratu.c", "demo/BratuFJ.F90: Bratu_Function, Bratu_Jacobian, Bratu_IFunction, Bratu_IJacobian", "demo/ElasticRod.c", "demo/CahnHilliard2D.c: Mobility, ChemicalPotential, Residual, Tangent", "demo/CahnHilliard3D.c", "demo/PatternFormation.c: Function, Jacobian", "demo/NavierStokesKorteweg2D.c: Residual, Jacobian"]}
{"id": "C105", "title": "The hyperelastic demo solves the problem of its stored energy: exact tangent, energy, objectivity, rest state", "statement": "For every choice of its options and every material the Jacobian callback of the hyperelasticity demo is the derivative of its residual callback wherever the deformation gradient is regular, it is symmetric, the residual is the gradient of the stored energy of the material (neo-Hookean, St. Venant-Kirchhoff, Mooney-Rivlin), so the assembled matrix is the derivative of the assembled residual and the assembled residual is the gradient of the total energy; forces rotate with the body; a rigidly moved and rotated body is free of forces and its tangent is that of linear isotropic elasticity with the given Young's modulus and Poisson's ratio.", "quantifier": "all shape functions, numbers of basis functions, materials, option combinations, displacements with regular deformation gradient, directions and rotations; assembled: all partitions, set-ups and fields", "why_tests_cant": "a wrong term in one of the 21 tangent entries only slows Newton's method down at some deformations; a residual stress or a lost frame indifference shows only for particular deformations", "anchors": ["demo/HyperElasticity.c: NeoHookeanModel, StVenantModel, MooneyRivlinModel1, MooneyRivlinModel2, GeneralModel, DeltaE, Residual, Jacobian, main"]}
{"id": "C106", "title": "A residual derived from an energy density assembles to the gradient of the potential energy", "statement": "If a residual callback returns at every quadrature point the gradient of an energy density, the vector IGAComputeFunction returns is the gradient of the total potential energy: the integral of the density with the prescribed values in place, minus the work of the prescribed loads, plus half the squared deviation from the prescribed values; in particular the solutions of the residual equation are exactly the stationary points of the energy, whatever the decomposition.", "quantifier": "all discretisations, decompositions, element histories, boundary conditions and loads, energy densities, fields and directions", "why_tests_cant": "the identity involves the sum over all elements, sides and processes and the treatment of prescribed unknowns; tests compare single vectors", "anchors": ["src/petigasnes.c: IGAComputeFunction", "src/petigaelem.c: IGAElementFixFunction, IGAElementFixValues, IGAElementAssembleVec", "src/petigaform.c: IGAFormSetFunction"]}
{"id": "C107", "title": "The discrete equations of the time-dependent demos conserve what the equations conserve", "statement": "Where no values or loads are prescribed, the entries of the residual of the Cahn-Hilliard demos add up to the integral of the rate of the concentration, so each step that solves the equations conserves the amount of substance; those of the density rows of the Navier-Stokes-Korteweg demo add up to the integral of the rate of the density and those of a velocity component to the integral of the rate of the momentum; those of each species of the pattern formation demo add up to the integral of its rate minus its reaction term, taken at the new state with -implicit and at the old one without. Uniform concentrations are equilibria of the Cahn-Hilliard demos.", "quantifier": "all states and rates, knots, degrees, periodic or not, weights, geometries, quadrature rules, decompositions, process counts and parameters", "why_tests_cant": "conservation is a statement about the sum over all elements and processes for every state; a dropped or doubled term breaks it only by an amount that looks like discretisation error", "anchors": ["demo/CahnHilliard2D.c: Residual", "demo/CahnHilliard3D.c: Residual", "demo/NavierStokesKorteweg2D.c: Residual", "demo/PatternFormation.c: Function", "src/petigats.c: IGAComputeIFunction, IGAComputeIEFunction", "src/petigapoint.c: IGAPointFormValue, IGAPointFormGrad, IGAPointFormDel2"]}
{"id": "C108", "title": "VecView writes and VecLoad reads the nodal field independently of the decomposition", "statement": "VecView of a vector of the IGA on a binary viewer writes the values of the nodal field in the natural order of the grid of nodes, components fastest, whatever the decomposition; VecLoad of such a file, on any number of processes, gives a vector that stores the same field, and refuses a file with a vector of another length. Without periodic directions the file is the one that IGASaveVec writes, so either can be read with VecLoad and with IGALoadVec. (With periodic directions it is not: IGASaveVec also writes the repeated nodes.)", "quantifier": "all vectors, grids, decompositions, process counts of writer and reader, numbers of fields, with or without file headers", "why_tests_cant": "the reordering depends on how the nodes are distributed; a wrong permutation is invisible when writer and reader use the same processes", "anchors": ["src/petigavec.c: VecView_IGA, VecLoad_IGA, IGACreateVec", "src/petiga.c: IGAGetNodeDM, IGACreateNodeDM", "src/petigaio.c: IGASaveVec, IGALoadVec"]}
{"id": "C109", "title": "IGADraw shows the parametric mesh and its distribution", "statement": "Drawing a set-up two-dimensional IGA on a draw viewer shows, with several processes, one rectangle per process: with the elements as unit of distribution it contains exactly the elements the process works on, every point of the parametric domain lies in exactly one of the rectangles, and rectangles side by side or one above the other have different colours; with collocation every point between the first and last collocation points lies in exactly one of them. The first process draws one line through the domain at every distinct knot, however often repeated, and one mark at each pair of points of the rules that have positive weight: in each element the points of the rule. Nothing is drawn in other dimensions.", "quantifier": "all two-dimensional discretisations (continuities, periodic flags, rules), process counts and grids", "why_tests_cant": "the rectangles are computed from each process's own element or node range, the shared edges must agree between processes that never compare them, for every partition", "anchors": ["src/petigadraw.c: IGADraw", "src/petigabsp.c: IGABasisInitQuadrature, IGABasisInitCollocation"]}
{"id": "C11", "title": "B-spline values agree with the Cox-de Boor recursion", "statement": "The values computed for a non-empty span k at u are exactly the p+1 B-splines N_{k-p},...,N_k of degree p defined by the Cox-de Boor recursion, evaluated at u.", "quantifier": "every degree, every knot vector, every non-empty span, every u (exact arithmetic)", "why_tests_cant": "agreement of an in-place triangular algorithm with the recursion for every degree and knot multiplicity", "anchors": ["src/petigabsb.f90.in: BSplineBasisFunsDers", "src/petigabsp.F90: IGA_Basis_BSpline"]}
{"id": "C110", "title": "Basis functions, NURBS and fields in floating-point arithmetic", "statement": "Evaluated in floating-point arithmetic, with or without fused multiply-add, at a point of an element: the B-spline basis functions of degree p have a relative error of at most 6p roundings, so they are never negative and are positive where the exact function is; no divisor in the computation is zero, however small or uneven the elements; they sum to one up to 6p roundings. The tensor-product and rational functions have a small relative error as well, and the value of a field (and of each coordinate of the geometry map) differs from the exact one by at most a number of roundings, given in terms of the degrees and the number of functions, times the largest coefficient, in whatever order the compiler adds up the terms.", "quantifier": "all knot vectors, degrees, dimensions, elements, points, positive weights and coefficients; all roundings with relative error ε that keep the order; all orders of summation, with and without contraction", "why_tests_cant": "the other properties are about exact arithmetic; that differences of nearly equal knots do not spoil the functions must hold for every knot vector and every way of compiling the sums", "anchors": ["src/petigabsb.f90.in: IGA_Basis_BSpline", "src/petigarat.f90.in: Rationalize", "src/petigaval.F90: IGA_GetValue", "src/petigamapgeo.f90.in: GeometryMap", "src/petiga1d.F90", "src/petiga2d.F90", "src/petiga3d.F90"]}
{"id": "C111", "title": "Uniform knots, Greville abscissae and quadrature points in floating-point arithmetic", "statement": "In floating-point arithmetic: an axis initialised with N uniform elements between Ui and Uf is a legal knot vector with N elements of positive size, its ends exactly Ui and Uf and each break within four roundings of the equally spaced one; the Greville abscissae are in order and lie in the domain; the quadrature points of an element lie in it and its size is positive.", "quantifier": "all degrees, numbers of elements, domains, continuities, knot vectors and rules with points in [-1,1]; all roundings with relative error ε that keep the order", "why_tests_cant": "whether rounding pushes a point or a break over its neighbour depends on the digits of the input", "anchors": ["src/petigaaxis.c: IGAAxisInitUniform", "src/petigabasis.c: IGA_Greville, IGABasisInitQuadrature"]}
{"id": "C112", "title": "Integer range of indices and sizes", "statement": "If the number of unknowns of a problem can be represented by PetscInt, nothing overflows in PetIGA's integer arithmetic: not when elements and nodes are distributed, when the process grid is chosen, when owned and ghosted unknowns are numbered, when the nodes of an element and their values are located, when the tables of basis functions are allocated and addressed, nor when a span is searched for.", "quantifier": "all widths of PetscInt, numbers of processes, grid sizes, numbers of fields, owned and ghosted boxes, elements, numbers of quadrature points, degrees, knot vectors and points", "why_tests_cant": "overflow shows only in problems close to the limit of the integer type, too large for tests, and every intermediate result counts", "anchors": ["src/petigapart.c: IGA_CUT2D, IGA_CUT3D, IGA_PART2D, IGA_PART3D, IGA_Dist1D", "src/petigagrid.c: IGA_Grid_LocalIndices, IGA_Grid_GhostIndices, IGA_Grid_GetLayout", "src/petigaelem.c: IGAElementBuildClosure, IGAElementGetValues", "src/petigabasis.c: IGABasisInitQuadrature, IGA_FindSpan"]}
{"id": "C113", "title": "The report of IGAView is true", "statement": "What viewing a discretisation prints is true: for every axis its degree, periodicity, numbers of nodes and elements and the smallest and largest continuity of its splines at the knots inside the domain (`*` if there are none; for periodic axes the knots of a period with the seam); the process grid and the number of processes; the numbers of nodes and elements of the whole grid, and the smallest and largest numbers a process owns. Before the set-up nothing is shown, and each kind of viewer gets what it is for (binary: the saved file, text: the report, draw, VTK, GLVis: the picture).", "quantifier": "all axes, knot vectors, numbers of processes, process grids, Galerkin and collocation, kinds of viewers", "why_tests_cant": "the sums and extrema depend on the decomposition over all processes; multiplicities of knots are unbounded", "anchors": ["src/petiga.c: IGA_ContinuityString, IGAPrint, IGAView"]}
{"id": "C114", "title": "Solvers made from an IGA find it again when options choose a preconditioner", "statement": "A linear solver, nonlinear solver or time stepper created from an IGA or connected with it gets the callbacks meant for it with that IGA as context. Whenever the options of such a solver are processed, the preconditioner they choose is prepared with the data of the IGA, also inside nonlinear solvers and time steppers and inside FETI-DP: multigrid gets the grids of the IGA, Galerkin coarse operators unless the user chose otherwise and the automatic number of levels unless the user or the program gave one (one level explicitly given is respected), BDDC its boundary lists, H2OPUS the coordinates. Preconditioners that have nothing to do with an IGA are left alone.", "quantifier": "all histories of setting operators, DMs, types and options on a solver, all options, all IGAs", "why_tests_cant": "the outcome depends on the order of the calls of the program, of which there are unboundedly many", "anchors": ["src/petigaksp.c: IGA_OptionsHandler_KSP, IGA_OptionsHandler_PC, IGASetOptionsHandlerKSP, KSPSetIGA, IGACreateKSP", "src/petigasnes.c: SNESSetIGA, IGACreateSNES", "src/petigats.c: TSSetIGA, IGACreateTS", "src/petigats2.c: IGACreateTS2", "src/petigapcmg.c: IGAPreparePCMG"]}
{"id": "C115", "title": "All processes get the same outcome from every configuration call", "statement": "If all processes of the communicator of an IGA run the same configuration program (dimension, number of fields, order, axes, rules, bases, processor grid, collocation, set-up, reset, loading of the local parts of a geometry), every call succeeds on all processes or fails with the same error on all of them, so no process goes on into a collective operation the others do not reach; and at the end all processes hold the same axes, rules, tables, sizes and processor grid, only the local boxes and arrays differ.", "quantifier": "all configuration programs, all numbers of processes, all pairs of processes", "why_tests_cant": "there are unboundedly many programs and process counts, and a disagreement only shows as a hang for a particular combination of sizes", "anchors": ["src/petiga.c: IGASetDim, IGASetDof, IGASetOrder, IGASetProcessors, IGASetUseCollocation, IGASetUp_Stage1, IGASetUp, IGAReset", "src/petigapart.c: IGA_Partition, IGA_Distribute"]}
{"id": "C116", "title": "Primal vertices of the BDDC preconditioner: one set of subdomain corners, each listed by one process", "statement": "With -iga_set_bddc_primal (the default) every process hands a sorted list of nodes to the BDDC preconditioner, with all the unknowns of these nodes. The nodes are the corners of the subdomains: in every direction they lie on the plane in the middle of the overlap with the next process, or at the beginning of the domain on the first process of a direction that is not periodic. The planes of a direction increase strictly from process to process, each lies in the boxes of both neighbours, the last one is the end of the domain (or, in a periodic direction, comes before the first one going round); all listed nodes are in the local box; and no node is listed by two processes.", "quantifier": "all axes, all numbers of processes and processor grids, all processes and pairs of processes, any number of fields", "why_tests_cant": "the planes are computed from integer halves of overlaps that depend on degree, continuity, partition and periodicity; a duplicate or a missing corner only shows as slow convergence for a particular combination", "anchors": ["src/petigapcbddc.c: IGAPreparePCBDDC"]}
{"id": "C117", "title": "Fields stay between their coefficients, geometries in the hull of their control points", "statement": "With the B-spline basis, and with NURBS of positive weights, the functions an element shows to the callbacks are not negative and sum to one at every point of a rule with points in [-1,1]. Hence the value of a field at a point lies between the smallest and the largest coefficient of the element, and the position IGAPointFormGeomMap reports lies in the convex hull of the control points of the element. A probe of a field inside the domain returns values between the smallest and the largest coefficient of the element it finds.", "quantifier": "all knots, degrees, dimensions 1 to 3, partitions, elements, points, positive weights, fields and control points; all points of the domain for probes", "why_tests_cant": "the claim is an inequality over a continuum of points and over all knots and weights; sampling cannot exclude an overshoot between samples", "anchors": ["src/petigaelem.c: IGAElementBuildTabulation", "src/petigarat.f90.in: Rationalize", "src/petigamapgeo.f90.in: GeometryMap", "src/petigabsb.f90.in: BSplineBasisFunsDers", "src/petigaprobe.c: IGAProbeEvaluate"]}
{"id": "C118", "title": "The minimal near null space handed to BDDC is orthonormal, spans what was asked for, and keeps one plane of every overlap", "statement": "With -iga_set_bddc_minimal, IGAPreparePCBDDC attaches to the matrix a near null space whose vectors are orthonormal and span exactly the masked vectors of the near null space (with the masked constants) and the vectors named by -iga_set_bddc_minimal_volume; an index the near null space does not have is an error. The mask keeps every node that only one process uses and, of the nodes that processes share, the plane in the middle of the overlap.", "quantifier": "all near null spaces (also linearly dependent ones), all lists of volume indices, all masks; for the mask all knots, degrees, numbers of processes and nodes", "why_tests_cant": "orthogonality and equality of spans range over all vectors; the mask depends on how every process grid meets every knot vector", "anchors": ["src/petigapcbddc.c: OrthonormalizeVecs_Private", "src/petigapcbddc.c: IGAPreparePCBDDC"]}
{"id": "C119", "title": "On a side of the domain fields depend on the side's coefficients only, and boundary integrals are exact", "statement": "The points a boundary callback gets for a side of the domain lie on that side, and at them a field is determined by the coefficients of the side's nodes and lies between them; in particular a field whose coefficients on the side are the prescribed boundary value takes that value all over the side, and the mapped side lies in the convex hull of the control points of the side. The sum over the side of the callback weights times an integrand that is a polynomial on every element, of a degree the rules of the other directions integrate, is its integral over the side.", "quantifier": "all legal knots, degrees, dimensions, sides, elements on the side, fields, positive weights, control points, quadrature rules with points in the reference interval", "why_tests_cant": "values on the whole side and exact integrals range over all knots, fields and integrands", "anchors": ["src/petigaelem.c: IGAElementBuildTabulation", "src/petigabasis.c: IGABasisInitQuadrature", "src/petiga.h: IGASetBoundaryValue"]}
{"id": "C12", "title": "B-spline partition of unity and non-negativity", "statement": "On every non-empty span the computed basis values are non-negative and sum to one; the computed derivatives of each order >= 1 sum to zero.", "quantifier": "every degree, knot vector, span, point of the span", "why_tests_cant": "algebraic identity over all knot vectors", "anchors": ["src/petigabsb.f90.in: BSplineBasisFunsDers", "src/petigabsp.F90: IGA_Basis_BSpline"]}
{"id": "C120", "title": "The computed solution takes the prescribed boundary values all over the side", "statement": "After IGASetBoundaryValue(iga,axis,side,field,v) on a side whose knots are repeated (as IGAAxisInit makes them), every solution of the system of IGAComputeSystem and every zero of the residual of IGAComputeFunction, evaluated with the functions a boundary callback gets, has the value v in that field at every point of the side, as long as no side of a later direction prescribes another value; where one does, the values on the side stay between the values prescribed. With IGASetFixTable the solution equals the field of the table all over the side.", "quantifier": "all discretisations (dimension, degrees, clamped knots at that side), process grids, callbacks, histories of boundary condition calls, solutions, points of the side, positive NURBS weights", "why_tests_cant": "a statement about the values of all solutions at all points of the side, for all knots, callbacks and numbers of processes", "anchors": ["src/petigaelem.c: IGAElementBuildFix", "src/petigaelem.c: IGAElementFixSystem", "src/petigaelem.c: IGAElementBuildTabulation", "src/petigaform.c: IGASetBoundaryValue", "src/petigaform.c: IGASetFixTable"]}
{"id": "C121", "title": "The divergence theorem holds for what the callbacks get in the elements and on the sides", "statement": "Without a geometry, summing over all elements and points the divergence of a vector field times the Jacobian and weight of the points gives the same number as summing over all sides, their elements and points, the field times the normal, Jacobian and weight the boundary callbacks get; for every field that is continuous and piecewise polynomial within the exactness of the rules. For two fields given by their nodal values, evaluated with the functions and derivatives of the points, integration by parts holds: the sum of (d_i u) v + u (d_i v) over the elements equals the sum of u v n_i over the sides.", "quantifier": "all discretisations (dimension, degrees, knots), quadrature rules exact for the polynomials involved (the default rule of p+1 points for fields), fields, directions", "why_tests_cant": "relates the points, weights, functions and derivatives of all elements with the points, weights and normals of all sides, for all knots and all fields; a sign or a weight wrong on one side only shows up on some integrands", "anchors": ["src/petigaelem.c: IGAElementBuildTabulation", "src/petigabasis.c: IGABasisInitQuadrature", "src/petigageo.f90.in: IGA_GetNormal", "src/petigapoint.c: IGAPointGetNormal"]}
{"id": "C122", "title": "Nitsche's method reproduces the solution of the problem the program states", "statement": "For the program demo/NitscheMethod.c without a geometry, degrees of at least 2 and rules exact for twice the degrees: computing the system succeeds and the coefficients of the solution the program prescribes weakly on all sides and whose forcing it integrates, the sum of the squares of the coordinates, satisfy every equation of the assembled system, whatever the penalty coefficient; the field with these coefficients equals that solution at all points of the interior and of the sides. So the signs and factors of the boundary terms, the normals, the points and weights of the sides and the sides the program marks fit the terms of the interior.", "quantifier": "all numbers of processes, dimensions 1 to 3, legal clamped knots, degrees of at least 2, exact quadrature rules, penalty coefficients", "why_tests_cant": "the residual of the method vanishes only by cancellation between the integrals over all elements and over all sides; a wrong sign, normal or weight on one side shows up only for some meshes and test functions", "anchors": ["demo/NitscheMethod.c: System, Solution, Forcing, main", "src/petigaksp.c: IGAComputeSystem", "src/petigaelem.c: IGAElementNextForm, IGAElementBuildTabulation"]}
{"id": "C123", "title": "Assembly keeps symmetry and nonnegativity, whatever the boundary conditions", "statement": "If the matrix callback fills a symmetric array at every point, the matrix assembled by IGAComputeMatrix, IGAComputeSystem, IGAComputeJacobian, IGAComputeRHSJacobian, IGAComputeIJacobian, IGAComputeIEJacobian or IGAComputeI2Jacobian is symmetric; if the quadratic form of the array is nonnegative at every point and the Jacobians and weights of the points are, the quadratic form of the assembled matrix is nonnegative. Both hold with any boundary values, loads and boundary integrals, so eliminating the constrained unknowns spoils neither.", "quantifier": "all discretisations, numbers of processes, boundary conditions, callbacks, vectors at which a Jacobian is evaluated, contents of work arrays", "why_tests_cant": "rests on the ownership of elements, the exchange of off-process entries and the elimination in every element treating rows and columns alike, for all meshes and processes", "anchors": ["src/petigaksp.c: IGAComputeMatrix, IGAComputeSystem", "src/petigasnes.c: IGAComputeJacobian", "src/petigats.c: IGAComputeIJacobian, IGAComputeIEJacobian, IGAComputeRHSJacobian", "src/petigats2.c: IGAComputeI2Jacobian", "src/petigaelem.c: IGAElementFixSystem, IGAElementFixJacobian, IGAElementAssembleMat"]}
{"id": "C124", "title": "Nitsche's method: the matrix the program declares symmetric positive definite is so", "statement": "The program demo/NitscheMethod.c declares its matrix symmetric positive definite and solves with it. The quadratic form of the assembled matrix is the sum of the integrals of |grad v|^2 over the elements and of alpha v^2 - 2 v dv/dn over the sides, for the field v of the coefficients. It is positive for every vector that is not zero, so the assembled system has exactly one solution, and by C122 its field is the sum of the squares of the coordinates.", "quantifier": "all numbers of processes, dimensions 1 to 3, legal clamped knots and their element sizes, degrees, quadrature rules exact for twice the degrees, coefficient vectors", "why_tests_cant": "whether the penalty outweighs the normal derivatives depends on all fields of the space, on the ratio of the degrees and on the sizes of the elements at the sides; a run that converges shows it for one mesh only, and a solver may converge although the form is indefinite", "anchors": ["demo/NitscheMethod.c: System, Degree, NormalMeshSize, main", "src/petigapoint.c: IGAPointFormInvGradGeomMap, IGAPointFormScale", "src/petigaksp.c: IGAComputeSystem"]}
{"id": "C125", "title": "BoundaryIntegral demo: one solution, the linear function", "statement": "With Galerkin's method and no geometry, demo/BoundaryIntegral.c assembles a linear system for the Laplace equation with the value 1 on one side of a direction and the normal derivative 1 on the opposite side; the system has exactly one solution, and the field with these coefficients equals the linear function the program compares with (`Exact`) at every quadrature point, on the unit interval; on any other interval it is the linear function with the value 1 at the one side and slope 1 towards the other.", "quantifier": "every dimension 1 to 3, degrees, knot vectors clamped at the side with the value, direction and side, number of processes and grid of processes, history of messages, distinct points in [-1,1] with weights exact for twice the degrees", "why_tests_cant": "a run compares the solution of one mesh with the exact one up to a tolerance of 1e-3, and a solver returns one solution even if the system has others; that the discrete solution is exact and unique for every mesh is a statement over all meshes", "anchors": ["demo/BoundaryIntegral.c:Laplace,Neumann,System,Exact,main", "src/petiga.h:IGAFormSetBoundaryForm", "src/petigaform.c:IGAFormSetBoundaryValue,IGAFormSetBoundaryForm", "src/petigacomp.c:IGAComputeSystem"]}
{"id": "C126", "title": "Neumann demo: the null space is the constants, and the shift removes the mean", "statement": "With Galerkin's method, the matrix demo/Neumann.c assembles is what the program tells the solver: symmetric, with exactly the constant vectors as null space, and positive definite (`MAT_SPD`); and after the solve the vector shifted by its dot product with the assembled `MassVector` is the coefficients of a field whose integral over the domain is zero.", "quantifier": "every dimension 1 to 3, degrees, knot vectors, periodic or not, geometry with positive determinants, number of processes and grid of processes, history of messages, rules with more than p distinct points, every vector", "why_tests_cant": "a run solves one system on one mesh, on the unit domain; that nothing but the constants is annihilated, and what the shift does on domains of another size, are statements over all vectors and meshes", "anchors": ["demo/Neumann.c:SystemGalerkin,MassVector,Flux,Forcing,main", "src/petigaform.c:IGAFormSetBoundaryLoad", "src/petigacomp.c:IGAComputeSystem,IGAComputeVector"]}
{"id": "C127", "title": "Neumann demo: when its system has a solution", "statement": "With Galerkin's method, the system demo/Neumann.c assembles has a solution exactly if the entries of the right-hand side add up to zero, and two solutions differ by a constant. Without a geometry the boundary loads that `main` sets on the two sides of each direction cancel, so that the entries add up to the integral, by the quadrature rule, of the forcing: the system is solvable exactly if that integral vanishes. The forcing is minus the Laplacian of the solution the program compares with, and the flux its outward derivative on the sides of the unit box.", "quantifier": "every dimension 1 to 3, degrees, knot vectors, periodic or not, number of processes and grid of processes, history of messages, rules with more than p distinct points; for solvability any geometry with positive determinants", "why_tests_cant": "a Krylov solver returns some vector for an inconsistent singular system too; that the loads cancel, and consistency, are statements over all meshes and rules", "anchors": ["demo/Neumann.c:SystemGalerkin,Flux,Forcing,main", "src/petigaform.c:IGAFormSetBoundaryLoad", "src/petigaelem.c:IGAElementBuildFix", "src/petigacomp.c:IGAComputeSystem"]}
{"id": "C128", "title": "Advection-diffusion demo: one solution at every Peclet number", "statement": "The system demo/AdvectionDiffusion.c assembles states the weak form of -div grad u + w.grad u = 0 with the values the program sets at the sides. If the direction -dir is not zero, and without a geometry, the quadratic form of its matrix is positive whatever the strength -Pe of the wind, so that there is exactly one solution. The solution is 1 all over the left and 0 all over the right side of the last direction with wind, and between 0 and 1 over the sides of the other directions with wind. The norm of the wind is the Peclet number.", "quantifier": "every Peclet number, direction, dimension 1 to 3, degrees, knot vectors (not periodic, clamped in the directions with wind), number of processes and grid of processes, history of messages, rules with more than p distinct points in the element and exact for degree 2p", "why_tests_cant": "a run shows one mesh and one Peclet number; that no strength of the wind makes the system singular, on any mesh, is a statement over all of them", "anchors": ["demo/AdvectionDiffusion.c:System,ComputeWind,main", "src/petigaform.c:IGAFormSetBoundaryValue", "src/petigacomp.c:IGAComputeSystem", "src/petigaelem.c:IGAElementFixSystem"]}
{"id": "C129", "title": "Elasticity demo: the form is Hooke's law", "statement": "For every pair of Lame constants the array that the callback of demo/Elasticity3D.c leaves is the one of linear isotropic elasticity: applied to the coefficients of two displacements it gives lambda tr(e(v)) tr(e(u)) + 2 mu e(v):e(u), and the vector is zero in all three components. The assembled matrix is symmetric and has a nonnegative quadratic form.", "quantifier": "every pair of constants, table of shape functions, pair of displacements, number of nodes, mesh, number of processes, history of messages, boundary values", "why_tests_cant": "with the constants of main (1 and 1) a wrong factor mu cannot be seen in any run; the identity is over all constants and displacements", "anchors": ["demo/Elasticity3D.c:System,main", "src/petigacomp.c:IGAComputeSystem", "src/petigapoint.c:IGAPointGetWorkVec"]}
{"id": "C13", "title": "Computed B-spline derivatives are the true derivatives", "statement": "Row r of the table produced by the B-spline kernel is the r-th derivative of the basis polynomials at u, for every r up to the requested order, and zero for r > p.", "quantifier": "every degree p, every order d, every knot vector, span and u", "why_tests_cant": "the derivative algorithm keeps two alternating coefficient rows; correctness for every degree is not testable", "anchors": ["src/petigabsb.f90.in: BSplineBasisFunsDers", "src/petigabsp.F90: IGA_Basis_BSpline"]}
{"id": "C130", "title": "Logg challenge demo: the program solves the problem of its comment", "statement": "The forcing of demo/LoggChallenge.c is minus the Laplacian of the solution it measures its error against, and that solution has the boundary values main prescribes. On every mesh the system has exactly one solution; it has the prescribed values and minimises 1/2 int |grad v|^2 - int f v among the fields that have them. Forcing and solution are evaluated at the position of the point, with or without a geometry.", "quantifier": "every point of the plane; every mesh, degree, continuity, rule with enough points, number of processes, history of messages; every geometry with positive Jacobian", "why_tests_cant": "the printed error of a run is small or not on one mesh; that data and exact solution belong together is an identity over all points, and the minimum is over all fields of every space", "anchors": ["demo/LoggChallenge.c:Forcing,System,Solution,Exact,main", "src/petigacomp.c:IGAComputeSystem", "src/petiga.c:IGASetFromOptions"]}
{"id": "C14", "title": "Lagrange and spectral bases are cardinal with correct derivatives", "statement": "The Lagrange and spectral bases take value 1 at their own node and 0 at the others, sum to one, and rows 1..4 of the table are the true derivatives of order 1..4.", "quantifier": "every set of distinct nodes, every degree, every u", "why_tests_cant": "identity over all node sets and degrees", "anchors": ["src/petigabsp.F90: IGA_Basis_Lagrange, IGA_Basis_Spectral", "src/petigalgb.f90.in"]}
{"id": "C15", "title": "Greville abscissae are ordered and inside the domain of influence", "statement": "IGA_Greville(i) lies in [U[i+1],U[i+p]] (hence in the support of function i), is non-decreasing in i, strictly increasing when no interior knot has multiplicity above p, and lies in [U[0],U[m]]; with end knots of multiplicity p+1 the first and last are the domain ends.", "quantifier": "every degree >= 1 and every knot vector", "why_tests_cant": "universally quantified inequality over knot vectors", "anchors": ["src/petigabasis.c: IGA_Greville", "src/petigansp.c: ComputePoint"]}
{"id": "C16", "title": "Built-in quadrature rules integrate polynomials", "statement": "The q-point Gauss-Legendre table integrates every polynomial of degree <= 2q-1 on [-1,1], and the q-point Lobatto table every polynomial of degree <= 2q-3, up to the rounding of the tabulated constants; weights are positive, points increasing in [-1,1], Lobatto contains both end points; an unsupported q is rejected with an error.", "quantifier": "every supported q, every polynomial with real/rational coefficients", "why_tests_cant": "quantifies over all polynomials", "anchors": ["src/petigarule.c: IGA_Rule_GaussLegendre, IGA_Rule_GaussLobatto, IGARuleSetUp", "src/petigaqdr.F90"]}
{"id": "C17", "title": "Quadrature points of an element lie in the element and their weights measure it", "statement": "For each element the tabulated points are the affine images of the rule points, lie inside the knot span, and weight times Jacobian sums to the length of the span when the reference weights sum to 2; summed over elements they give the length of the domain.", "quantifier": "every knot vector, every rule with points in [-1,1]", "why_tests_cant": "all knot vectors and all user supplied rules", "anchors": ["src/petigabasis.c: IGABasisInitQuadrature", "src/petigarule.c: IGARuleSetRule"]}
{"id": "C18", "title": "Repeated set up does not change the quadrature rule", "statement": "Setting up a basis twice with the same axis and rule gives the same number of quadrature points.", "quantifier": "every axis, every rule type, every number of repetitions", "why_tests_cant": "property of histories of calls", "anchors": ["src/petigabasis.c: IGABasisInitQuadrature", "src/petigarule.c: IGARuleSetSize, IGARuleSetUp"]}
{"id": "C19", "title": "A failed rule set up leaves no half-configured rule", "statement": "If IGARuleSetSize/IGARuleSetUp returns an error, repeating the call either fails again or yields a correct rule; it never reports success with a zero rule.", "quantifier": "every sequence of rule calls", "why_tests_cant": "failure-then-retry histories", "anchors": ["src/petigarule.c: IGARuleSetSize, IGARuleSetUp"]}
{"id": "C20", "title": "Owned node ranges partition the nodes", "statement": "Over the processes of a direction the owned node ranges are consecutive, non-empty, disjoint and cover 0..nnp-1 exactly; likewise the owned geometry ranges cover the control points.", "quantifier": "every accepted axis with at least one element, periodic or not, every process count up to the number of elements", "why_tests_cant": "depends on knot multiplicities at process boundaries", "anchors": ["src/petiga.c: IGASetUp_Stage1"]}
{"id": "C21", "title": "Ghosted node ranges contain everything the owned elements touch", "statement": "For every owned element, all p+1 nodes of its closure in each direction lie in the process's ghosted range, the owned range is inside the ghosted range, and every ghosted index maps to an existing node (after periodic wrap).", "quantifier": "every accepted axis, every process count, every process, every owned element", "why_tests_cant": "depends on knot multiplicities at process boundaries", "anchors": ["src/petiga.c: IGASetUp_Stage1", "src/petigaelem.c: IGAElementBuildClosure"]}
{"id": "C22", "title": "Failed set up is reported again, not silently treated as done", "statement": "If IGASetUp fails, a later IGASetUp does not report success unless the object is actually set up.", "quantifier": "every failure point, every retry history", "why_tests_cant": "crash-point style history", "anchors": ["src/petiga.c: IGASetUp, IGASetUp_Stage1, IGASetUp_Stage2"]}
{"id": "C23", "title": "Form loop visits each requested boundary once and the interior once", "statement": "For an element, the NextForm loop reports each side (direction, side) for which the element lies on that side of the grid and the form asked for a visit exactly once, in increasing order, then the interior exactly once, and then stops ready for the next element.", "quantifier": "every element position, grid size, dim 1..3, every visit flag table", "why_tests_cant": "2^6 flags times every element position", "anchors": ["src/petigaelem.c: IGAElementNextForm"]}
{"id": "C24", "title": "Element closure is an injective tensor-product block", "statement": "The closure of an element lists (p0+1)(p1+1)(p2+1) distinct ghost-local node indices, all inside the ghosted local array, entry a = ia + ja*(p0+1) + ka*(p0+1)(p1+1) being node (first0+ia, first1+ja, first2+ka).", "quantifier": "every ghosted box and every element inside it, every degree, dim 1..3", "why_tests_cant": "index arithmetic over all shapes", "anchors": ["src/petigaelem.c: IGAElementBuildClosure"]}
{"id": "C25", "title": "IGAElementGetIndices fills every output the caller asked for", "statement": "Calling IGAElementGetIndices with output pointers for the row and column maps stores the row map through the first and the column map through the second.", "quantifier": "every element and every combination of null/non-null outputs", "why_tests_cant": "argument wiring error that a caller passing one pointer never notices", "anchors": ["src/petigaelem.c: IGAElementGetIndices"]}
{"id": "C26", "title": "Global numbering is a permutation of the natural numbering", "statement": "The global (process-by-process) numbering of nodes assigns to each process a contiguous block, is a bijection with the natural lexicographic numbering, and ghosted local indices map to the global number of the same (wrapped) grid node.", "quantifier": "every grid, every partition into boxes", "why_tests_cant": "bijection over all decompositions", "anchors": ["src/petigagrid.c: IGA_Grid_LocalIndices, IGA_Grid_GhostIndices, IGA_Grid_GetAO, IGA_Grid_GetLGMap"]}
{"id": "C27", "title": "Global/local transfers", "statement": "GlobalToLocal puts in every ghosted local entry the value of the corresponding (wrapped) global node; LocalToGlobal with ADD_VALUES adds up all ghost copies and with INSERT_VALUES stores the owned copy, so GlobalToLocal followed by LocalToGlobal(INSERT) is the identity and LocalToGlobal(ADD) is the transpose of GlobalToLocal.", "quantifier": "every grid, partition, block size and vector", "why_tests_cant": "all vectors and decompositions", "anchors": ["src/petigagrid.c: IGA_Grid_GetScatterG2L, IGA_Grid_GetScatterL2G, IGA_Grid_GlobalToLocal, IGA_Grid_LocalToGlobal", "src/petigavec.c: IGAGlobalToLocalBegin, IGALocalToGlobalBegin"]}
{"id": "C28", "title": "Natural/global transfers are mutually inverse", "statement": "Converting a vector from global to natural order and back (and conversely) returns it unchanged, so saved vectors do not depend on the number of processes.", "quantifier": "every grid, partition, block size and vector", "why_tests_cant": "all vectors and decompositions", "anchors": ["src/petigagrid.c: IGA_Grid_NewScatterApp, IGA_Grid_NaturalToGlobal, IGA_Grid_GlobalToNatural", "src/petigavec.c: IGANaturalToGlobal, IGAGlobalToNatural"]}
{"id": "C29", "title": "Work vector pool never hands the same vector out twice", "statement": "IGAGetLocalVec never returns a vector that is currently checked out, IGARestoreLocalVec never loses or duplicates a vector, and at most 16 vectors are cached.", "quantifier": "every sequence of get/restore calls", "why_tests_cant": "history property", "anchors": ["src/petigavec.c: IGAGetLocalVec, IGARestoreLocalVec"]}
{"id": "C30", "title": "Boundary condition tables: last setting wins, nothing else changes", "statement": "After any sequence of IGAFormSetBoundaryValue/Load/ClearBoundary calls the condition stored for (axis, side, field) is the value of the last call for exactly that triple since the last clear of that side, other triples are unaffected, tables never hold more than 64 entries or repeated fields, and out-of-range arguments are rejected without any change.", "quantifier": "every sequence of calls", "why_tests_cant": "history property with a fixed-capacity table", "anchors": ["src/petigaform.c: IGAFormBCSetEntry, IGAFormSetBoundaryValue, IGAFormSetBoundaryLoad, IGAFormClearBoundary", "src/petigaform.c: IGASetBoundaryValue"]}
{"id": "C31", "title": "IGAFormReset leaves a usable, empty form", "statement": "IGAFormReset clears a form's callbacks and boundary conditions without touching memory outside the form, and boundary conditions can be set again afterwards.", "quantifier": "every form state", "why_tests_cant": "memory-safety of a rarely called function", "anchors": ["src/petigaform.c: IGAFormReset"]}
{"id": "C32", "title": "Constrained degrees of freedom of an element are listed once with one value", "statement": "The list of fixed degrees of freedom built for an element contains each index at most once, each of the form node*dof+field with field < dof, contains exactly the boundary-face nodes of the sides the element lies on with a Dirichlet condition, never overflows its buffer, and the stored value is the one of the last side processed (or of the fix table when one is set).", "quantifier": "every element shape, position, grid, condition tables", "why_tests_cant": "edges and corners combine several conditions; combinatorial in shapes and tables", "anchors": ["src/petigaelem.c: AddFixa, BuildFix, IGAElementBuildFix"]}
{"id": "C33", "title": "Boundary loads accumulate", "statement": "The flux list of an element holds each degree of freedom once, and its value is the sum over the sides and load conditions that touch it of load times boundary area.", "quantifier": "every element, tables, areas", "why_tests_cant": "edges and corners combine several loads", "anchors": ["src/petigaelem.c: AddFlux, BuildFix, IGAElementBuildFix"]}
{"id": "C34", "title": "Dirichlet elimination of an element system", "statement": "IGAElementFixSystem turns (K,F) into: rows and columns of fixed indices are those of the identity, the right-hand side at a fixed index is its prescribed value, and at a free index i it is F_i plus its flux minus sum over fixed k of K[i,k] v_k; other entries are unchanged, symmetry is preserved, and a vector solves the modified system iff it takes the prescribed values and satisfies the original equations at the free indices.", "quantifier": "every K, F, every duplicate-free fix list and flux list, any size", "why_tests_cant": "linear algebra identity over all matrices and fix lists", "anchors": ["src/petigaelem.c: IGAElementFixSystem"]}
{"id": "C35", "title": "Residual and Jacobian elimination agree with the system elimination", "statement": "IGAElementFixFunction sets the residual at fixed indices to u-v and subtracts fluxes elsewhere, IGAElementFixJacobian makes fixed rows and columns those of the identity, so for a linear problem one Newton step from any state with the element-level modifications solves the system produced by IGAElementFixSystem.", "quantifier": "every K, F, U, fix and flux lists", "why_tests_cant": "identity over all matrices", "anchors": ["src/petigaelem.c: IGAElementFixFunction, IGAElementFixJacobian, IGAElementFixValues"]}
{"id": "C36", "title": "A Dirichlet node is constrained in every element that touches it", "statement": "If a node lies on a boundary side carrying a Dirichlet condition then every element whose closure contains the node lists it as fixed with the same value, so the assembled row of that node is a positive multiple of the identity row and the assembled equation forces the prescribed value.", "quantifier": "every accepted non-periodic axis, grid and partition", "why_tests_cant": "relies on interior elements never reaching the first/last node, for all knot vectors", "anchors": ["src/petigaelem.c: IGAElementBuildFix, BuildFix", "src/petigaaxis.c: IGAAxisGetSpans"]}
{"id": "C37", "title": "Collocation boundary conditions respect periodicity and field range", "statement": "With collocation, a boundary condition on a periodic direction is ignored and a condition on a field >= dof is ignored, exactly as in the Galerkin case.", "quantifier": "every element, table, axis kind", "why_tests_cant": "rare combination of options", "anchors": ["src/petigaelem.c: IGAElementBuildFix, IGAElementFixSystem"]}
{"id": "C38", "title": "Matrix stencil contains every coupling", "statement": "For any two nodes that occur together in the closure of some element, the column range computed for the row of one contains the other, so assembly never hits a location that was not preallocated.", "quantifier": "every accepted axis (open, general or periodic), every pair of nodes", "why_tests_cant": "knot multiplicities, ends and periodic wrap", "anchors": ["src/petigamat.c: Stencil, ColumnIndices"]}
{"id": "C39", "title": "Matrix row buffer is large enough", "statement": "The number of column indices produced for a row never exceeds the product of (2p+1) over directions, the size of the buffer allocated for it.", "quantifier": "every accepted axis and row", "why_tests_cant": "buffer overflow property", "anchors": ["src/petigamat.c: Stencil, ColumnIndices, IGACreateMat"]}
{"id": "C40", "title": "Rational basis derivatives are those of the NURBS quotient", "statement": "After rationalisation the tables hold w_a N_a / sum_b w_b N_b and its partial derivatives of orders 1..4.", "quantifier": "every number of functions, weights, every dimension, any differentiable basis", "why_tests_cant": "quotient rule identity over all bases", "anchors": ["src/petigarat.f90.in: Rationalize"]}
{"id": "C41", "title": "Mapped shape function derivatives are the physical derivatives", "statement": "The inverse-map and shape-function kernels produce the derivatives of orders 1..4 of the shape functions with respect to physical coordinates.", "quantifier": "every dimension 1..3, every geometry map with invertible Jacobian, every basis", "why_tests_cant": "chain rule identity over all maps", "anchors": ["src/petigamapinv.f90.in: InverseMap", "src/petigamapshf.f90.in: ShapeFunctions", "src/petigamapgeo.f90.in: GeometryMap"]}
{"id": "C42", "title": "Tensor-product basis tables hold the mixed partial derivatives", "statement": "Entry (i1..ir; a,b,c) of the order-r table is the mixed partial derivative in directions i1..ir of the product of the 1D functions a,b,c, for r = 0..4 in 1, 2 and 3 dimensions; the number of functions and their ordering match the element closure.", "quantifier": "every pair/triple of 1D tables", "why_tests_cant": "81 hand written entries per order", "anchors": ["src/petiga1d.F90, src/petiga2d.F90, src/petiga3d.F90: TensorBasisFuns"]}
{"id": "C43", "title": "Determinant and inverse kernels", "statement": "The determinant and inverse kernels return the determinant and the two-sided inverse of every invertible matrix of size 1, 2, 3.", "quantifier": "every invertible matrix", "why_tests_cant": "polynomial identity", "anchors": ["src/petigadet.f90.in, src/petigainv.f90.in"]}
{"id": "C44", "title": "Boundary normals", "statement": "The normal returned on a boundary side is a unit vector orthogonal to the boundary tangents, its length factor is the surface measure, and it points out of the domain when the geometry map preserves orientation.", "quantifier": "every geometry gradient, axis, side, dim 1..3", "why_tests_cant": "identity over all maps", "anchors": ["src/petigaval.F90: IGA_GetNormal"]}
{"id": "C45", "title": "Save/load round trip of the discretisation", "statement": "IGAWrite followed by IGARead gives an object with the same dimension, degrees, knot vectors, periodicity, geometry and property data.", "quantifier": "every configured object", "why_tests_cant": "all objects, including periodic ones", "anchors": ["src/petigaio.c: IGASave, IGALoad"]}
{"id": "C46", "title": "Geometry round trip through homogeneous coordinates", "statement": "Saving a geometry (control points and weights) and loading it again returns the same control points and weights; the loaded object is flagged rational exactly when the weights are not constant.", "quantifier": "every control net with arbitrary (also zero) weights", "why_tests_cant": "all control nets", "anchors": ["src/petigaio.c: IGASaveGeometry, IGALoadGeometry"]}
{"id": "C47", "title": "Finite-difference Jacobians", "statement": "The finite-difference Jacobian callbacks leave their input vectors unchanged and return (F(U+h e_j)-F(U))/h in column j, hence the exact Jacobian for affine residuals; this holds for every residual callback that is legal in the residual loop, including those that accumulate into the zeroed work array.", "quantifier": "every residual function, state, step h != 0", "why_tests_cant": "all user callbacks", "anchors": ["src/petigafdjac.c: IGAFormJacobianFD, IGAFormIJacobianFD, IGAFormIEJacobianFD, IGAFormI2JacobianFD, IGAFormRHSJacobianFD"]}
{"id": "C48", "title": "Computed functionals do not depend on the decomposition", "statement": "IGAComputeScalar returns, on every process, the sum over all elements and quadrature points of weight times Jacobian times integrand, independent of the number of processes.", "quantifier": "every element grid, partition and integrand", "why_tests_cant": "all decompositions", "anchors": ["src/petigacomp.c: IGAComputeScalar", "src/petigapoint.c: IGAPointAddArray"]}
{"id": "C49", "title": "Error norms reject unsupported derivative orders", "statement": "IGAComputeErrorNorm with an unsupported derivative index returns an error without reading outside its tables.", "quantifier": "every derivative index k and dimension", "why_tests_cant": "memory-safety for all integers k", "anchors": ["src/petigacomp.c: IGAComputeErrorNorm"]}
{"id": "C50", "title": "Node coordinates vector", "statement": "IGACreateCoordinates fills, for every owned node, the coordinates of its control point (when a geometry is set) or its Greville/Lobatto point.", "quantifier": "every geometry dimension, ghosted box, owned box", "why_tests_cant": "index arithmetic over all shapes", "anchors": ["src/petigansp.c: IGACreateCoordinates"]}
{"id": "C51", "title": "Global assembly is independent of the decomposition", "statement": "The global vector/matrix produced by the element loop is the sum over all elements of the element contributions scattered to wrapped natural node numbers, independent of the number of processes and of the order in which elements are visited.", "quantifier": "every grid, partition, element contributions", "why_tests_cant": "all decompositions", "anchors": ["src/petigaelem.c: IGAElementAssembleVec, IGAElementAssembleMat", "src/petigaksp.c: IGAComputeSystem"]}
{"id": "C52", "title": "Probe evaluates on a process that owns the point", "statement": "For every point of the parametric domain at least one process finds the span's closure inside its ghosted box, so a collective probe always obtains the value; closure indices used by the probe are inside the ghosted array; derivative orders outside the configured range are rejected.", "quantifier": "every accepted axis, partition and point", "why_tests_cant": "all points and decompositions", "anchors": ["src/petigaprobe.c: IGAProbeSetPoint, IGAProbeEvaluate"]}
{"id": "C53", "title": "Multigrid coarsening factors", "statement": "Every coarsening factor divides the number of intervals in its direction, at least one direction is really coarsened whenever coarsening is reported possible, so the level loop terminates and every level has at least one interval per direction.", "quantifier": "every grid size, processor grid, dim 1..3", "why_tests_cant": "number theoretic property over all sizes", "anchors": ["src/petigapcmg.c: CoarsenFactor, DMDAComputeCoarsenLevels"]}
{"id": "C54", "title": "BDDC boundary classification", "statement": "The Dirichlet index list is exactly the set of (node, field) pairs on some flagged side carrying a value condition for the field, the Neumann list the boundary pairs that are not Dirichlet, both sorted, duplicate free and with the announced lengths.", "quantifier": "every box shape, flags and condition tables", "why_tests_cant": "edges/corners combine several sides", "anchors": ["src/petigapcbddc.c: IGAComputeBDDCBoundary"]}
{"id": "C55", "title": "BDDC interface colouring", "statement": "Two nodes of the ghosted box get the same colour iff they lie in the same cell of the partition of the box into interior and numbered outer layers, so only nodes of the same layer are linked.", "quantifier": "every box shape, start, width", "why_tests_cant": "mixed-radix encoding with negative digits", "anchors": ["src/petigapcbddc.c: Color, Index"]}
{"id": "C56", "title": "Field index sets split the unknowns", "statement": "The index sets of the fields created for a vector layout are disjoint and together contain every owned unknown exactly once, field i containing exactly the unknowns congruent to i modulo the number of fields.", "quantifier": "every layout range and number of fields", "why_tests_cant": "all sizes", "anchors": ["src/petigadm.c: DMCreateFieldIS_IGA, DMCreateSubDM_IGA"]}
{"id": "C57", "title": "Once set, discretisation sizes cannot be changed silently", "statement": "IGASetDim, IGASetDof and IGAAxisSetDegree accept the first legal value, accept repeating it, and reject any different value, leaving the object unchanged; illegal values are always rejected.", "quantifier": "every sequence of setter calls", "why_tests_cant": "history property", "anchors": ["src/petiga.c: IGASetDim, IGASetDof", "src/petigaaxis.c: IGAAxisSetDegree"]}
{"id": "C58", "title": "Reference counting", "statement": "A shared object (axis, rule, form) is released exactly when as many destroys as creates+references have happened, never earlier and never twice.", "quantifier": "every balanced or unbalanced sequence of reference/destroy", "why_tests_cant": "history property", "anchors": ["src/petigaaxis.c: IGAAxisDestroy, IGAAxisReference", "src/petigarule.c", "src/petigaform.c"]}
{"id": "C59", "title": "Clone preserves the discretisation", "statement": "IGAClone produces an object with the same axes, rules, basis types, partition, geometry and properties, and the requested number of fields.", "quantifier": "every set up object", "why_tests_cant": "all objects", "anchors": ["src/petiga.c: IGAClone", "src/petigaaxis.c: IGAAxisCopy"]}
{"id": "C60", "title": "Block preconditioner index sets are legal", "statement": "The index sets used by the overlapping-block preconditioner contain each node of the requested overlap box clipped to the subdomain exactly once, only owned nodes, and every owned node is the centre of a block.", "quantifier": "every box, overlap and owned range", "why_tests_cant": "index arithmetic over all shapes", "anchors": ["src/petigapcb.c: ComputeOverlap, PCSetUp_BBB"]}
{"id": "C61", "title": "Point evaluation is linear and reproduces nodal interpolation data", "statement": "Field values, gradients and higher derivatives returned at a point are the sums over the element's functions of (derivative of) function times coefficient; hence linear in the coefficients, and constant fields evaluate to the constant with zero derivatives when the basis is a partition of unity.", "quantifier": "every basis table, coefficients, fields", "why_tests_cant": "all coefficient vectors", "anchors": ["src/petigaval.F90: IGA_GetValue, IGA_GetGrad, IGA_GetHess, IGA_GetDel2, IGA_Evaluate", "src/petigapoint.c: IGAPointEvaluate"]}
{"id": "C62", "title": "Automatic processor grid is found whenever one exists", "statement": "If the communicator size can be factored into per-direction counts none of which exceeds the number of elements of its direction, then IGASetUp with all processor counts left to PetIGA succeeds.", "quantifier": "every communicator size, every element grid, dim 1..3", "why_tests_cant": "whether the search finds a fitting factorisation depends on the arithmetic of the size and the grid; only particular composite sizes on tight grids expose a miss", "anchors": ["src/petigapart.c: IGA_PART2D, IGA_PART3D, IGA_Partition", "src/petiga.c: IGASetUp_Stage1"]}
{"id": "C63", "title": "A refused axis initialisation leaves the axis unchanged", "statement": "If IGAAxisInit is refused (invalid degree, too few knots, decreasing knots or excessive multiplicity) then the axis keeps its previous degree, knots and spans.", "quantifier": "every axis state, every degree and knot array", "why_tests_cant": "needs the state after each failing path, for every illegal input", "anchors": ["src/petigaaxis.c: IGAAxisInit, IGAAxisSetDegree, IGAAxisSetKnots"]}
{"id": "C64", "title": "Basis tabulated at every point of a user rule", "statement": "After IGASetQuadrature/IGARuleSetRule with any points and weights, setting up the basis tabulates the basis functions at every quadrature point of every element.", "quantifier": "every user rule (points and weights), every axis", "why_tests_cant": "the failing rules (a weight that is not positive) are unusual and the missing values look like plausible numbers", "anchors": ["src/petigabasis.c:IGABasisInitQuadrature", "src/petigarule.c:IGARuleSetRule"]}
{"id": "C65", "title": "Inside the point loop every accessor shows the data of the current point", "statement": "The point loop of an element visits each quadrature point once, and at point q the basis function, shape function and mapping arrays (of every derivative order) that the user reads are those tabulated for point q.", "quantifier": "every number of points, basis functions, parametric and spatial dimension, derivative order, with or without geometry", "why_tests_cant": "pointer strides must agree with array layouts for all size combinations; tests use dim = nsd", "anchors": ["src/petigaelem.c: IGAElementNextPoint, IGAElementInit"]}
{"id": "C66", "title": "Collocation residual and Jacobian of a constrained unknown are consistent", "statement": "With collocation, when Dirichlet conditions are applied in a nonlinear solve, the residual entry of a constrained unknown is (current coefficient - prescribed value), all other residual entries are untouched, and the Jacobian row of that unknown is the derivative of that residual entry, so one Newton step of a linear problem meets the condition.", "quantifier": "every collocation point, every set of constrained unknowns, every state vector and increment", "why_tests_cant": "the inconsistency shows up only as slow Newton convergence for non-constant boundary data in two or more dimensions", "anchors": ["src/petigaelem.c: IGAElementFixValues, IGAElementFixFunction, IGAElementFixJacobian"]}
{"id": "C67", "title": "A successful set-up describes the current configuration", "statement": "When IGASetUp returns success, the partition, the node numbering and the basis tables of the object are those of its current axes and of its current processor grid: the element and node boxes are the ones computed from these axes and processor numbers, and every direction's table has p+1 functions and one entry per element (Galerkin) or per node (collocation).", "quantifier": "every history of calls on an IGA object ending in a successful IGASetUp", "why_tests_cant": "tests set an object up once; the stale partition after re-configuring needs a second set-up after a specific sequence of setters", "anchors": ["src/petiga.c: IGASetUp, IGASetUp_Stage1, IGASetProcessors, IGASetRuleSize", "src/petigabasis.c: IGABasisInitQuadrature, IGABasisInitCollocation"]}
{"id": "C68", "title": "Collocation tables", "statement": "On a configured B-spline axis the collocation set-up succeeds and gives one point of weight one per node; the points are the Greville abscissae of the basis functions, in increasing order, and the p+1 functions tabulated at the point of node i include the function of node i. Other basis types are refused.", "quantifier": "every degree, knot vector accepted by the axis (periodic or not), derivative order", "why_tests_cant": "knot vectors and degrees are unbounded; the offset and the shift of periodic axes depend on repeated knots", "anchors": ["src/petigabasis.c: IGABasisInitCollocation, IGA_FindSpan, IGA_Greville"]}
{"id": "C69", "title": "Matrix preallocation is sufficient", "statement": "In every storage format the numbers of entries preallocated for a row are at least the numbers of different columns inserted in it when the matrix is created, for the columns of the process's own rows and for the others separately, also when columns repeat and when the counts are clipped to the row length.", "quantifier": "every format, block size, decomposition, row and list of columns", "why_tests_cant": "wrapped columns repeat on small periodic grids; the clipping applies only there; decompositions are unbounded", "anchors": ["src/petigamat.c: IGACreateMat, UnblockIndices, FilterLowerTriangular"]}
{"id": "C70", "title": "Gradient and inverse gradient of the geometry map", "statement": "At a point of an element the gradient of the geometry map and its inverse, as returned to the user, are inverse to each other on the tangent directions: for a map into the same number of dimensions they are two-sided inverses, for a map into a higher dimensional space the inverse gradient is a left inverse whose range lies in the tangent space.", "quantifier": "every dimension, space dimension, control net and basis with independent tangents", "why_tests_cant": "all geometries are unbounded; singularities and rounding hide sign and transposition errors on simple maps", "anchors": ["src/petigaval.F90: IGA_GetGradGeomMap, IGA_GetInvGradGeomMap", "src/petigapoint.c: IGAPointFormGradGeomMap, IGAPointFormInvGradGeomMap"]}
{"id": "C71", "title": "Tables of a point, end to end", "statement": "At every quadrature point the shape function tables given to the user hold the values and derivatives of the element's functions: with respect to the parametric coordinates when there is no geometry or the geometry is a manifold, with respect to the physical coordinates when the geometry maps onto a space of the same dimension; with weights these are the NURBS functions. The Jacobian factor is the parametric measure times the determinant of the map inside the domain, and times the surface measure on a boundary side, where the unit normal is orthogonal to the side and points outwards; a non-positive determinant is reported in builds with error checking.", "quantifier": "every dimension, basis, weights, control net, point, side and derivative order up to 4", "why_tests_cant": "composition of six kernels with different storage conventions; errors cancel on affine or symmetric geometries", "anchors": ["src/petigaelem.c: IGAElementBuildTabulation, IGAElementBeginPoint", "src/petigaval.F90, src/petigamap*.f90.in, src/petigarat.f90.in"]}
{"id": "C72", "title": "A boundary load acts on the whole side, once", "statement": "A load set on a side of the domain (IGASetBoundaryLoad) is applied as a surface load: every element on the side spreads over its nodes on the side, in total, the load times the area of its part of the side (with a geometry, the integral of the surface element of the map, by the quadrature of the element), the node of a basis function receiving the load times the integral of the function; summed over the mesh, each load in force on a side that is not periodic contributes load times area of the side, and nothing else contributes.", "quantifier": "every mesh of legal knots, element, side, number of fields, history of calls setting loads, control points and weights", "why_tests_cant": "areas and shares depend on all knots, weights, control points and positions of the element; a wrong share still gives a plausible solution", "anchors": ["src/petigaelem.c: BoundaryArea, AddFlux, BuildFix", "src/petiga2d.F90: IGA_BoundaryArea_2D", "src/petiga3d.F90: IGA_BoundaryArea_3D"]}
{"id": "C73", "title": "Vector files", "statement": "A field written with IGAWriteVec (or IGASaveVec) by any number of processes is read back with IGAReadVec by any other number of processes: every node gets the values it had, whatever the two partitions; and the file itself does not depend on the number of processes.", "quantifier": "every dimension, mesh, number of fields, pair of partitions and vector", "why_tests_cant": "depends on pairs of partitions and on the renumbering of both; tests run few pairs", "anchors": ["src/petigaio.c: IGASaveVec, IGALoadVec, IGAWriteVec, IGAReadVec, VecLoad_Binary_SkipHeader", "src/petigagrid.c: IGA_Grid_GlobalToNatural, IGA_Grid_NaturalToGlobal"]}
{"id": "C74", "title": "Multigrid levels can be distributed", "statement": "Every level of the multigrid hierarchy built from an IGA distributed over a grid of processes has at least one node per process in every direction, so that every level can be distributed over the same grid of processes.", "quantifier": "every dimension, number of nodes, periodicity, degree, processor grid and requested number of levels", "why_tests_cant": "depends on divisibility of the number of intervals in all directions against the number of processes", "anchors": ["src/petigapcmg.c: DMDAComputeCoarsenLevels, DMDAComputeCoarsenFactor", "src/petigapcmg.c: IGAPreparePCMG"]}
{"id": "C75", "title": "Adjacency graph for BDDC", "statement": "The adjacency structure handed to the BDDC preconditioner is consistent: one row per local unknown, rows contiguous, and the row of an unknown lists exactly the unknowns of all fields at its node and at the neighbouring nodes (one step in one direction, around the end in a periodic direction) that have the same colour, each once and in increasing order; the relation is symmetric.", "quantifier": "every dimension, box shape, subdomain, periodicity and number of fields", "why_tests_cant": "two passes with a count and a fill over all shapes", "anchors": ["src/petigapcbddc.c: IGAComputeBDDCGraph, OnGrid, Color"]}
{"id": "C76", "title": "Element preconditioner index sets", "statement": "For every element (or collocation point) of a process, the index set of its block in the element-by-element preconditioner contains exactly the unknowns of those nodes of the element that the process owns, each once when every direction has at least p+1 nodes; no entry of the local-to-global map or of the index array outside its bounds is touched, and every owned unknown is in the block of some element of its process.", "quantifier": "every successful set-up, process, element and number of unknowns per node", "why_tests_cant": "all knot vectors, distributions and process grids; a missing or repeated unknown only shows up as a poor preconditioner", "anchors": ["src/petigapce.c: ComputeOwnedGlobalIndices, PCSetUp_EBE"]}
{"id": "C77", "title": "What an assembly routine evaluates on an element", "statement": "On every element, IGAComputeVector/Matrix/System/Function/Jacobian/IFunction/IJacobian/IEFunction/IEJacobian/RHSFunction/RHSJacobian/I2Function/I2Jacobian call the user function once at every quadrature point of the interior and of every side the element shares with the domain boundary for which a boundary form was requested, with a zeroed array, with the prescribed values in place of constrained unknowns and zero rates there, and produce the sum of what it returns times detJac times weight: for residuals u - v in constrained rows and minus the load in the others, for Jacobians rows and columns of the identity at constrained unknowns, for systems the identity and the prescribed value with the known columns moved to the right-hand side. The result does not depend on what the work arrays contained.", "quantifier": "every Galerkin element, list of boundary conditions and loads, user function, state vectors, and earlier contents of the work arrays", "why_tests_cant": "all boundary condition patterns times all sides, number of points and leftover memory; a stale work array or a missed side only shows for particular meshes", "anchors": ["src/petigaksp.c: IGAComputeVector, IGAComputeMatrix, IGAComputeSystem", "src/petigasnes.c: IGAComputeFunction, IGAComputeJacobian", "src/petigats.c: IGAComputeIFunction, IGAComputeIJacobian, IGAComputeIEFunction, IGAComputeIEJacobian, IGAComputeRHSFunction, IGAComputeRHSJacobian", "src/petigats2.c: IGAComputeI2Function, IGAComputeI2Jacobian", "src/petigapoint.c: IGAPointAddVec, IGAPointAddMat"]}
{"id": "C78", "title": "The assembled Jacobian is the derivative of the assembled residual", "statement": "If at every quadrature point the Jacobian callback returns the derivative of the residual callback (with the shifts a, v applied to rates), then the matrix assembled by IGAComputeJacobian/IJacobian/IEJacobian/RHSJacobian/I2Jacobian is the derivative of the vector assembled by the corresponding function routine with respect to the global vector of unknowns, boundary conditions included, at every state and in every direction; neither depends on the number of processes, the processor grid or the history of the iterators.", "quantifier": "every Galerkin discretisation and decomposition, every differentiable user residual with its derivative, every state and direction, all boundary conditions", "why_tests_cant": "a derivative at every state in every direction; a finite-difference check samples a few", "anchors": ["src/petigasnes.c: IGAComputeFunction, IGAComputeJacobian", "src/petigats.c: IGAComputeIFunction, IGAComputeIJacobian, IGAComputeIEFunction, IGAComputeIEJacobian, IGAComputeRHSFunction, IGAComputeRHSJacobian", "src/petigats2.c: IGAComputeI2Function, IGAComputeI2Jacobian", "src/petigaelem.c: IGAElementFixValues, IGAElementDelValues, IGAElementFixFunction, IGAElementFixJacobian"]}
{"id": "C79", "title": "Work arrays of elements and points", "statement": "Inside the element loop every request for a work vector, work matrix or value array returns an array that is zeroed (or filled) and was not handed out before in this element, whatever was written into the others; up to eight vectors, four matrices and eight value arrays can be requested per element (eight and four per point), any further request and any request outside the loop is refused with an error; the next element starts afresh.", "quantifier": "every sequence of requests, every contents of the arrays, every element and point", "why_tests_cant": "all interleavings of requests and writes", "anchors": ["src/petigaelem.c: IGAElementGetWorkVec, IGAElementGetWorkMat, IGAElementGetValues, IGANextElement", "src/petigapoint.c: IGAPointGetWorkVec, IGAPointGetWorkMat"]}
{"id": "C80", "title": "A zero of the assembled residual solves the boundary-value problem", "statement": "With any conditions set on the form, the residual assembled by IGAComputeFunction (IFunction, IEFunction, I2Function) vanishes exactly if the solution takes the prescribed value at every constrained unknown and the user's weak form, evaluated with the solution itself and without any boundary condition, equals the boundary loads at every other unknown. A vector solves the system of IGAComputeSystem exactly if the same holds for the linear problem. IGAComputeVector and IGAComputeMatrix apply no conditions.", "quantifier": "every mesh, degree, continuity, periodicity, decomposition, sequence of condition calls, user residual, field, iterator history and content of the work arrays", "why_tests_cant": "holds for arbitrary meshes, decompositions and user callbacks; a test solves a few problems to a tolerance", "anchors": ["src/petigasnes.c: IGAComputeFunction", "src/petigaksp.c: IGAComputeVector, IGAComputeMatrix, IGAComputeSystem", "src/petigats.c: IGAComputeIFunction, IGAComputeIEFunction", "src/petigats2.c: IGAComputeI2Function", "src/petigaelem.c: IGAElementFixValues, IGAElementFixSystem, IGAElementFixFunction"]}
{"id": "C81", "title": "Constrained unknowns have rate zero", "statement": "The rate that IGAComputeRHSFunction computes for u' = G(t,u) is zero at every constrained unknown, so that explicit time integration keeps prescribed values; elsewhere it is the user's form evaluated with the prescribed values in place, minus the boundary loads.", "quantifier": "every mesh, decomposition, set of conditions, user function and field", "why_tests_cant": "the rate is zero at consistent fields, which is all a test with consistent initial data sees", "anchors": ["src/petigats.c: IGAComputeRHSFunction", "src/petigaelem.c: IGAElementFixFunction"]}
{"id": "C82", "title": "The structured DMs of a discretisation match its partition", "statement": "IGACreateElemDM, IGACreateNodeDM and IGACreateGeomDM succeed on every process after any successful set-up, have the sizes of the grids of elements, nodes and control points, and give each process the same block as the IGA; a vector of the IGA has the local layout of the node DM, so that the entry accessed through the DM at the indices of an owned node is the coefficient of this node, and what is written this way is what the IGA reads.", "quantifier": "every reachable set-up, number of processes and decomposition, dimension, Galerkin and collocation, periodic or not, field and node", "why_tests_cant": "a test sees few process grids; a swapped direction or width only shows for unequal blocks in several directions", "anchors": ["src/petiga.c: IGACreateSubComms1D, IGACreateDMDA, IGACreateElemDM, IGACreateGeomDM, IGACreateNodeDM", "src/petigavec.c: VecView_IGA, VecLoad_IGA"]}
{"id": "C83", "title": "Drawn samples are values of the discrete field", "statement": "For drawing, every process creates its block of a global grid of samples in which every sample belongs to exactly one process; in each direction the samples start at the beginning of the domain, end at its end and increase, with the requested number per element; every entry written is the value of the spline at its sample point, computed only from data the process holds (no communication, no access outside its arrays). With collocation the samples are the Greville points of the nodes.", "quantifier": "every reachable set-up, number of processes, resolution, dimension, field and process", "why_tests_cant": "samples on element and process boundaries take their data from one of two elements; tests with one process or one resolution do not reach the boundary cases", "anchors": ["src/petigadraw.c: IGACreateDrawDM, IGADrawVec, LagrangePoint, GrevillePoint", "src/petigaprobe.c: IGAProbeSetPoint"]}
{"id": "C84", "title": "The element-by-element preconditioner is the additive Schwarz operator of the elements", "statement": "Setting up the EBE preconditioner for a matrix succeeds whenever the diagonal block of every element on its owned unknowns is nonsingular, and applying it (or its transpose) to any vector gives the sum over all elements of the solutions of these local problems; for a symmetric positive definite matrix it is symmetric positive definite. The entries it reads and writes are in the sparsity pattern of the matrix the library creates.", "quantifier": "every reachable set-up, number of processes, number of components, matrix with values in a field, and vector", "why_tests_cant": "a swapped index or a transposed block only changes how fast a Krylov method converges; no test compares the operator with its definition, and singular blocks depend on the partition", "anchors": ["src/petigapce.c: PCSetUp_EBE_CreateMatrix, PCSetUp_EBE, PCApply_EBE, PCApplyTranspose_EBE"]}
{"id": "C85", "title": "The block preconditioner with overlap is the additive Schwarz operator of the nodes", "statement": "Setting up the BBB preconditioner for a matrix succeeds for every requested overlap whenever the local problem of every node (on the owned unknowns within the overlap of the node) is uniquely solvable, without exceeding the preallocated row length, and applying it (or its transpose) to any vector gives the sum over all nodes of the solutions of these local problems; for a symmetric positive definite matrix it is symmetric positive definite.", "quantifier": "every reachable set-up, number of processes, overlap, number of components, matrix with values in a field, and vector", "why_tests_cant": "wrong blocks only change how fast a Krylov method converges; the preallocation bound is tight only for nodes away from every boundary; singular operators depend on the partition", "anchors": ["src/petigapcb.c: PCSetUp_BBB, PCSetUp_BBB_CreateMatrix, ComputeOverlap, PCApply_BBB, PCApplyTranspose_BBB"]}
{"id": "C86", "title": "Integrals of piecewise polynomials are exact", "statement": "Integrating a function with IGAComputeScalar over the whole parametric domain gives its exact integral whenever the function is, on every element, a polynomial whose degree in each variable is integrated exactly by the rule of that direction; the result does not depend on the number of processes or their grid. With rules that are exact only up to a tolerance (the Gauss-Legendre tables of the library) the error is bounded explicitly.", "quantifier": "every reachable set-up, number of processes, processor grid, knot vectors, rules, and piecewise polynomial integrand", "why_tests_cant": "it needs every element to be visited once, every mapped point and weight to be right and the tensor product loop to pair them correctly, for all knot vectors and partitions; a test checks one mesh against one tolerance", "anchors": ["src/petigaelem.c: IGAElementBuildTabulation", "src/petigacomp.c: IGAComputeScalar", "src/petigabasis.c: IGABasisInitQuadrature", "src/petiga3d.F90: IGA_Quadrature_3D", "src/petiga2d.F90: IGA_Quadrature_2D", "src/petiga1d.F90: IGA_Quadrature_1D"]}
{"id": "C87", "title": "Mass matrices are symmetric positive definite", "statement": "The matrix assembled by IGAComputeMatrix for a mass form (each component separately, the integral of rho N_a N_b with rho positive) is symmetric and positive definite: no nonzero vector of coefficients gives a zero or negative energy. This holds for B-splines and for NURBS with positive weights, with or without geometry (the Jacobian being positive at the quadrature points, which a build with error checking enforces), whenever every direction has more distinct quadrature points with positive weights than the degree.", "quantifier": "every reachable set-up, number of processes, processor grid, periodic or open knot vectors, degrees, rules with more than p distinct points, positive rational weights, geometry, number of components", "why_tests_cant": "positive definiteness quantifies over all coefficient vectors and needs linear independence of the basis on every element at the actual quadrature points; a test factors one matrix", "anchors": ["src/petigaelem.c: IGAElementBuildTabulation, IGAElementNextPoint, IGAElementAssembleMat", "src/petigaksp.c: IGAComputeMatrix", "src/petigabsp.F90: IGA_Basis_BSpline", "src/petiga2d.F90: IGA_BasisFuns_2D", "src/petiga3d.F90: IGA_BasisFuns_3D", "src/petigarat.f90.in: Rationalize"]}
{"id": "C88", "title": "Laplace matrices annihilate exactly the constants, and with Dirichlet conditions the problem has exactly one solution", "statement": "The matrix assembled by IGAComputeMatrix for a form rho grad(u).grad(v) (each component separately, rho positive) is symmetric positive semidefinite, and A x = 0 holds exactly for the fields each of whose components has the same coefficient at all nodes, which is the null space to attach to a pure Neumann problem. If by IGASetBoundaryValue every component has at least one constrained node, the matrix assembled by IGAComputeSystem (with possibly further symmetric terms) is symmetric positive definite, and the discrete problem has exactly one solution, for every right-hand side and all prescribed values.", "quantifier": "every reachable set-up, number of processes, periodic or open knot vectors, degrees and regularity of the knots, rules with more than p distinct points with positive weights, geometry with positive Jacobian at the points, boundary conditions, number of components", "why_tests_cant": "solvability quantifies over all coefficient vectors, meshes and sets of conditions; it needs that a field with zero gradient at the quadrature points is constant on each element, that neighbouring elements share functions, and that constrained rows and columns are eliminated symmetrically", "anchors": ["src/petigaksp.c: IGAComputeMatrix, IGAComputeSystem", "src/petigaelem.c: IGAElementBuildTabulation, IGAElementBuildFix, IGAElementFixSystem", "src/petigamapshf.f90.in: ShapeFunctions", "src/petigamapinv.f90.in: InverseMap", "src/petigabsp.F90: IGA_Basis_BSpline", "src/petigaform.c: IGAFormSetBoundaryValue"]}
{"id": "C89", "title": "The null space of IGACreateRigidBody consists of rigid motions and is annihilated by elasticity matrices", "statement": "The vectors of the null space that IGACreateRigidBody returns are translations and rotations of the domain: d(d+1)/2 linearly independent vectors. Every matrix assembled by IGAComputeMatrix with dof = dim for a form that depends on the displacement through its strain only (linear elasticity, any material) multiplied by any combination of them is zero, so that they can be attached to the matrix as (near) null space.", "quantifier": "every reachable set-up, number of processes, dimension 1 to 3, degrees and regularity of the knots, quadrature rules, material laws given as callbacks", "why_tests_cant": "the product with the assembled matrix is a sum over all elements and points of arbitrary meshes; that it is zero needs that B-splines with Greville points (or control points) as coefficients reproduce the coordinates, for every degree and knot vector and in the PETSc ordering of every distribution", "anchors": ["src/petigansp.c: IGACreateRigidBody, IGACreateCoordinates", "src/petigaksp.c: IGAComputeMatrix", "src/petigaelem.c: IGAElementBuildTabulation", "src/petigabsp.F90: IGA_Basis_BSpline"]}
{"id": "C90", "title": "The callbacks of a form are called with the context they were registered with", "statement": "After any sequence of IGASetForm... (or IGAFormSet...) calls, the assembly routine for a kind of form (vector, matrix, system, function, Jacobian, implicit, second order, explicit-implicit and right-hand side versions) calls the function given in the last call for that kind, with the context pointer given in the same call. A kind that was never set, or was last set to NULL, makes the assembly routine fail (builds with debugging).", "quantifier": "every sequence of setter calls on a form, every kind, function and context", "why_tests_cant": "a property of all histories of setter calls; tests register one set of callbacks in one order, almost always with a single context for all of them", "anchors": ["src/petigaform.c: IGAFormSetVector ... IGAFormSetRHSJacobian, IGASetFormVector ... IGASetFormRHSJacobian", "include/petiga.h: struct _IGAFormOps, IGACheckFormOp", "src/petigats2.c: IGAElementNextFormIFunction, IGAElementNextFormIJacobian", "src/petigats.c: IGAElementNextFormIFunction"]}
{"id": "C91", "title": "The solvers created from an IGA get the residual of the problem and its exact Jacobian", "statement": "A SNES gets the assembled residual and, if the Jacobian callback is exact at every point, the exact derivative of that residual. A TS gets the residual F(t, v0 + shift (u - u0), u) of the stage equation and, if the callback returns dF/dU + shift dF/dV, its exact derivative with respect to the stage u; likewise with the explicit-implicit callbacks (which take precedence), and for second order integrators with rates and accelerations. A KSP set up from an IGA is left with a matrix and a right-hand side that are solved exactly by the fields which take the prescribed boundary values and satisfy the equations elsewhere (system callback), or with the assembled forms (matrix and vector callbacks). Missing callbacks are errors.", "quantifier": "every mesh, discretisation, distribution, boundary conditions, callbacks, stage values, shifts and integrator states", "why_tests_cant": "Newton's method still converges, slowly, with a wrong Jacobian, and the result depends on integrator, stage and shift; the property quantifies over all callbacks and states", "anchors": ["src/petigasnes.c: IGASNESFormFunction, IGASNESFormJacobian", "src/petigats.c: IGATSFormIFunction, IGATSFormIJacobian, TSSetIGA", "src/petigats2.c: IGATSFormI2Function, IGATSFormI2Jacobian", "src/petigaksp.c: IGAKSPFormRHS, IGAKSPFormOperators, KSPSetIGA"]}
{"id": "C92", "title": "IGASetFromOptions gives the IGA what the options ask for, and changes nothing else", "statement": "After a successful IGASetFromOptions on an IGA that is not set up, every setting named in the options database has the requested value: dimension, fields, collocation, derivative order (clipped to 1..4), processor grid, basis types, quadrature rules, and axes that are uniform with the requested degree, number of elements, interval, continuity and periodicity. A single value of an array option holds for every direction, the i-th of several values for direction i. Settings no option names keep their values; without options a configured IGA is unchanged. After the set-up only order, basis types and rules can be set, and an IGA that was set up is set up again. Quadrature options with collocation, and axis options with a file, are refused.", "quantifier": "every IGA, every combination of options and values", "why_tests_cant": "there are fifteen interacting array options, each absent, shorter or longer than the dimension, on every configuration; tests use a handful of command lines", "anchors": ["src/petiga.c: IGASetFromOptions", "src/petigaopts.c: IGAOptionsReject"]}
{"id": "C93", "title": "Jacobians by automatic differentiation are the derivatives of the residual they are made from", "statement": "With the Jacobian callbacks PetIGA::Jacobian and PetIGA::IJacobian made from the same template as the residual callback, and an element of nen nodes with dof fields, entry [a][i][b][j] of the element matrix is the derivative of entry [a][i] of the element residual in unknown [b][j]; for time dependent problems the matrix is dF/dU + shift * dF/dV. Only the entries of the matrix are written. Hence the matrix IGAComputeJacobian (IGAComputeIJacobian) assembles is the derivative of the vector IGAComputeFunction (IGAComputeIFunction) assembles, on any number of processes. An error returned by the residual is returned by the Jacobian.", "quantifier": "every residual template built from arithmetic, differentiable functions and branches, every state, rate, shift, number of nodes and fields, every process grid", "why_tests_cant": "derivatives are limits and the property is about every residual a user may write; tests compare with difference quotients at a few states", "anchors": ["include/petiga/fad/adtype.hpp", "include/petiga/fad/jacobian.hpp: Jacobian", "include/petiga/fad/ijacobian.hpp: IJacobian", "include/petiga/cxx/function.hpp: Function", "include/petiga/cxx/ifunction.hpp: IFunction"]}
{"id": "C94", "title": "The C++ interface runs the callback instance compiled for the sizes of the point, or reports an error", "statement": "A callback template compiled with ranges for dimension, degree and number of fields is run with template arguments equal to the dimension, the number of basis functions and the number of fields of the point, on the arguments of the call, for every point whose dimension (1 to 3), degrees (1 to 5, possibly different per direction) and number of fields (1 to 9) lie in the ranges; for every other point an error is returned and no callback is run. For every choice of ranges the program compiles (no duplicate case labels).", "quantifier": "every choice of the range macros, every dimension, degree combination and number of fields", "why_tests_cant": "125 degree combinations times dimensions, fields and all macro ranges; each combination is a different compilation", "anchors": ["include/petiga/cxx/lookup.hpp", "include/petiga/cxx/function.hpp", "include/petiga/cxx/jacobian.hpp", "include/petiga/cxx/ifunction.hpp", "include/petiga/cxx/ijacobian.hpp", "include/petiga/cxx/system.hpp"]}
{"id": "C95", "title": "The C, C++ and Fortran interfaces evaluate the same fields", "statement": "At a point, the functions returning value, gradient, Hessian, third and fourth derivatives of a field give sum_a N_a^(r) U_a for each field in C, in C++ (for any range of fields) and in Fortran (vector and scalar), and the divergence and Laplacian functions give the sums of the diagonal derivatives; nothing outside the result is written. The C++ arrays F[a][i] and J[a][i][b][j] address row a*dof+i and column b*dof+j of the element vector and matrix. The dot, trace and adv helpers are the usual sums in every dimension. IGA_AtBoundary and IGAPointAtBoundary report the same direction and side. Every component of the Fortran point structure lies where C has put it.", "quantifier": "every number of nodes, fields, dimension and derivative order, every shape function array and field; every size and alignment of the C types", "why_tests_cant": "equality must hold for all inputs and on every machine layout; the three interfaces are never linked in one test", "anchors": ["include/petiga/petiga.hpp: Space::Evaluate, EvaluateDiv, EvaluateDel2, dot, trace", "src/petigaval.F90: IGA_GetValue, IGA_GetGrad, IGA_GetHess, IGA_GetDer3, IGA_GetDer4, IGA_GetDel2", "src/petigaftn.F90: IGAPoint, IGA_Value, IGA_Grad, IGA_Hess, IGA_Div, IGA_Del2, IGA_AtBoundary", "src/petigapoint.c: IGAPointAtBoundary, IGAPointFormValue", "include/petiga.h: struct _n_IGAPoint"]}
{"id": "C96", "title": "Fields are as smooth across the elements as the knots say", "statement": "A field of degree p whose knots inside the domain have multiplicity at most m in a direction is p-m times continuously differentiable in that direction, also across element boundaries, in one, two and three dimensions. At a point on an element boundary the basis tables of all elements touching it give the same value and the same derivatives up to that order, and IGAProbe returns the derivatives of this one smooth function. An axis made with IGAAxisInitUniform or IGAAxisInitBreaks and continuity C (default p-1) gives fields that are C times continuously differentiable. In a periodic direction all derivatives up to order C agree at the two ends.", "quantifier": "all knot vectors, degrees, multiplicities, coefficients, points inside the domain, element choices at shared boundaries, derivative orders up to 4", "why_tests_cant": "continuity of derivatives is a limit statement over all points and coefficients; a test can only compare values at finitely many points with a tolerance", "anchors": ["src/petigaaxis.c: IGAAxisSetKnots, IGAAxisInitBreaks, IGAAxisInitUniform, IGAAxisSetPeriodic", "src/petigabsb.f90.in: BSplineBasisFunsDers", "src/petigabsp.F90: IGA_Basis_BSpline", "src/petigaprobe.c: IGAProbeSetPoint, IGAProbeEvaluate"]}
{"id": "C97", "title": "Polynomials and affine functions of the geometry are reproduced exactly", "statement": "Every polynomial of degree at most p is a B-spline of degree p on any knot vector, with the coefficients given by the blossom of the polynomial (for the identity: the Greville points that IGACreateCoordinates hands out), so a field with these coefficients takes the values and all derivatives of the polynomial at every point of every element, in the tables used for assembly and in IGAProbe, in one, two and three dimensions. With a geometry (control points, NURBS weights, also curves and surfaces in space) the field whose coefficients are t + R.X for the control points X takes the value t + R.x at every point with image x, and its gradient in space is R wherever the map is invertible.", "quantifier": "all knot vectors, degrees per direction, polynomials up to these degrees, control points and weights, affine functions, points and derivative orders", "why_tests_cant": "reproduction is an identity in infinitely many polynomials, knot vectors and points; tests sample a few of them in floating point", "anchors": ["src/petigabsb.f90.in: BSplineBasisFunsDers", "src/petigaprobe.c: IGAProbeSetPoint, IGAProbeEvaluate", "src/petigapoint.c: IGAPointFormGeomMap", "src/petigamapgeo.f90.in: GeometryMap", "src/petigarat.f90.in: Rationalize", "src/petigansp.c: IGACreateCoordinates"]}
{"id": "C98", "title": "Assembled systems give the best approximation, and reproduce data in the space", "statement": "The solution of a system assembled from an element matrix of the form sum of products (mass matrix, Laplacian, elasticity, ...) with the matching right-hand side is the best approximation of the data: among all fields with the prescribed boundary values it minimises the weighted sum over all quadrature points of the squared misfit (minus twice the work of boundary loads). If some field with the prescribed values meets the data at all quadrature points, then the system is solved by it and every solution meets the data. In particular the L2 projection of a polynomial of degree at most p, or, with a geometry, of an affine function of space, has exactly one solution, with the coefficients of C97.", "quantifier": "all IGAs, degrees, knots, quadrature rules with positive weights, element forms, data, boundary values and loads, all competing fields", "why_tests_cant": "minimality quantifies over all fields of an arbitrarily large space; a test can check the residual of one system only", "anchors": ["src/petigaksp.c: IGAComputeSystem", "src/petigaelem.c: IGAElementFixSystem, IGAElementAssembleMat, IGAElementAssembleVec", "demo/L2Projection.c: System", "src/petigapoint.c: IGAPointAddMat, IGAPointAddVec"]}
{"id": "C99", "title": "The Poisson problem of a polynomial in the space is solved exactly", "statement": "Assembling the Laplacian (the sum over quadrature points of grad N_a . grad N_b) with the right-hand side -laplace(g) tested with the basis functions, without a geometry, with all boundary nodes prescribed to the coefficients of g (for instance through IGASetFixTable), where g is a polynomial of degree at most p in each direction, gives a system whose only solution is g itself: the computed field equals g and not just an approximation of it. It holds for all knot vectors that IGA accepts and that interpolate at their ends, for any number of fields, one, two and three dimensions, every number of processes, and every rule exact for polynomials of degree 2p-2 with at least p+1 points.", "quantifier": "all degrees, knot vectors with repeated end knots, polynomials g, quadrature rules of that exactness, process grids and element orders", "why_tests_cant": "a patch test samples one mesh and one polynomial in floating point; the claim is an identity over all meshes and polynomials, and rests on integration by parts across element boundaries, on the smoothness of the basis there and on the exactness of the quadrature", "anchors": ["src/petigaksp.c: IGAComputeSystem", "src/petigaelem.c: IGAElementBuildTabulation, IGAElementFixSystem", "src/petigabsb.f90.in: BSplineBasisFunsDers", "src/petigabasis.c: IGABasisInitQuadrature", "src/petigaform.c: IGASetFixTable", "demo/Laplace.c", "demo/Poisson.c"]}
