# Formal model of PetIGA in Lean 4 — design

## 1. Layout

* `properties.jsonl` — the list of properties (C01, C02, …), in terms of the API.
* `lean/Verif/Model/*.lean` — the model: total, computable Lean functions that follow the C / Fortran
  code function by function. Each definition cites the file and lines it models.
* `lean/Verif/Spec/*.lean` — small independent specifications (what a balanced partition is, what
  Cox–de Boor B-splines are, …). They do not mention the model.
* `lean/Verif/Lemmas/*.lean` — helper lemmas.
* `lean/Verif/Props/*.lean` — the property theorems only, named `Cnn_…`, each with a non-vacuity
  `example` beside it. `_partial` marks a theorem that proves less than the English property;
  `_refuted` marks a proof that the code violates the property (concrete witness).
* `MANIFEST.json` — property → theorem names, status, note.
* `seeded/LOG.jsonl` — mutation log: edited model definitions and which theorems noticed.

## 2. General modelling decisions

* **Integers.** `PetscInt` is modelled by `Int`/`Nat`: no overflow, except in Model/Overflow.lean (C112), where every operation is checked. Where a C variable can be negative
  the model uses `Int`.
* **Reals.** `PetscReal`/`PetscScalar` are elements of an arbitrary (linearly ordered) field `K`:
  exact arithmetic, no rounding, no NaN/Inf. `sqrt`, `pow` and casts from `double` are oracles
  (universally quantified parameters).
* **Memory.** C arrays are lists; an out-of-range read or write is a distinct outcome (`none`, or an
  `ub` constructor), never a default value, in every function where the index depends on input.
  Fortran kernels with fixed array shapes use functions from index types.
* **Errors.** `SETERRQ` is a distinct error outcome (`Except`), separate from undefined behaviour.
* **State.** An in-place update becomes a function returning the new state.
* **MPI / PETSc.** Collective calls are modelled by their documented contract over the list of all
  ranks: `Allreduce(SUM)` is the sum over ranks, `VecScatter` moves entries along the index lists it was
  created with, `AO` is the permutation it was created from, `VecSetValues(ADD_VALUES)` adds,
  `MPI_Scan` gives prefix sums. These contracts are part of the trusted base.

## 3. Trusted base

### 3.1 Logic

1. The Lean 4 kernel.
2. The axioms `propext`, `Classical.choice`, `Quot.sound`. No other axiom is used: no `sorry`, no
   `native_decide`, no `bv_decide`, no axioms of our own. `AXIOMS.md` lists, for every theorem of
   `MANIFEST.json`, the axioms it depends on (output of `#print axioms`).
3. Mathlib's definitions used in statements (`Polynomial`, `HasDerivAt`, `intervalIntegral`, `Matrix`,
   `Finset.sum`, `List.Perm`, …).
4. The reading of the code: every model definition cites the lines of `/repo` it models and says
   where it simplifies.

### 3.2 Contracts of external code

Each is a parameter, a hypothesis or a definition of the model; nothing is proved about PETSc or MPI.

| external code | what is assumed | used by |
|---|---|---|
| `sqrt`, `pow` guess in `IGA_Partition` | nothing: any function (oracle) | C01, C62 |
| `MPI_Allreduce(SUM/MIN/MAX)`, `MPI_Scan`, `MPI_Bcast`, `MPI_Exscan` | sum / minimum / maximum / prefix sum over the list of ranks, copy of the value of the root | C26, C48, C49, C51, C52, C46 |
| `PetscLayout`, `AOCreateMemoryScalable/Basic` | the block of a rank starts at the sum of the sizes before it; the AO is the permutation given by its two lists | C26–C28, C45, C46, C73 |
| `VecScatter` (forward, reverse, `INSERT`, `ADD`) | moves the entries along the index lists it was created with | C27, C28, C50, C73 |
| `ISLocalToGlobalMapping`, `ISCreateStride/General/Block` | the list of indices they are given | C26, C54–C56, C60, C75, C76 |
| `VecSetValues`, `MatSetValues` with `ADD_VALUES`, then assembly | the entry is the sum of everything added by all ranks; negative indices are skipped | C36, C48, C51 |
| `MatPreallocator` / preallocation macros | count distinct columns per row, owned and not owned | C38, C69 |
| `VecView`, `VecLoad`, `PetscViewerBinaryRead/Write` | a binary file is a list of tokens read back in order; a vector is written in its natural order | C45, C46, C73 |
| `MatView`, `MatLoad`, `MatCreateSubMatrix`, `MatCopy` of PETSc | a binary file holds the order and the stored entries; row `i` of the submatrix is row `is[i]`; copying with `SAME_NONZERO_PATTERN` needs equal patterns | C100 |
| PETSc's `DM`: `DMSetUp` calls the type's function once; `DMSetVecType`/`DMSetMatType` keep a copy; `VecSetDM`, `MatSetDM`, `PetscObjectCompose` and `PetscObjectReference` count references | as in the model | C101 |
| `VecStrideMin/Max`, `PetscSortInt`, `PetscBT`, `PetscMemcmp` | minimum / maximum, sorting, bit sets, equality | C46, C54, C60 |
| `DMCreateInterpolation`, `DMCoarsen` of PETSc | not modelled: only the arguments PetIGA gives them | C53, C74 |
| `MPI_Cart_create`, `MPI_Cart_sub`, `MPI_Allgather` | coordinates in row-major order; the ranks with the same other coordinates, in order; the list of what they sent | C82, C83 |
| `DMDACreate1d/2d/3d`, `DMDAGetCorners`, `DMDAVecGetArrayDOF` | fails unless the widths of each direction are positive, add up to the size and match the number of processes (periodic: at least the stencil width); block starts are sums of widths; processes in order of the first direction fastest; arrays indexed inside the corners only | C82, C83 |
| `MatGetValues`, `MatSetValues` into a preallocated matrix with `MAT_NEW_NONZERO_LOCATION_ERR` / `ALLOCATION_ERR` | reads entries of owned rows; fails for an entry outside the pattern resp. for more distinct columns in a row than preallocated | C84, C85 |
| LAPACK `getrf`/`getri` | fail for a singular matrix (or an empty one), else give the inverse, column after column | C84, C85 |
| the options database (`PetscOptionsHasName`, `PetscOptionsGetString`, `PetscOptionsSetValue`, `PetscOptionsPrefixPush`) | a map from names to texts; never fails; conversions to numbers are a parameter | C92, C103 |
| AD number libraries (MiniFAD, Sacado, FADBAD; not in the repository) | a number is a value and a gradient; arithmetic and elementary functions follow the chain rule, comparisons compare values | C93 |
| user callbacks | arbitrary functions (with state and failure where it matters) | C30, C47, C48, C51, C66 |
| `malloc`/`calloc` | never fail; fresh memory has arbitrary content unless `calloc` | C11, C29, C31, C58 |

### 3.3 Idealisations

* Exact arithmetic, except in C110 and C111: `PetscReal`/`PetscScalar` is a field (ordered where the code compares), no rounding,
  no NaN or infinity. C110 and C111 use the standard model of floating-point arithmetic (`Spec.Rounding`): every operation has a
  bounded relative error and keeps the order, there is no overflow and no underflow. Complex scalars are covered only where the theorem is about a commutative ring or field.
* `PetscInt` does not overflow (C112 proves it for the partition, the index computations, the tables and the search for spans under stated bounds, and shows where it does not hold).
* Ranks run in lockstep between collective calls; there is no other concurrency in PetIGA.

### 3.4 What is modelled and what is not

| file | modelled in | not modelled |
|---|---|---|
| `petigapart.c` | `Model/Part` (all) | — |
| `petigaaxis.c` | `Model/Axis` (create, reset, copy, setters, `Init`, `InitUniform`, `InitBreaks`, `SetUp`, `GetSpans`) | reference counting calls (`Model/Ref`) |
| `petigarule.c` | `Model/Rule` (all but the printing) | — |
| `petigabasis.c` | `Model/Span`, `Model/Quad`, `Model/SetUp`, `Model/Assemble` | — |
| `petigabsb.f90.in`, `petigabsp.F90` | `Model/BSpline` | — |
| `petigalgb.f90.in`, `petigaglp.f90.in` | `Model/Lagrange` | — |
| `petigaqdr.F90` | `Model/Rule` (both tables, every digit) | — |
| `petiga.c` | `Model/SetUp`, `Model/Layout`, `Model/Grid`, `Model/Pool`, `Model/Ref`, `Model/DM`, `Model/Options` (`IGASetFromOptions`), `Model/Spmd` (a program on all processes), `Model/View` | printing, the vector and matrix type options |
| `petigagrid.c`, `petigagrid.h` | `Model/Grid` | creation of the PETSc objects themselves |
| `petigavec.c` | `Model/Grid` (`appToPetsc`, transfers), `Model/Pool`, `Model/Coords`, `Model/VecIO` | `VecView` on ASCII viewers |
| `petigaelem.c` | `Model/Elem`, `Model/Form`, `Model/Fix`, `Model/Kernel`, `Model/Point`, `Model/Assemble`, `Model/Area`, `Model/Integrate`, `Model/Tabulate`, `Model/Face` (points, weights and tables of an element) | logging |
| `petigapoint.c` | `Model/Point`, `Model/Kernel` | trivial getters |
| `petigaform.c` | `Model/Form`, `Model/Solver` (callbacks) | — |
| `petiga{1,2,3}d.F90`, `petigarat/mapinv/mapshf/mapgeo/det/inv.f90.in`, `petigaval.F90` | `Model/Kernel`, `Model/Area` | — |
| `petigacomp.c` | `Model/Assemble`, `Model/ErrorNorm` | — |
| `petigaksp.c`, `petigasnes.c`, `petigats.c`, `petigats2.c` | `Model/Assemble` (the element loops), `Model/Driver` (what each loop evaluates on an element), `Model/GlobalDriver` (both together), `Model/Solver` (the functions handed to the solvers), `Model/Wire` (creation of the solvers, options handlers) | — |
| `petigafdjac.c` | `Model/FDJac` | — |
| `petigamat.c` | `Model/Mat` | creation of the PETSc matrix |
| `petigaio.c` | `Model/IO` | the byte format |
| `petigansp.c` | `Model/Coords`, `Model/RigidBody` | the orthonormalisation in `MatNullSpaceCreateRigidBody` (PETSc) |
| `petigaprobe.c` | `Model/Probe` | — |
| `petigapcb.c`, `petigapce.c` | `Model/Block` (index sets), `Model/PCApply` (set-up of the matrix, application) | options, viewing; the matrix types BAIJ, SBAIJ |
| `petigapcbddc.c` | `Model/BDDC`, `Model/Primal`, `Model/Minimal` | complex scalars in the minimal null space |
| `petigapcmg.c` | `Model/PCMG`, `Model/Wire` (`IGAPreparePCMG`) | interpolation of PETSc |
| `petigadm.c` | `Model/FieldIS` | plain forwarding |
| `petigadraw.c` | `Model/DM` (the DM, the sample points, the sampling loops), `Model/Plot` (`IGADraw`) | the viewer and PetscDraw calls |
| `petigaftn.F90` | `Model/Interface` (the point structure, evaluation, position) | the other pointer conversions |
| `petiga.hpp`, `cxx/*.hpp`, `fad/*.hpp` | `Model/Interface` (evaluation, views, helpers, selection of the instance), `Model/FAD` (AD callbacks) | `cxx/ie*.hpp` and `fad/iejacobian.hpp` (they do not compile when used, see findings) |
| `petigaopts.c` | `Model/Opts`, `Model/Options` | the conversion of texts to numbers (PETSc), case folding of names |
| `petigareg.c`, `petscts.c` | — | registration |
| `petigapch2o.c` | `Model/Wire` (when it acts), `Model/Coords` (the coordinates) | PCSetCoordinates |
| `demo/Laplace.c`, `demo/Poisson.c`, `demo/L2Projection.c` | `Model/Demo` (callbacks of the Galerkin branch, boundary conditions) | options, collocation branch, output |
| `demo/NitscheMethod.c` | `Model/DemoNitsche` (callback with its boundary branch, marked sides) | options, solver, error norm, output |
| `demo/BoundaryIntegral.c` | `Model/DemoBoundary` (Galerkin callback, conditions of `main`, `Exact`) | options, collocation callbacks, solver, error norm, output |
| `demo/Neumann.c` | `Model/DemoNeumann` (Galerkin callback, `MassVector`, loads of `main`, shift by the mean) | options, collocation callback, solver, error norm, output |
| `demo/AdvectionDiffusion.c` | `Model/DemoAdvection` (callback, wind, boundary values of `main`) | options, solver, output |
| `demo/Elasticity3D.c` | `Model/DemoElastic` (callback) | boundary values of `main`, solver, output |
| `demo/Poisson1D.c`, `demo/Poisson2D.c`, `demo/Poisson3D.c` | `Model/DemoPoissonDims` (callbacks, boundary conditions) | options, solver, output |
| `demo/LoggChallenge.c` | `Model/DemoLogg` (data, callbacks, boundary conditions) | options, solver, times, output |
| `demo/Bratu*.`, `ElasticRod.c`, `CahnHilliard2D/3D.c`, `PatternFormation.c`, `NavierStokesKorteweg2D.c` | `Model/DemoForms` (residual and Jacobian callbacks) | initial conditions, time stepping, output |
| `demo/HyperElasticity.c` | `Model/HyperElastic` (the models, the callbacks, the choice of the model) | load stepping, output |

## 4. Plan per property

| id | what is modelled | how it is proved |
|----|------------------|------------------|
| C01 | `IGA_Partition` and everything it calls (`Model/Part`), floating point guess as oracle | divisor search invariant: result divides size; mixed-radix bijection |
| C02 | `IGA_Dist1D`, `IGA_Distribute` | arithmetic (`omega`/`nlinarith`), sums over ranks |
| C03 | `IGABeginElement/NextElement/EndElement` as a state machine, composed with C01/C02 | mixed-radix enumeration; unique owner per coordinate |
| C04 | `IGA_NextKnot` on a knot array with checked reads | induction on the scan |
| C05 | `IGAAxisSetKnots` as state transition | scan invariants; acceptance `iff` an independent predicate |
| C06 | `IGAAxisGetSpans` | loop invariant; membership characterisation + strict order |
| C07 | `IGAAxisInitUniform/InitBreaks`, `IGAAxisSetUp` | closed form of the in-place loops, then C05/C06 |
| C08 | same | closed form, translation law |
| C09 | `IGAAxisSetKnots` | refuted by a witness; partial under an end-multiplicity hypothesis |
| C10 | `IGA_FindSpan` | binary-search invariant, well-founded recursion |
| C11–C13 | `BSplineBasisFunsDers` on arrays, `IGA_Basis_BSpline` | loop invariants against Cox–de Boor polynomials (`Polynomial K`) |
| C14 | `Lagrange` kernel | against `Lagrange.basis`; order 4 refuted |
| C15 | `IGA_Greville` | order sums |
| C16 | quadrature tables as exact decimals | moment check by kernel computation over the finite table, lifted to all polynomials by linearity |
| C17 | `IGABasisInitQuadrature` point/weight part | affine map |
| C18, C19 | rule state machine | refuted by witnesses; partial theorems |
| C20, C21 | `IGASetUp_Stage1` (element, geometry and node partitioning) | telescoping over ranks using strict monotonicity of spans |
| C22 | set-up state machine with failing stages | refuted by a witness history; partial |
| C23 | `IGAElementNextForm` | finite state machine, loop characterised as a filter |
| C24 | `IGAElementBuildClosure` | mixed radix |
| C25 | `IGAElementGetIndices` | refuted |
| C26–C28 | `petigagrid.c` index lists, scatters by contract | bijections, sums |
| C29 | vector pool state machine | invariant over operation lists |
| C30 | boundary tables | refinement to a finite map, invariant over operation lists |
| C31 | `IGAFormReset` over an explicit memory layout | refuted |
| C32, C33 | `AddFixa`, `AddFlux`, `BuildFix` | invariants of the list building loops |
| C34, C35 | `FixSystem/FixFunction/FixJacobian/FixValues` | loop invariant over the fix list; linear algebra |
| C36 | combination of C06, C20, C32 | spans strictly increase ⇒ interior elements miss the end nodes |
| C37 | collocation branch of `BuildFix/FixSystem` | refuted; partial |
| C38, C39 | `Stencil`, `ColumnIndices` | via C04 |
| C40, C41 | `Rationalize`, `InverseMap`, `ShapeFunctions`, `GeometryMap` | identities in a field with commuting derivations; order 4 refuted |
| C42 | `TensorBasisFuns` 1D/2D/3D | entry-by-entry against product-rule specification |
| C43 | determinant / inverse kernels | `ring`/`field_simp` |
| C44 | `IGA_GetNormal` | algebra, `sqrt` by its defining property |
| C45, C46 | `IGASave/IGALoad`, geometry | token-stream round trip; periodic flag refuted |
| C47 | FD Jacobians | state-passing model of the callback; refuted for accumulating callbacks; partial |
| C48 | `IGAComputeScalar` | sum over ranks = sum over grid via C03 |
| C49 | `IGAComputeErrorNorm` table access | refuted |
| C50 | `IGACreateCoordinates` | refuted for nsd ≥ 2; partial |
| C51 | element assembly | sums over disjoint ownership |
| C52 | `IGAProbeSetPoint` | via C10, C20, C21 |
| C53 | `CoarsenFactor`, level loop | divisibility, descent |
| C54, C55 | BDDC masks and colours | fold invariants, mixed radix |
| C56 | field index sets | arithmetic |
| C57 | setter state machines | case analysis, induction over histories |
| C58 | refcount machine | induction over histories |
| C59 | `IGAClone` | field-by-field |
| C60 | `ComputeOverlap` | index arithmetic |
| C61 | value/gradient kernels | linearity of sums |
| C62 | `IGA_Partition` with the cost it minimises | two directions: the search visits every divisor; three: refuted |
| C63 | `IGAAxisInit` | refuted by a witness; partial |
| C64 | `IGARuleSetRule` with user points | refuted for weights that are not positive; partial |
| C65 | point loop of an element (`BeginPoint/NextPoint`) with pointer offsets | induction over the calls; refuted for `nsd ≠ dim` |
| C66 | `FixFunction/FixJacobian` of collocation rows | derivative of the row of the residual; refuted when the point does not interpolate |
| C67 | `IGASetUp` as a whole | stage by stage, from any history |
| C68 | `IGABasisInitCollocation` | C10, C11, C15 |
| C69 | unblocked preallocation counts | counting of `List.filter` |
| C70 | gradient and inverse gradient of the geometry map (`IGAPointFormGradGeomMap`, `IGAPointFormInvGradGeomMap`) | `field_simp` |
| C71 | tensor product, rationalisation, geometry map and shape functions chained as in `IGAElementTabulation` | composition of C12, C40–C43 against real derivatives |
| C72 | `BoundaryArea_2D/3D`, loads of `IGAFormSetBoundaryLoad` | analytic derivative of the boundary map; sums; refuted for consistency and manifolds |
| C73 | `IGALoadVec`, `IGASaveVec` | C28 and the file contract |
| C74 | levels of `PCMG` against the DMDA requirement | C53; refuted for the coarsest |
| C75 | `IGAComputeBDDCGraph` | mixed radix, membership |
| C76 | `PCEBE` index sets | C20, C21, C24 |
| C77 | the 13 element evaluations of the assembly routines with their work arrays, form and point loops | induction over points and visits, C23, C34, C35 |
| C78 | the same inside the global loops | C51, C77; the derivative of an element residual is the element Jacobian (constrained rows and columns included), then sums are exchanged |
| C79 | work array counters | induction over requests |
| C80 | the drivers with the lists built for any history of condition calls (`Built`) | the lists are those prescribed at the nodes (C36); every node has an element; the residual at a constrained unknown is (number of elements)·(u−v), elsewhere weak form minus loads; free rows of the system get their columns back |
| C81 | `computeRHSFunction` | same residual formula; refuted: the rate at a constrained unknown is k(u−v) |
| C82 | `createDMDA` with its sub-communicators and gathered widths, on all processes; local arrays of a `DMDA` | the ranks of each sub-communicator are a line of the process grid, so the gathered widths tile the direction; the order of the local array is that of `flat` |
| C83 | `drawDM`, `lagrangePoint`, `grevillePoint`, the sampling loops with `localPoint` | tilings of the samples by arithmetic; the element of a sample belongs to the process, its closure is in the ghost region (C24, C52); values by C61 |
| C84 | `ebeSetUp`, `ebe`, `apply`, `applyTranspose` | what is added is a sum of inverses of submatrices, so its action is a sum of local solutions; covering blocks give positive definiteness; the coupling of C38 contains every element |
| C85 | `bbbSetUp`, `bbb` | as C84 with the index sets of C60; two nodes in one block differ by at most twice the overlap, hence at most Π(4o+1) columns per row |
| C86 | `dirPoints`, `tensorPoints`, `elemPoints` (from `Model/Quad`) in `computeScalar` (C48) | the sum over the points of an element factors over the directions; substitution `x ↦ a + (x+1)(b-a)/2`; the elements of a direction are the non-empty knot intervals (C06) and cover the domain; Fubini is not needed, the iterated integral of a sum of products is computed directly |
| C87 | `basisFuns`, `tabulatePoint`, `tabulateElement` (from `elemPoints` and the kernels of `Model/Point`) in `computeMatrix` (C77) | the B-splines of an element are polynomials there, `p+1` of them, linearly independent and zero only if they vanish at more than `p` points; tensor product by induction over the directions; NURBS by multiplying with the weight function, positive since B-splines are non-negative and sum to one; the global quadratic form is the sum of the element forms |
| C88 | as C87, with the fix lists of `build` (C36) and `computeSystem` (C77) | first derivatives of the B-splines of an element vanish at more than `p` points only for constant coefficients (differences of the coefficients along each direction); the gradient in space is an invertible image of the parametric one; consecutive elements share a function (`connected`); element forms with constrained rows and columns split into squares of the constrained coefficients and the form of the free ones; positive definite matrices are nonsingular |
| C89 | `Model/RigidBody`: `createRigidBody` on top of `createCoordinates` (C50), the vectors of `MatNullSpaceCreateRigidBody` by contract; the matrix as C87 | B-splines with Greville points (or the control points of the map) as coefficients have the gradient `1` at all points (`net_gradient`), so the strain of a rigid motion vanishes; independence from the first and last Greville point of each direction; completeness: zero energy is zero strain at the points, hence (tensor polynomials, `Lemmas/TensorPoly`) on the element, hence zero second derivatives and a rigid motion per element, and neighbours share enough nodes to have the same one; with a geometry the coordinates of C50 give a field that is not rigid; with a periodic direction the energy of the elastic form is a sum of squares of strains, and if it vanished the Greville points would have slope one all the way round |
| C90 | `Model/Solver`: the record of callbacks and contexts, the setters, the tables telling where a context is stored and read, the check of the assembly routines | induction over the sequence of setter calls; the two tables agree up to the shared entries, by cases |
| C91 | `Model/Solver`: the functions handed to KSP, SNES and TS on top of the assembly loops of C78/C80 | C78 with the residual callback at shift 0; the stage relation makes the derivative along the pair (rate, state) the derivative with respect to the state; KSP from C80 |
| C92 | `Model/Options`: `IGASetFromOptions` step by step on the IGA object of `Model/SetUp`; the options database is a record of optional values, array readers by their PETSc contract | per-direction loop lemma (each step changes only its direction), then C07 for the axes; `C92_keep_refuted` and `C92_basis_refuted` show what is not kept |
| C93 | `Model/FAD`: AD numbers as value and gradient with the operations of the chain rule, seeding and extraction of `adtype.hpp`, the callbacks `Jacobian` and `IJacobian`; residual templates as expressions evaluated in both number types | tangent invariant by induction over the expression: value and gradient along a curve are the value and `HasDerivAt` of the real program; with C78 for the assembled matrix |
| C94 | `Model/Interface`: macros, case labels of the three nested `switch`es, the call | the listed degree combinations cover all products (whole table, `decide +kernel`, with the extremes kept inside the range), lifted to every range |
| C95 | `Model/Interface`: loops of the three interfaces over flat arrays, layout of the two structures | loop invariants giving finite sums; layout by induction over the components for arbitrary sizes and alignments |
| C96 | the basis tables (`Model/BSpline`) and the probe (`Model/Probe`) | the difference of the polynomials of two neighbouring elements is divisible by `(T-ξ)^(p-μ+1)` (the recursion of the pieces raises the order by one per degree), so derivatives agree and pieces glue to a `C^(p-μ)` function; multiplicities of the knots of `initUniform/initBreaks` from C07; the periodic case by translation of the knots |
| C97 | the basis tables, the assembly tables of an element and the probe as in C86 and C96; the geometry kernels of C42 | Marsden's identity by induction over the degree for every knot vector, with the monomials read off as coefficients in the polynomial variable; tensor products by distributing sums; for the geometry: (rational) basis functions sum to one and the map is the combination of the control points with the same functions |
| C98 | as C80 and C87: `computeSystem` with the element callback filling Gram matrix and load | completion of the square over the quadrature points: the equations of the free unknowns say that the derivative of the misfit vanishes in every direction with zero prescribed values (`weak_identity`); exactness from a misfit of zero; uniqueness and the L2 projection from C87 and C97 |
| C99 | as C98, with the points of an element as the product of those of the directions | the sums over elements and points factor into sums over the directions; in one direction, the rule integrates `(N P')'` exactly and the values at the element ends telescope, because consecutive pieces of a B-spline agree at the common knot (the knot checks of `IGAAxisSetKnots` allow multiplicity `p` at most) and inner functions vanish at repeated end knots; uniqueness from C88 |
| C100 | `matViewMPI`, `matLoadMPI`, `createOps`, `duplicate`, `indexSet` | the index sets of the ranks concatenate to the node numbering of C26 and its inverse; the columns of a row (C38) do not depend on the decomposition; induction over the chain of duplications |
| C101 | `PetIGA.DMI`: IGAs, `DM`s, vectors and matrices with counters, `createD`, `setUpD`, `loadD`, `setIga`, `deriveD`, `destroyI`/`destroyD`/`destroyO`, `step`, `run` | invariant "every counter is the number of references" by induction over programs, with pending references inside a call; second invariant "type strings are the IGA's own" for defined behaviour; four refuted statements with concrete programs |
| C102 | `PetIGA.Demo`: the callbacks `laplace`, `poisson`, `project` as loops over the point arrays and the boundary conditions of the programs | the loops fill the element arrays with a Gram form and a load form (`fills`, `gramForm`, `loadForm`); then C87/C88/C98 for positive definiteness and the minimum, `C97` for exactness; a lemma computes which node is prescribed and with which value |
| C103 | `PetIGA.Opts`: the options database as a map from names to texts; `setAlias`, `default`, `reject`, `getOpt`, `getOptString` with the 1024 character buffers | case analysis for one call; induction over the list of alias calls for whole programs (options distinct, none used as an alias); values of more than 1023 characters and kept texts refuted |
| C104 | `PetIGA.Frm`: the residual and Jacobian callbacks of Bratu, ElasticRod, CahnHilliard2D/3D, PatternFormation and NavierStokesKorteweg2D as loops over the element arrays | the loops write each entry once (`fillVec_at`, `fillMat_at`, `addMat_at`); the fields are affine in the direction; the chain rule of Mathlib gives the derivative, `ring`/`field_simp` identify it with the matrix; `C78_function_at`, `C78_ifunction_at`, `C78_iefunction`, `C78_i2function` lift it to the assembled objects |
| C105 | `PetIGA.Hyp` (Model/HyperElastic.lean): the five constitutive models of demo/HyperElasticity.c entry by entry, `DeltaE`, `Residual`, `Jacobian`, the choice of the model in `main` | derivatives of `J`, `FᵀF` and its inverse along a line (`Kin`, matrix algebra), then each stress is a polynomial in them: chain rule and `ring`; `C78_function_at` and `C106_gradient` lift to the assembled objects; rotation invariance of `J`, `C`, `C⁻¹`; energies stated with `Matrix.det`, `trace`, inverse |
| C106 | `Drv.totalEnergy` (specification) over the element model of C77/C78 | element potential differentiates to the element residual (`potential_deriv`), the work of an assembled vector is the sum of the works of the element vectors (`sumVec_work`) |
| C107 | the callbacks of Model/DemoForms.lean through the drivers of Model/GlobalDriver.lean; `Frm.rowSum`, `Frm.fieldIntegral`, `Frm.domainIntegral` as specification | partition of unity of the tabulated functions up to second derivatives (`Itg.shape_sums`, from C12/C13 through the tensor product, rational functions and the map), then the rows of a point add up to the sum of the callback over the nodes |
| C108 | `VIO.view`, `VIO.load` on top of the node `DM` of C82 (Model/VecIO.lean); `VIO.nodeFile` as specification | the parts of the vector are the corner boxes of the `DM` (C82), looking a node up in the piece that owns it gives the field; `nodeFile` is the image of a numbering, so it is compared with the file of C73 entry by entry |
| C109 | `Plt.draw` (Model/Plot.lean): the list of PetscDraw calls of `IGADraw` | the edges of the rectangles are a strictly increasing sequence indexed by the process grid (from the element and node tilings), so a point lies in one cell per direction; lines by induction over the knot loop |
| C110 | `Flt.*` (Model/Float.lean): the Cox–de Boor triangle, the tensor products, `Rationalize` and `IGA_GetValue` with every operation followed by a rounding `fl`, optional contraction and any order of summation (`Flt.Order`); `Spec.Rounding` is the standard model of floating-point arithmetic | all quantities of the triangle are sums, products and quotients of numbers that are not negative, the differences of knots are single operations: the relation `Near h k x y` (`y` is `x` up to `k` roundings) is carried through the loops; fields by the absolute bound `Err`; `Spec.binary_rounding` shows that rounding to `t+1` binary digits is an instance |
| C111 | `Flt.uniformBreak`, `Flt.initUniform`, `Flt.greville`, `Flt.quadPoint` | error bounds as in C110, monotonicity of the rounding for order; the unconditional claims are refuted with `binary 52` by evaluation in the kernel |
| C112 | `Ovf.*` (Model/Overflow.lean): the same functions as in `Part`, `Grid`, `Elem`, `Ax`, with every addition, subtraction and multiplication of `PetscInt` checked against the largest integer `w`; overflow is `Res.ub` | the checked functions return exactly what the unchecked ones return, by bounds on every intermediate result; the set-up delivers these bounds (`C112_after_setup`); refutations with `w = 2^31-1` by evaluation in the kernel |
| C113 | `Vw.*` (Model/View.lean): the loop over runs of equal knots of `IGA_ContinuityString`, the counts and reductions of `IGAPrint` over the layouts of all processes, the dispatch of `IGAView` | induction over the runs (the run of `IGA_NextKnot` is the multiplicity), so the result is the least and greatest continuity; the blocks of the partition are a permutation of the grid, hence the sums; case analysis; refutation by evaluation |
| C114 | `Wir.*` (Model/Wire.lean): solvers as records of what connects them with an IGA, the creators, the option handlers, `IGAPreparePCMG`; histories of calls; PETSc's propagation between the objects as a contract | invariant over histories (handlers stay, operators are the last ones set, no foreign DMIGA), then case analysis of the handler; refutations by evaluation for every IGA |
| C115 | `SetUp.program` (Model/Spmd.lean): the calls of the life-cycle model on the object of one process, up to the first failure | each call commutes with forgetting the local parts of the object; the outcome of the layout does not depend on the rank (C01, C20); induction over the program with the invariant that all axes are reachable |
| C116 | `BDDC.primal`, `primalIS` (Model/Primal.lean): the table of eight corners, the entries struck out, the sorted index set | specification by planes (`plane`, `Vertex`); the overlaps of neighbours from the layout theorems (C20, C81); order and uniqueness by comparing planes modulo the number of nodes; refuted for collocation |
| C117 | `Itg.tabulateElement`, `Prb.evaluate` (no new model) | tensor products of non-negative pieces (C12, C13), rationalised with positive weights, sum to one: bounds by `Finset.sum_le_sum`, hull by `Convex.sum_mem`; probes through C52 |
| C118 | `BDDC.orthonormalize`, `minimalVecs`, `midOf`, `fixOf`, `marked`, `fat`, `marks`, `mask` (Model/Minimal.lean) | Gram-Schmidt invariant over the list (orthogonal, unit or zero, equal prefix spans); the mask by counting processes that use a node and planes through it, with the plane theorems of C116; refuted by three concrete set-ups |
| C119 | `Itg.endPoints`, `acrossPoints`, `faceDirs`, `facePoints`, `tabulateFace` (Model/Face.lean) | the tables of a side are the tensor product of the end of the domain and the rules of the other directions (`face_tabulated`); a clamped B-spline basis is 1 on the side's function and 0 on the others (`bpoly_side`), so values on the side depend on its coefficients only; the integral by inserting the end point into the tensor rule. The unclamped case is refuted by a uniform knot vector |
| C120 | the models of C80 and C119 together (Props/SideValue.lean) | every node of a side is constrained by the value of the side or of a later direction (`side_prescribed`: search order of `IGAElementBuildFix`); a solution of the assembled problem has those coefficients (C80) and the trace of a field on a clamped side depends on them only (C119) |
| C121 | the models of C71 and C119 together (Props/Green.lean, Props/GreenField.lean) | the sum over the mesh is rearranged to lines of one direction (`sum_mesh_elem`); along a line the rule gives the integral of a derivative, which telescopes over the elements because the field is continuous (`line_telescope`; for fields of the tables `along_match`: B-splines agree from both sides of a knot of multiplicity ≤ p); the ends are the points of the two sides, with the normal `flatNormal` |
| C122 | `System` of demo/NitscheMethod.c with its interior and boundary branch (Model/DemoNitsche.lean) through the drivers of C77–C80, points of the interior and of the sides as in C71 and C119 | the field of the coefficients of Σ x_i² is Σ x_i² with its derivatives at all points (C86, `reproduces_of`); the residual tested with any field is then ∫ ∇u·∇w − ∫_sides (∂_n u) w − ∫ f w, which C121 turns into ∫ (−Δu − f) w = 0; `AtFree` of C80 gives the equations |
| C123 | the drivers of C77 and C78 with their global assembly (Props/Symmetric.lean holds the specification: `SymArray`, `NonnegArray`, `SymMat`, `NonnegMat`) | the assembled matrix is the sum of the element matrices over shared nodes (`sumMat`), which keeps symmetry (`sumMat_symm`); its quadratic form is the sum of those of the elements (`global_form`), and the one of an eliminated element is the squares of the constrained unknowns plus the integral of the form on the free ones (`elemForm_fixed`) |
| C124 | the same program; `Degree`, `NormalMeshSize` and `IGAPointFormInvGradGeomMap` for the penalty | Props/NitscheEnergy.lean: the quadratic form is the energy of the field (`C124_energy`), evaluated for Legendre's polynomial of degree 6 (`C124_indefinite`); Props/NitscheDefinite.lean: the sharp inverse inequality h (q(a)² + q(b)²) ≤ p(p+1) ∫ q² for degree p−1 ≤ 3 (`ends_bound`), completion of the square at the two ends of every line of the mesh (`line_bound`), summed over the lines of each direction (`direction_bound`, `energy_directions`); zero energy gives a zero gradient, a constant field (as in C88) and zero values on the sides |
| C125 | demo/BoundaryIntegral.c: `Laplace`, `Neumann`, `System`, `Exact`, the conditions of `main` (Model/DemoBoundary.lean) | Props/DemoBoundary.lean: the nodes of one side have the value 1 and the others are free (`boundary_prescribed`); Green's formula of C121 for the linear function, whose weak residual vanishes for every test field that is zero on that side (`boundary_residual`, with the trace of C119); two solutions differ by a field of zero energy, hence constant (`flat_constant`), hence zero (`boundary_unique`) |
| C126 | demo/Neumann.c: `Solution`, `Forcing`, `Flux`, `SystemGalerkin`, `MassVector`, the loads of `main`, `VecDot` and `VecShift` (Model/DemoNeumann.lean) | Props/DemoNeumann.lean: loads prescribe no value, so the matrix of `IGAComputeSystem` is the one of `IGAComputeMatrix`, to which C88 applies; the vector through C80 and `sumVec_work`; the shift through the partition of unity (`shape_sums`) |
| C127 | the same model, with the lists of loads of `IGAElementBuildFix` and the areas of C72 | Props/NeumannRhs.lean: a symmetric system is solvable iff the right-hand side is orthogonal to the null space (C126); the sum of the entries through `sumVec_rows`, the partition of unity and `C72_mesh_load` |
| C128 | demo/AdvectionDiffusion.c: `System`, `ComputeWind`, the boundary values of `main` (Model/DemoAdvection.lean) | Props/DemoAdvection.lean: at a field that vanishes at the prescribed nodes, the transport term integrates to half the boundary integral of its square (C121), which is zero: on the two sides of a direction with wind the trace vanishes (C119), on the others the normal has no component along it. So the quadratic form is the one of the Laplace matrix with the same conditions, positive by C88. C128_weak from C80, C128_sides from C120 |
| C129 | demo/Elasticity3D.c: `System` with its nine assignments per pair of nodes (Model/DemoElastic.lean) | Props/DemoElastic.lean: each entry is bilinear in the two gradients, so the sums over the nodes turn into the displacement gradients and the identity is one of polynomials; the rotation about the third axis is in the space because the tables reproduce linear functions (C99); symmetry and sign of the assembled matrix from C123 |
| C130 | demo/LoggChallenge.c: `Forcing`, `Solution`, `System`, `Exact`, the conditions of `main` (Model/DemoLogg.lean) | Props/DemoLogg.lean: second derivatives of the sine; the system as in C102 (Dirichlet form C88, minimum C98) with the forcing in the load; the position of a point is the `position` of Model/Demo.lean |


## 5. Findings: where the code does not do what the property says

Every item is a theorem with the suffix `_refuted` (a concrete input on which the model of the code, as
written, violates the statement) unless it is marked *reading*.

1. C09 `IGAAxisSetKnots` accepts knots whose domain is a point: the axis has no element.
2. C10, C20, C21 `IGA_FindSpan` at the left end returns an empty span when the first domain interval is empty; then node 0 is owned by no process.
3. C14 spectral bases have coincident nodes from degree 10 on; fourth derivatives of the Lagrange basis are stored as zero.
4. C18, C59 the reduced rule loses a point every time the rule is set up; a clone has other tables than the original.
5. C19 `IGARuleSetSize` fails half-way; repeating the call succeeds with zero weights.
6. C21 periodic collocation with few nodes has ghosts that wrap to a negative node.
7. C22 `IGASetUp` marks the object as set up before it has succeeded: a retry reports success and does nothing.
8. C25 `IGAElementGetIndices` never stores the row map.
9. C28 collocation on some non-uniform periodic axes leaves part of the index arrays of the natural scatter uninitialised.
10. C29 a vector held across a reset and restored later is handed out with the wrong size.
11. C31 `IGAFormReset` writes past the end of the form.
12. C37 collocation honours conditions on periodic sides, writes out of bounds for a field `≥ dof`; linear systems ignore the fix table.
13. C38 missing columns for periodic knot vectors that do not repeat; MATIS with periodic collocation reads out of bounds.
14. C40, C41, C71 fourth derivatives of rational and mapped functions are zero.
15. C44 (statement needs it) the normal points inwards when the map reverses orientation.
16. C45 the periodic flag is not saved.
17. C46 the rational flag is lost when the weights differ by less than the tolerance.
18. C47 finite difference Jacobians of callbacks that accumulate are wrong; the input stays perturbed after a failure.
19. C49 `IGAComputeErrorNorm` with order above 4 reads outside its table.
20. C50 `IGACreateCoordinates` reads `xyz[index+c]`.
21. C52 collective probes with collocation find no owner for points in intervals without a collocation point; raising the order after setting the point uses stale tables; periodic collocation reads out of bounds.
22. C54, C55, C75 BDDC lists miss ghosted nodes with collocation; a negative start with an unsplit periodic direction.
23. C56 `DMCreateFieldIS` starts its stride at the field number on every process.
24. C57 the degree of an axis can be changed until its knots are given.
25. C60 the last process of a non-periodic direction leaves its last nodes out of all blocks; *reading:* `PetscFree2` on separately allocated arrays (also `petigapce.c`).
26. C62 the automatic grid is not optimal with three directions (630 processes on 9×7×14).
27. C63 `IGAAxisInit` stores the degree before it validates the knots.
28. C64 a user rule with a weight that is not positive is accepted, but the basis is not tabulated at its points.
29. C65 the point loop uses strides of `dim` where the tables have `nsd`.
30. C66 the Jacobian row of a collocation condition is not the derivative of the residual row if the point does not interpolate its node.
31. C67 changing the axes or the processor grid between two set-ups leaves a stale distribution.
32. C72 boundary loads give every node of a side the same share; the area kernels read the control points of a manifold with the wrong stride.
33. C74 the coarsest multigrid level can have fewer nodes than processes.
34. C76 with a wrapped direction of few nodes the same index appears twice in a block.
35. C81 `IGAComputeRHSFunction` writes `u−v` (times the number of elements) into constrained rows of a rate: values off the prescribed ones are driven away exponentially; *reading:* in an IMEX splitting with `IFunction` the constrained row becomes `k(u−v) = k(u−v)`.
36. C84 with a periodic direction of few nodes the set-up of `PCEBE` fails with a zero pivot for every matrix (consequence of 34).
37. C84 with collocation the set-up of `PCEBE` fails for every matrix: its blocks need couplings outside the pattern of the matrix.
38. C85 on the last process of a distributed direction the nodes left out by 25 make `PCBBB` singular: the result is zero there whatever the argument.
39. C89 with a geometry of dimension two or three `IGACreateRigidBody` inherits the wrong coordinates of 20: the rotations are not rigid motions of the control points (`C89_geometry_refuted`); with one direction periodic and another not a rotation jumps at the seam, so the elastic matrix does not annihilate it (`C89_periodic_refuted`).
40. C90 `IGASetFormI2Function` stores its context in `IFunCtx` and `IGASetFormI2Jacobian` in `IJacCtx`, the pointers of `IGASetFormIFunction` and `IGASetFormIJacobian`: whichever is registered first is called with the wrong context.  *Reading:* `IGAKSPFormOperators` never assembles `B` when it is not `A`, unlike the SNES and TS routines; the dispatch of `IGATSFormIJacobian` looks at `IEFunction`, so an `IEJacobian` without `IEFunction` is ignored.
41. C92 with only one of `-iga_elements` and `-iga_degree`, `IGASetFromOptions` gives every direction the other quantity, the interval and the continuity of direction 0: `(i<ne) ? elems[i] : elems[0]` with `ne = 0` ignores the values of the directions that were read into `elems` (`C92_keep_refuted`: 4 and 8 elements with `-iga_degree 3` become 4 and 4). For the same reason `-iga_basis_type bspline,lagrange` builds smooth knots for the Lagrange direction, and `IGASetUp` fails (`C92_basis_refuted`).
42. C92 `-iga_limits` and `-iga_continuity` are ignored without a message on axes that have knots, unless `-iga_elements` or `-iga_degree` is given too (`C92_no_options`).
43. C93 the Jacobians made by automatic differentiation call the residual without looking at its return value: an error is dropped and the matrix is filled from whatever the residual left (`C93_errors_refuted`). They write `(nen*dof)²` entries, but with collocation the matrix of a point has `dof*(nen*dof)` (`C93_collocation_refuted`). *Reading:* `cxx/iefunction.hpp` calls the `IFunction` template, `cxx/iejacobian.hpp` uses an undeclared `J`, `fad/iejacobian.hpp` has conflicting template deductions: none of them compiles when instantiated.
44. C95 `Space::Evaluate<offset,num>` does not check `offset+num ≤ dof` (`C95_offset_refuted`); `IGA_Div` of the Fortran module returns an array of `dim` copies (`C95_div`). *Reading:* `IGA_Property` is declared real although the properties are scalars (wrong in complex builds); `IGA_Normal` has `dim` entries, not `nsd`; `GetGeomMap` of the C++ interface converts to an array type that only fits `nsd = dim`.
45. C101 `DMCreateGlobalVector_IGA`, `DMCreateLocalVector_IGA` and `DMCreateMatrix_IGA` put the `DM`'s type string into the IGA and return through `CHKERRQ` without restoring it when the creation fails: the IGA then creates objects of the `DM`'s type (`C101_types_kept_refuted`) and releases a string it does not own (`C101_defined_refuted`).
46. C101 `DMSetUp_IGA` overwrites a vector or matrix type chosen with `DMSetVecType`/`DMSetMatType` (`C101_type_choice_refuted`); `IGAClone` does not copy `vectype` and `mattype`, so a cloned, coordinate or sub-`DM` creates objects of the default types (`C101_derived_types_refuted`).
47. (read, not modelled) `src/petigapch2o.c` contains `#define "h2opus"` under `#ifndef PCH2OPUS`, which no preprocessor accepts.
48. C103 `IGAOptionsAlias` copies the value through a buffer of 1024 characters: longer values are cut without an error (`C103_alias_refuted`); `IGAGetOptString` returns a pointer to one static buffer, so the next call changes a text already returned (`C103_string_refuted`).
49. C105 demo/HyperElasticity.c writes `1/3`, `2/3`, `4/3`, `2/9` and `pow(J,-2/3)` with integer literals, which C truncates to 0, 0, 1, 0 and exponent 0. In `GeneralModel`, the default, the
   projection becomes the identity: stress and tangent are still consistent, but the undeformed body is under the stress `μ I` (`C105_rigid_refuted`, `default_stress`). In
   `MooneyRivlinModel2` the tangent is not the derivative of the residual (`C105_tangent_refuted`). The option `-mooneyr2` computes coefficients but never selects that model
   (`C105_mooneyr2_ignored_refuted`).
50. C108 with a periodic direction `VecView` writes the independent nodes only, `IGASaveVec` also the repeated ones: the files have different lengths and `IGALoadVec` refuses a file of `VecView` (`C108_periodic_refuted`).
51. C85 the window of `PCBBB` has no room below the first node of a periodic direction (Galerkin): node 5 of six has node 0 in its block, but not the other way round (`C85_seam_refuted`); with no more than twice as many nodes as the overlap a block lists a node twice and setting up fails with a zero pivot for every matrix (`C85_repeated_refuted`).
52. C111 in double precision: `IGAAxisInitUniform` accepts four elements between `2^53` and `2^53+2` and makes an empty first element (`C111_uniform_refuted`); the last Greville abscissa, hence collocation point, of a cubic axis on `[0, 0.1]` lies outside the domain (`C111_greville_refuted`); the last Lobatto point of the element `[0.3, 0.9]` lies behind it (`C111_lobatto_refuted`).
53. C112 with 32-bit indices `IGA_CUT2D` overflows for 2^20 × 2^10 elements on 4099 processes (`C112_partition_refuted`), the size of the table of basis functions, which every process computes for the whole axis, for ten million elements of degree 6 in one direction (`C112_tables_refuted`), and `low+high` in `IGA_FindSpan` for 2^31 knots (`C112_findspan_refuted`), although all unknowns can be numbered.
54. `IGA_ContinuityString` begins counting at index `p+1`, so a domain that begins inside a repeated knot (legal: `-1 -1 0 0 1 1 2 3 3`, degree 2) is reported with a wrong continuity (C113).
55. `IGACreateKSP`, `IGACreateSNES`, `IGACreateTS` compose the IGA with the solver, but the handler that prepares multigrid, BDDC and H2OPUS looks for it at the preconditioner, its DM and its matrix: options processed before the operators are set choose a multigrid preconditioner without grids (C114).
56. C116 with collocation `IGAPreparePCBDDC` gives the same primal vertex to two processes: with three processes and one node each, the second and the third both list the last node (`C116_collocation_refuted`).
57. The mask of `-iga_set_bddc_minimal` uses `fix[0]` for all three directions and treats the end of the domain as an overlap: the last node of a line is masked out even on one process, and with a direction of degree 1 divided behind a direction of degree 2 all nodes of the interface are masked out (`C118_end_refuted`, `C118_interface_refuted`). Dependent vectors make a zero vector in the near null space (`C118_zero_refuted`).
58. C119 with legal knots that are not clamped at a side, a value set with `IGASetBoundaryValue` is not the value of the field on the side: with uniform knots and degree 2 the field is 1/2 where 1 was prescribed (`C119_unclamped_refuted`). The boundary tables of a direction without a point of positive weight divide by zero (`nqp /= NQ[axis]`).
59. C124 demo/NitscheMethod.c declares its matrix positive definite (`MatSetOption(A,MAT_SPD,PETSC_TRUE)`), but its penalty 5(p+1)/h grows only linearly with the degree while the inverse inequality needs p²: with one element of degree 6 on [0,1] Legendre's polynomial gives the quadratic form the value −14 (`C124_indefinite`, `C124_spd_refuted`). Up to degree 4 the penalty suffices on every mesh (`C124_spd_partial`).
60. C126 demo/Neumann.c declares its matrix positive definite (`MatSetOption(A,MAT_SPD,PETSC_TRUE)`), while it attaches the constants as its null space: the constants have no energy on any mesh (`C126_spd_refuted`).
61. C126 demo/Neumann.c subtracts the integral of the solution, not its mean: it does not divide by the measure of the domain, so that the shifted solution has integral zero only if the domain has measure 1 (`C126_mean`).
62. C128 demo/AdvectionDiffusion.c: `ComputeWind` does not normalise a direction of norm below 1/100, so that `-dir 0.001` weakens the wind a thousand times instead of giving strength `-Pe` (`C128_wind`); and with `-dir 0` no boundary value is set and the system is singular (`C128_still_refuted`), although diffusion alone with the same boundary values would be well posed.
63. C129 demo/Elasticity3D.c: in `Kl[a][1][b][1]` a parenthesis is misplaced, `mu*(Na_z*Nb_z + Na_x*Nb_x*mu)` instead of `mu*(Na_z*Nb_z + Na_x*Nb_x)`. With `mu = 1`, as `main` sets it, this does not matter; for any other `mu` but 0 a rigid rotation gets the energy `mu (mu-1)` (`C129_everywhere_refuted`). Also `F[a] = 0.0` clears `nen` of the `3*nen` entries, which is harmless because the library hands out a zeroed array (`C129_form`).
64. C130 demo/LoggChallenge.c: `System` and `Exact` take the coordinates from `p->point`, which are those of the parameter domain; demo/L2Projection.c, for example, calls `IGAPointFormGeomMap`. With a geometry given by `-iga_load` the program solves another problem and compares with another function than its comment says, without a message (`C130_geometry_refuted`).
