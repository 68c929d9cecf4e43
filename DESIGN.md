# Formal model of PyLops-MPI in Lean 4 — design

## 1. Approach

The code is SPMD: every rank runs the same Python code on its own local data and communicates
through MPI.  The model keeps that shape.

* `Verif/MPI/*` — a free monad `Prog` of MPI actions (point-to-point `send`/`recv` with tags,
  collectives on a communicator), an interleaving small-step semantics with *both* buffered and
  rendezvous sends (the MPI library may choose at every send), and the confluence theorem: if one
  rendezvous-only run finishes, every run under every schedule and every buffering choice finishes
  with the same results on every rank in a bounded number of steps.
  * `Always n ps ρ`: every maximal execution of the programs `ps 0 … ps (n-1)` ends, with result
    `ρ r` (a value or an exception) on rank `r`.  Nearly all theorems have this form.
  * `Ends n ps out`: executions end in a state where some ranks have finished (or raised) and the
    others wait forever.  Used for the deadlock findings.
  * `Run n s s'`: `s'` is reachable; used for safety statements ("no rank ever obtains wrong data").
* `Verif/NumPy/*` — NumPy arrays as (shape, dtype, flat C-order data), slicing, index expressions,
  concatenation, broadcasting assignment, dtype casts, matmul.
* `Verif/Model/*` — the Python functions, one Lean `def` per Python function, as programs of one
  rank; exceptions are values (`Err`); every definition cites file and lines.
  `Model/Heap*` is a second model of the arrays, operators and solvers in which arrays are
  references into the memory of a rank; it is proved to refine the first one.  `Model/SolverObject` adds the
  attributes of the solver objects (C80).
* `Verif/Spec/*` — small specifications that do not mention the model's helpers (global arrays and
  layouts, stencils, block operators, inner products, serial CG and CGLS, histories).
* `Verif/Proofs/*` — helper lemmas; `Verif/Props/*` — the property theorems (named after the
  property) and, next to them, non-vacuity examples and counterexamples.

Scalars are an arbitrary field with an involution (`[Field K] [StarRing K]`), i.e. exact real or
complex arithmetic; `RCLike` where norms or order are needed.  dtype is `real` or `cplx`; storing
into a real array keeps the real part, as NumPy does.  `Model/FloatSolvers` is a model of the array
methods and solvers over any type of numbers with any operations (`Arith`, no laws), which covers
rounding, overflow, NaN and any order of summation; with exact arithmetic it is the first model
(`C67_exact_cg`, `C67_exact_cgls`, `C67_exact_norm`).  `Model/FloatDerivatives` does the same for the
derivative operators (`C72_exact`, `C72_exact_second`), `Model/FloatOperators` for stacked operators and
operator expressions (`C73_exact_*`), `Model/FloatStacked` for operators on stacked arrays
(`C75_exact_run`), `Model/FloatLaplacian` for MPILaplacian and MPIGradient (`C76_exact_*`),
`Model/FloatFredholm` for MPIFredholm1 and MPIMDC (`C77_exact`), `Model/FloatDottest` for the dot test (`C79_exact`).

## 2. Properties: method and status

"proved": the full statement, for all inputs, rank counts and executions.  "partial": the theorems
with suffix `_partial` prove the statement under the extra conditions in the last column; where the
property is false of the code, a theorem `…_violated…` proves the negation with a concrete witness.
Exact theorem names are in `MANIFEST.json`.

| id | property | method | status | conditions / remarks |
|----|----------|--------|--------|----------------------|
| C01 | Distribute / gather round trip | `local_split`, `__init__`, `to_dist`, `asarray` as programs; `Always` theorem: every rank obtains `x`; partition-of-a-list lemmas | proved | all shapes, partitions, axes, valid local shapes, rank counts, schedules |
| C02 | Default split is a balanced partition | `local_split`; arithmetic of div/mod, sum over the ranks | proved |  |
| C03 | Broadcast arrays stay consistent across ranks | invariant over histories of array operations (`Spec/History`, `Proofs/History*`) | proved | histories in which every array is assigned when created: a fresh unassigned BROADCAST array holds unspecified memory |
| C04 | Scattered and unsafe-broadcast writes are purely local | `__setitem__`: program is communication free; frame theorem on positions | proved |  |
| C05 | Element-wise arithmetic commutes with gathering | `Always` theorems on families of local arrays cut out of global arrays | proved |  |
| C06 | In-place updates equal out-of-place updates and touch only the receiver | memory model (`Model/Heap`): references, buffers; post-condition logic over programs; induction over reachable memories | partial | object identity, frame and freshness: all reachable memories, all aliasing, all executions; values: all DistributedArrays with any aliasing, stacked arrays except those whose components alias (proved false there) |
| C07 | Dot product is the global bilinear dot product on every rank | sum over a partition is the sum over the whole | proved | all partitions, layouts, rank counts; broadcast operands hold equal data on all ranks |
| C08 | Masked reductions range over exactly the ranks with the same mask value | the same per colour group | partial | dot: full; norm: orders admissible for the entries (see C09) |
| C09 | Flattened norm is the norm of the global array | reductions of concatenations; counterexamples | partial | false for fractional orders on negative real entries, negative orders on complex zeros, and ±inf with an empty rank (counterexamples proved) |
| C10 | Norm along the distribution axis | column-wise reductions | partial | same order restrictions as C09 |
| C11 | Norm and dot are consistent | counterexample for masked broadcast arrays | partial | false for masked broadcast arrays (counterexample proved) |
| C12 | Ghost cells are the neighbouring entries of the global array | explicit rendezvous schedule for `add_ghost_cells` + confluence | proved |  |
| C13 | Ghost cell exchange never delivers wrong data when a rank is too small | partial runs (`MPI/Partial`), `Ends` | partial | Safety holds for all executions. The claim that every too-small rank raises is false (C13_violated): only the first one in the front phase does, later ranks wait forever. |
| C14 | Ghost cell exchange is deadlock free without relying on buffering | from C12 by confluence | proved |  |
| C15 | Results are schedule independent | confluence (diamond) theorem for the whole message-passing language | proved | for arbitrary programs of the message-passing language in which every modelled API call is written |
| C16 | Flattening a distributed array | layout computation; counterexample | partial | false for arrays scattered along an axis other than 0 (counterexample proved) |
| C17 | Incompatible operands are rejected | decision logic | proved |  |
| C18 | Operand incompatibility is reported on every rank | partial runs: who raises and who waits | partial | false: ranks where the operands agree wait forever (counterexample and exact characterization proved) |
| C19 | Constructor validates custom local shapes | decision logic of the constructor | partial | exact characterization, except local shapes lacking the distribution axis, for which IndexError is raised instead (proved) |
| C20 | Layout invariant | layout invariant | proved |  |
| C21 | Operators redistribute their input | cumulative-sum arithmetic + C12 | proved | complete case split: near layouts are redistributed exactly; otherwise some rank raises ValueError (other ranks may wait) and no rank ever obtains wrong data |
| C22 | Dimension mismatch is rejected | decision logic | proved |  |
| C23 | MPIBlockDiag is the global block-diagonal operator | refinement to block operators on lists | partial | all rank counts, operator lists and inputs whose layout is near the operator's; ranks without operators raise (C23_empty, C23_empty_construct), which is the exact behaviour; far layouts raise (C21) |
| C24 | MPIVStack is the global vertical stack | same | partial | common dtype; false for dtypes that differ between ranks (C24_violated_dtype) and for ranks without operators, whose exact behaviour is proved: they raise, and in rmatvec the other ranks wait forever (C24_*_empty) |
| C25 | MPIHStack is the global horizontal stack | same | partial | as C24; ranks without operators raise and in matvec the other ranks wait forever (C25_*_empty) |
| C26 | Stacking operators pass the dot test exactly | induction over operator lists | partial | as C23/C24 |
| C27 | Operator algebra acts point-wise | induction over operator expressions, typing relation `Typed` | partial | expressions of any depth, when vectors that are combined have the same layout and dtype; false otherwise (C27_violated_*) |
| C28 | Adjoint of composite operators | induction over expressions; `Spec/Algebra` | proved | any depth; execution part for expressions typed as in C27 |
| C29 | MPIFirstDerivative equals the serial stencil | ghosted stencils = band operator rows | partial | holds when every rank has enough rows for the stencil and the flat boundaries are near the row boundaries; false otherwise (witnesses) |
| C30 | MPIFirstDerivative forward and adjoint match | adjoint kernels = transposed band operator | partial | as C29; the adjoint is silently wrong when the last rank has no rows |
| C31 | MPISecondDerivative equals the serial stencil | as C29 | partial | as C29 |
| C32 | MPISecondDerivative forward and adjoint match | as C30 | partial | as C30 |
| C33 | MPILaplacian is the weighted sum of second derivatives of the requested kind | from C23, C27, C31 | partial | the requested kind is used for the first axis only; holds for the centered kind or one axis, with the row and layout conditions of C31; pylops' serial derivatives are assumed correct |
| C34 | MPIGradient stacks the first derivatives | from C23, C29, C36 | partial | row and layout conditions of C29; scattered inputs only; pylops' serial derivatives are assumed correct |
| C35 | StackedDistributedArray operations act component-wise | component-wise | partial | Component-wise operations, dot, norm, gathering and rejection for all stacks, layouts and rank counts. False for operands of different dtypes (C35_violated_dtype); masks and inadmissible norm orders excluded. |
| C36 | Stacked operators act block-wise and are adjoint pairs | component-wise | proved | All operator lists of any length and any expressions, all inputs, all rank counts and all executions. |
| C37 | Algebra of stacked operators | as C27, with counterexamples | partial | Expressions of any depth except: powers on stacked vectors (return the input, C37_violated_power), differences (raise unless the minuend is a scaled operator, C37_violated_sub), complex multiples of real stacks (imaginary part dropped, C37_violated_scale). |
| C38 | MPIFredholm1 is the slice-wise matrix product | slice-wise | partial | partial: no rank with exactly one slice, ny != 1 (forward) / nx != 1 (adjoint), equal slice counts for the loop version with nx = nz = 1; violations proved for those cases |
| C39 | MPIMDC is the chained operator and an adjoint pair | chain of operators | partial | proved for complex kernels with at least two slices on each rank and more than one receiver (forward) / source (adjoint), the FFT being a parameter; false for real-dtype kernels (imaginary part dropped) and for ranks without slices (IndexError and deadlock) |
| C40 | CG residual invariant | loop invariants | proved | arrays without mask, any layouts and stacks; exact arithmetic |
| C41 | Solver loop control | termination of the loops | proved | arrays without mask; a division by zero ends the model's run |
| C42 | CG solves Hermitian positive definite systems | orthogonality induction (`Proofs/CGTheory`) | proved | exact arithmetic, arrays without mask |
| C43 | CGLS invariants | loop invariants | partial | everything except cost1[0], which is false (C44_violated) |
| C44 | CGLS starts from the gradient of the damped objective | loop invariants + counterexample | partial | false unless damp is 0 or 1 or x0 = 0 (counterexample proved) |
| C45 | CGLS decreases the damped objective and reports documented norms | loop invariants + counterexample | partial | false for r1norm, which is the squared gradient norm (counterexample proved); the rest proved |
| C46 | Distributed solvers equal serial solvers | refinement to serial CG / CGLS | partial | false for arrays with a mask (C46_violated_mask, see C59); proved for arrays without mask; a division by zero ends the model's run |
| C47 | Solvers do not modify their inputs | memory model; `Keeps` logic; refinement of the in-place solvers to the value solvers | proved | any operator and callback that change at most their argument; all limits, tolerances, aliasing of y and x0, executions, also when an exception is raised; the in-place solvers compute what the value solvers compute |
| C48 | dottest verdict | decision logic | proved | finite values |
| C49 | Mixed-dtype arithmetic keeps the value | dtype casts | partial | false for a real left operand with a complex right operand (counterexample proved) |
| C50 | zeros_like is a neutral element | direct | partial | false for masked arrays (proved for every masked array) |
| C51 | No result depends on uninitialised memory | contents of uninitialised memory are a parameter `junk`; results do not depend on it | proved | array operations; operators: see C23-C25, C46 theorems which hold for all memory contents |
| C52 | The gathered array is a private copy | memory model | partial | true for scattered arrays, false for broadcast arrays (asarray returns the local array itself) |
| C53 | Applying an operator leaves its argument unchanged | memory model of all operator classes, refinement to the value model; `Impl` logic | proved | operators whose own classes are those of the library, or user-defined classes that return a new array; false for user-defined classes that return their argument (C53_violated_user) |
| C54 | Wrapped serial operators act like the serial ones on replicated vectors | induction over expressions; replicated layouts | proved | false for scattered vectors (C54_violated_scatter), which the property does not claim |
| C55 | Combined operators do exactly what their definition says, for any operator classes | equality of programs, induction over expressions | proved |  |
| C56 | The solvers can be interrupted and resumed | equality of programs, induction over the iterations | proved |  |
| C57 | Expressions of linear operators are linear | induction over expressions; functions with an adjoint are linear | proved | expressions whose intermediate results have fitting spaces (Typed, as in C27) |
| C58 | Results do not depend on the number of ranks and on the distribution | every distributed result equals the serial one; in exact arithmetic (rounding is not modelled) | proved | exact arithmetic; layouts without mask for the solvers |
| C59 | Solvers on arrays with a mask solve one problem per group | refinement to one serial run per group; reachable blocked states | partial | false when the groups stop after different numbers of iterations: the ranks of the slower groups wait forever (C59_violated; C59_cg_deadlock and C59_cgls_deadlock characterise it); proved when all groups stop after the same number, and for any number of explicit steps |
| C60 | The plotting functions show the array and its owners | direct, with the owner of every flat index | proved | the arrays given to matplotlib; drawing not modelled. UNSAFE_BROADCAST arrays are not refused: rank 0 labels every entry with 0 (C60_unsafe) |
| C61 | Showing the progress of a solver does not change its results | simulation: the program with output follows the program without; reachable blocked states | partial | Holds if on rank 0 the components of the iterate have equal local shapes and the shown part is a nonempty vector; false otherwise (both failures proved, one leaves the other ranks waiting). If an iteration divides by itershow[2] = 0 then all ranks raise ZeroDivisionError at that iteration (C61_cg_zero, C61_cgls_zero); otherwise itershow is arbitrary. |
| C62 | A callback gets the array that the solver returns, and later iterations overwrite it | memory model; equality of programs, refinement to the value solvers | proved | solvers without masks; the change needs that the steps do not break down |
| C63 | Arrays and operators on another communicator behave as if its ranks were all ranks | renaming of ranks preserves runs; interleaving of the communicators; direct | partial | Holds for programs that communicate on base_comm only (constructors, to_dist, asarray, arithmetic, ghost cells, dot and norm of scattered arrays). False for dot and norm of broadcast arrays, ravel, the reshaped decorator, MPIBlockDiag, MPIVStack, MPIFredholm1, which create arrays on COMM_WORLD: it is proved what they return or raise instead. |
| C64 | Reductions give the same result in whatever order MPI combines the contributions | reduction trees; equality of programs | proved |  |
| C65 | The derivative operators return the serial result or raise, also when ranks have too few rows | case analysis on rows per rank: runs with a short last block, IndexError/ValueError of one rank, exact value of the silent cases | partial | matvec: proved for all kinds, ranks, rows and layouts (N ≥ 1). rmatvec: proved outside three cases, in which the claim is false: forward first derivative with N + 1 = n (n ≥ 2), forward second derivative with N + 1 = 2 n (n ≥ 2), order-5 first derivative with edges and three rows on one rank; there the value returned in every execution is given and shown not to be the adjoint. |
| C66 | cg returns the solution whatever the dtypes of the data, the start vector and the operator | refinement to serial CG for the operator followed by the cast; loop invariant | partial | false as stated: a start vector or data of real dtype loses imaginary parts without an error (C66_violated_start, C66_violated_data); the exact result for every combination of dtypes is C66_cg; with complex data and start vector the property holds (C66_cplx_partial). Unmasked single arrays; stacked arrays with mixed dtypes are missing |
| C67 | The solvers keep the ranks in step whatever the arithmetic does | model over any type of numbers; induction over the iterations; the exact CG is an instance (equality of programs) | proved | arrays and stacks without mask; the operator is assumed to keep the ranks in step |
| C68 | Negative axes count from the end | model with integer axes; equality of programs with the model with natural axes | partial | proved for everything except norm along axis -1, where the claim is false (C68_violated_norm: -1 always means all entries, and every other value raises), and the IndexError for axes below -ndim, which arrays that are not scattered do not raise (C68_before_first_broadcast); norm for the orders of C10 |
| C69 | ravel(order) flattens the global array in that order | index arithmetic; equality with chained parts; general counterexample | partial | proved for broadcast arrays, and for arrays scattered along the slowest axis of the order (dimensions before it, for F after it, all 1); for any other layout in which two ranks hold entries the claim is false (C69_violated_general) |
| C70 | The solvers compute what the serial algorithms compute on the global vectors, rounding included | serial algorithms with arbitrary arithmetic (`Spec/BlockSolvers`); refinement of each step; permutation of the entries for the layouts | proved | single distributed arrays without mask; with rounding the order of summation can decide whether cg stops (C70_order_matters) |
| C71 | Arrays of integer dtype behave like arrays of real dtype with the same entries | C70 with truncation when integers are stored; invariant of the iterates; counterexample | partial | false: products and sums are truncated (C71_multiply, C71_add), and cg with integer data returns the start vector and residual 0 (C71_wrong); integer start vectors give integer iterates (C71_cg_integer, C71_cgls_integer); proved for integer entries and factors (C71_exact_partial) |
| C72 | Derivative operators give the same floating-point numbers on every number of ranks | the methods with arbitrary arithmetic, symbolic execution; each entry is a fixed term in the neighbouring entries of the global array (`Spec/FloatDerivatives`) | proved | first axis of the array, as in the operators; where rows are too few or boundaries too far the behaviour is in C29-C32 and C65 |
| C73 | Stacked operators and operator expressions with floating-point arithmetic | the methods with arbitrary arithmetic; induction over expressions (`Accepts`, `Spec/FloatOperators`); counterexample with rounded integers | proved | for the stacked operators without mask on COMM_WORLD; inputs whose boundaries need exchange with neighbours only, arrays without mask in expressions |
| C74 | The solvers on stacked arrays with floating-point arithmetic | C70 for lists of vectors (`Spec/StackSolvers`); induction over the arrays of a stack | proved | arrays without mask; stacks of at least one array; if some array is replicated, independence of the layout assumes that storing a number twice is storing it once and, for CGLS, that the operator's results are stored numbers |
| C75 | Stacked operators and regularised inversion with floating-point arithmetic | C73 for lists of vectors (`Spec/FloatStacked`); induction over stacked expressions and over their operators; with C74 for the solvers | proved | arrays without mask; the operators in a stack compute functions of the global vectors (C72, C73 for those of this package); for the solvers with replicated arrays storing must be idempotent and the operator's results stored numbers; `e - f` is rejected unless `e` is a scaled operator (C75_sub) |
| C76 | MPILaplacian and MPIGradient with floating-point arithmetic | the terms are operators of C72 and C73, combined by C73 and C75; splitting a function on rows over the ranks | proved | scattered arrays without mask on COMM_WORLD; axes are non-negative; the serial derivatives along the other axes act on each row (hypothesis ByRows) |
| C77 | MPIFredholm1 and MPIMDC with floating-point arithmetic | symbolic execution with matrix products as parameters; MPIMDC is an expression of C73 | proved | no rank has exactly one slice, matrices have more than one column (adjoint: row) and, for the loop version with slices of one number, all ranks have as many slices (elsewhere the code fails, see C38); MPIMDC needs two slices per rank; matrix products, FFT and Identity are parameters; C77_mdc_cgls: CGLS with MPIMDC gives the same results on all numbers of ranks if dot products and norms do not depend on the order of summation and storing is idempotent |
| C78 | Rounding errors of reductions, stacked operators, derivatives and slice-wise products | standard model of rounding (`Spec/Rounding`), calculus of error bounds on the terms of C70, C72, C73 and C77; binary rounding to nearest as an instance (`Proofs/BinaryFloat`) | proved | standard model of rounding without overflow and underflow; arrays without mask; MPIFredholm1 forward with usematmul=True; with replicated arrays the norm assumes stored entries |
| C79 | The dot test with floating-point arithmetic | symbolic execution with `numpy.vdot` and `numpy.isclose` as parameters (`Model/FloatDottest`); error calculus of C78 | proved | arrays without mask, DistributedArray only (no stacks); rounding bounds without overflow and underflow; isclose is any function which accepts (rejects) what is inside (outside) of the tolerances |
| C80 | A solver object can be used again | objects with attributes that may be unset (`Model/SolverObject`), reduced to the programs of C47 by equations; refinement of C47 for the executions | partial | solve and setup again: proved for all earlier attributes. run after solve: false, finalize turns the list of costs into a NumPy array, so the first step changes the returned solution and then raises AttributeError on all ranks (C80_cg_run_false, C80_cgls_run_false) |
| C81 | The two regularised inversions agree | the stacked operator as a linear map; CGLS without damping is CG for the normal operator (C45), whose expression the script builds; refinement of C46; MPILaplacian as a leaf with C33 | proved | exact arithmetic; no masks; the zero data has the layout of the output of R (in the tutorial every rank has the same number of rows, so that it has) |
| C82 | The migration and deconvolution tutorials end with the stated arrays on all ranks | the steps of the scripts one after the other: operators by C24/C39, cgls by refinement (C46) and by the descent and termination of CGLS on the real subspace (Proofs/Descent.lean) | proved | serial modelling operators and Fourier transforms are parameters; reshaping and plotting of the gathered arrays are left out |
| C83 | Expressions of distributed operators return the right result or raise | induction over expressions with leaves that compute or raise (Spec/Safe.lean, Proofs/Safe.lean); the derivatives from C65, the block-diagonal parts from C21 (Proofs/SafeOps.lean, SafeDeriv.lean) | partial | rmatvec of the Laplacian and the gradient: but for the numbers of rows of C65, where it is false (C83_violated_adjoint) |
| C84 | MPIFredholm1 and MPIMDC return the right result or raise | case analysis over the axes that squeeze removes: each local product and each assignment succeeds with the right block or raises (Proofs/SafeFredholm.lean); MPIMDC is an expression of C83, scattered inputs by following the partition through the factors (Proofs/SafeMDC.lean) | proved | For MPIMDC the kernel has complex dtype (with a real kernel the result is silently wrong, C39_violated_real) and the local Fourier transforms have the right sizes and complex dtype. |
| C85 | The solvers return the serial result or raise when the operator may raise | as C46, each application of the operator either continues the run or ends it with an exception on some rank; the steps are those of Proofs/Solvers.lean (Proofs/SafeSolvers.lean) | proved | exact arithmetic; niter given; serial CG and CGLS as in C46 |
| C86 | MPIBlockDiag, MPIVStack and MPIHStack return the right result or raise, and which | cases on the conditions: the theorems of C23 to C25 where they hold; otherwise the constructor raises (unequal sizes, no operators, no dtype), the size check or redistribution does, or the rank without operators does after the communication of the others (Proofs/SafeStacks.lean) | proved | conditions are BDGood, VSGood, VSGoodAdj, HSGood, HSGoodAdj in Spec/Safe.lean; operators of one result dtype dt as in C23 to C25 (C24_violated_dtype is the counterexample otherwise); one-dimensional inputs |
| C87 | How fast cg and cgls converge | the directions span the Krylov space, so the residual is orthogonal to it; polynomials of the operator in an eigenbasis, Chebyshev polynomials for the bound (Proofs/CGRate.lean); the runs are those of C41 | proved | exact arithmetic, arrays without mask; the definitions energyOf, krylov, SpectrumIn, rho are in Spec/Rate.lean |
| C88 | With rounding errors, the residual norms that cg and cgls report belong to the vectors that they return | Induction over the steps of the serial algorithm of C70: what a step does to the iterate and to the residual, entry by entry, up to rounding errors; the length of a step is bounded by the iterates, so no assumption on the step lengths (nor on the matrix) is needed. The norms come from the bounds of C78. | proved | Arithmetic with relative errors, no overflow or underflow; arrays without mask. |
| C89 | How much is communicated | The calls that each rank completes are recorded along an execution (Spec/Traffic.lean). A program logic over the programs of the ranks bounds their number, their partners and the entries handed over, with assumptions on what the other ranks contribute to a collective call (needed since the sizes of ghost cells are exchanged); it is sound for all partial executions (Proofs/Traffic.lean). The bounds of the functions are composed from it. | proved | the weight of a collective call is what the rank hands over, not what an implementation of MPI moves; products with MPIVStack, MPIFredholm1 and MPIMDC inside the solvers and BROADCAST arrays in the solvers are not covered |
| C90 | Programs compute what they compute with NumPy arrays | Programs are an inductive type with a semantics on a rank, built from the functions of the model, and one with NumPy arrays (Spec/Script.lean); the theorem is a simulation by induction on the program, with the invariant that every rank holds its part of each array and the same replicated state. If two arrays are compatible on all ranks, their global shapes and layouts agree, so that an operation which NumPy refuses is refused by some rank. Limits: one dtype, scattering along the first axis or BROADCAST, no masks, no UNSAFE_BROADCAST, no stacked arrays, a state that is replicated (nothing that depends on the rank). | proved | Programs with arrays of one dtype scattered along the first axis or BROADCAST, without masks; the state besides the arrays is replicated. |
| C91 | Solver calls and operator expressions in programs, and independence of the number of ranks | A relation between what the ranks do and what is done with NumPy arrays that composes along binds (Proofs/ScriptSolvers.lean), with one lemma for each operation of the solvers; it is used once for arrays held in any way, where ranks may raise although NumPy does not, and once for the default layout, where they may not. The serial solvers are written with NumPy operations in Spec/Script.lean. Expressions by induction (Proofs/ScriptExpr.lean). | proved | niter is given (not None); the callback is the model's |
| C92 | All operators may be used in programs | each operator is shown to satisfy `OpOr` (right result or an exception, for every layout along the first axis) from the total theorems of C65, C83, C84 and C86; the adjoints of stencils are replaced by the unique adjoint function `adjointOf`, so that they are the same for every number of ranks; `C92_ranks` then compares two jobs with different numbers of ranks | proved | the stencils that are silently wrong (C65) are excepted; MPIMDC with complex kernels and arrays; MPIGradient and other operators on stacked arrays are not in these programs |
| C93 | Programs with stacked arrays, stacked operators and solvers on stacks compute what they compute with NumPy arrays | The programs of C90 extended with stacks (Spec/StackScript.lean), whose semantics with NumPy arrays are lists of arrays; the relation of C91 between the ranks and NumPy is lifted to stacks (Proofs/StackScriptBase.lean), the solvers are done once more for arrays or stacks (Proofs/StackScriptSolvers.lean), and the theorem is again a simulation (Proofs/StackScript.lean), used once for all layouts and once for the default layout. A stack is made of copies of its arrays and an item is copied when it is taken out: in the code they share memory, so that an in-place operation on one changes the other; programs that rely on this are not covered (shared memory is treated in C53). Powers of stacked operators are left out, since they are wrong in the code. | proved | Simulation between the ranks and lists of NumPy arrays, by induction on the program; stacked operators by induction on the expression. |
| C94 | The gallery scripts plot_cgls.py and plot_stacked_array.py end with the stated arrays on any number of ranks | Model/Gallery.lean has the two scripts line by line, with the matrices as parameters. Proofs/Repeat.lean shows that if an operator acts on embedded vectors like a smaller one and the embeddings scale norms by a constant, then the states of cgls are embedded step by step; repeating a block is such an embedding, so the termination theorem for one block applies. For plot_stacked_array.py one step is computed explicitly. The first part of that script (arithmetic with stacks) is not modelled as a script, see C33 to C36 and C93 for its operations. Arithmetic is exact; the float128 of plot_cgls.py is the one real dtype. | proved | plot_cgls.py and the operator part of plot_stacked_array.py; exact arithmetic |
| C95 | The sections on masked arrays of plot_distributed_array.py compute what they compare with, for exactly the numbers of ranks for which the mask fits | Model/GalleryArrays.lean has the three sections as one program with the shape, the axis, the values and the axis of norm as parameters. The specification is the slice of the gathered array. Proofs/GroupNorm.lean proves the norm along the distributed axis for arrays with any mask, and that a slice of a concatenation is the concatenation of the pieces of the group. | proved | The three sections on masked arrays as one program; exact arithmetic, one real dtype. |
| C96 | plot_stacking.py and plot_mpilinop.py compute the stacks that they show, on any number of ranks | Model/GalleryStacking.lean has the two scripts as programs, with the serial operators and the vectors as parameters. The proof follows the constructors and products of C23-C25, C27 and C54; what is added are the closed forms for multiples that depend on the rank, by induction on the number of ranks. | proved | the two scripts, for all operators and vectors of compatible shapes and any number of ranks |
| C97 | plot_derivative.py computes the derivatives that it shows on up to six ranks, and never anything else | Model/GalleryDerivative.lean has the script as a program, with sizes, arrays and serial derivatives as parameters. The arrays follow from C29, C31, C33 and C34, the rejections from the layout and row conditions of C29, and the statement for all numbers of ranks from C65 and C83. Which numbers of ranks suit the sizes of the script is decided by evaluation up to 12 ranks and by the number of rows above. On more than six ranks the script never finishes: if nothing raised before, the adjoint of the gradient does, since it needs two rows on each rank. | proved | exact arithmetic; the serial derivatives of PyLops are parameters |
| C98 | plot_mdc.py computes the convolution and the correlation that it shows whenever every rank has two frequencies | Model/GalleryMDC.lean has the script as a program, with the kernel, the model, the sizes and the Fourier transform as parameters. The arrays follow from C39 and the splitting of the kernel of C82, the rejections from the case distinction of C84, and the deadlock by following all ranks to the blocked state. | proved | exact arithmetic; at least two sources and receivers; the Fourier transforms are parameters |
| C99 | cgls on complex data returns a least-squares solution whatever the dtype of the start vector | refinement of the solver to serial CGLS, with the iterate stored in the dtype of the start vector; without damping the stored iterate is not used again. The excess of the misfit is by Pythagoras. False for start vectors of real dtype, with a witness. | partial | What cgls without damping computes on complex data for start vectors of both dtypes (C99_cgls, C99_returns), the claim for complex start vectors (C99_cplx_partial) and its negation for real ones (C99_violated). With damping, or with data of real dtype and a complex operator, the stored vectors feed back into the iteration; what is computed then is stated by C70 only. |
| C100 | plot_stacked_array.py prints the arrays, the dot product and the norms of NumPy on the full arrays | Model/GalleryStacked.lean has lines 25-118 of the script as a program, with the sizes and the numbers as parameters. Filling the arrays and the assignment on rank 0 are followed rank by rank; the rest are the results on stacked arrays of Proofs/Stacked.lean. C100_script evaluates the lists, the dot product and the norms for the numbers of the script. | proved | lines 25-118 of the script; the rest is C94 |
| C101 | plot_distributed_array.py shows the parts of the arrays and of the results of the operations on them | Model/GalleryOps.lean has lines 25-111 of the script as three programs, with shapes, axis, arrays and factor as parameters. The operations are those of Proofs/Vec.lean followed by the gather of plot_local_arrays; what plot_distributed_array shows is C60. The numbers are consecutive iff each part is the slice of arange, which is a condition on the even split. | proved | exact arithmetic; the drawing is not modelled; the sections with masks are C95 |
| C102 | Operator expressions, MPILaplacian and MPIGradient raise when the operator that they apply first raises | Induction on the expression: the leaf applied first gets the argument itself, and an exception of a stage is one of the whole program. The adjoint of an expression starts with what its rmatvec starts with. The conditions on rows and layouts are those of C29, C31 and C65. | proved | Powers, transposes and conjugates are not among the expressions: they first copy or conjugate their argument. |

No property is "not applicable".

## 3. Trusted base

1. Lean's kernel.  Axioms used: `propext`, `Classical.choice`, `Quot.sound` (checked with
   `#print axioms` on all theorems of `MANIFEST.json`); no others, no `sorry`, no `native_decide`,
   no `bv_decide`, no `unsafe`/`implemented_by`.
2. The statements in `Verif/Props` and the definitions they use in `Verif/Spec`, `Verif/Model`,
   `Verif/NumPy`, `Verif/MPI` (semantics).
3. The reading of the Python code, and of NumPy, mpi4py and pylops, recorded in these definitions:

### MPI
* `base_comm` is `COMM_WORLD`, except in C63 (`MPI/Rename.lean`, `Model/SubComm.lean`): there the
  ranks of the world are divided among communicators and the functions that rely on the default
  `base_comm=MPI.COMM_WORLD` make their calls on the world.  Two communicators do not share tags in
  MPI; the model has one channel per pair of ranks and tag, which makes no difference here because all
  ranks make their calls on the world and on their communicator in the same order.  Not modelled:
  Laplacian, Gradient and MDC on other communicators.
* `allgather`, `allreduce` and `Split` return on no rank before all ranks have called them (their
  results depend on all contributions).  `bcast` is a message of the root to each other rank: the
  root may go on before the others have called, the others wait for the root only.
* Sends are buffered or rendezvous, chosen freely at each send; messages between two ranks with the
  same tag do not overtake each other; `recv` names its source.
* Reductions combine the contributions in rank order (exact arithmetic makes the order irrelevant,
  C64); in C67, C70 and C72–C79 in any way, but `allreduce` gives the same number to all ranks: mpi4py's `allreduce` of
  Python objects reduces on one rank and broadcasts, or reduces the gathered list on each rank.
* A program is a finite tree: all loops of the library are bounded.

### NumPy
* Exact arithmetic: no rounding, overflow, NaN or infinity (except in `norm`, where results may be
  infinite or NaN, `NumPy/Float`, and in C67, C70 and C72–C79).  Integer dtypes are modelled in C71 only,
  without overflow.
* `engine` is always `numpy`; CuPy is not modelled.  Axes are non-negative, except in C68.
* Element-wise operations of two arrays have equal shapes (the code checks shapes before); index
  assignment and in-place operations do broadcast.
* `numpy.isclose` is a parameter of `dottest` (any predicate); its inputs are finite.

### Arrays
* index expressions in `x[i] = v` are the same on all ranks; the argument of `to_dist` has the same
  shape and dtype on all ranks.
* a fresh, unassigned BROADCAST array holds unspecified (rank-dependent) memory, so C03 is about
  histories in which arrays are assigned when created.
* products of a DistributedArray with a StackedDistributedArray are not modelled; other operations
  on operands of different classes raise AttributeError, as duck typing does.

### Operators
* Local operators (`pylops` objects given by the user, `pylops.FirstDerivative`,
  `pylops.SecondDerivative`, `pylops.signalprocessing.FFT`) are external: arbitrary functions on the
  local data with the stated sizes (`LOp`); where a theorem needs more (linearity, adjointness, being
  the derivative along an axis) this is a hypothesis.  `pylops.Identity` is modelled by its
  documented behaviour.  `Op._matvec` on a local array of the wrong size raises ValueError.
* Methods that return `None` because `self.Op` is unset are not modelled.
* Stacking operators: the theorems assume that all ranks have at least one operator and a common
  dtype (both conditions are necessary, see findings); C86 does without the first.
* Derivatives: `sampling` is real and not zero; blocks of code that occur several times are written
  once; assigning a complex number to an entry of a real array discards the imaginary part.
* Fredholm1: `nx`, `ny` and `dtype` are the same on all ranks; matmul of stacks with different
  numbers of slices is not modelled.  `numpy.sqrt` in MDC is a parameter.
* `dot`, `*`, `@`, `**` (`Model/Dispatch`): operands are operators, scalars or arrays; `None`, lists
  and NumPy arrays as operands and exponents that are not integers are not modelled.
* `y[:] *= alpha` tests the dtype attribute of `y`, which equals that of its local array in all
  arrays the library builds.  `ravel` is modelled for
  order "C", and for the other orders in C69; local arrays are stored in C order, so "A" and "K" are "C".
* Applying a stacked BlockDiag/VStack to a plain DistributedArray is taken to raise AttributeError;
  on a rank with an empty local array the code iterates over nothing instead.
* Of `plotting` the arrays that are given to matplotlib are modelled, the drawing is not.
* `verb` printing, `__repr__`, `todense`-like helpers are not modelled.

### Solvers
* exact reals; division of NumPy scalars by zero ends the model's run (`nonfinite`) whereas the code
  continues with inf/nan; division of Python floats by zero raises ZeroDivisionError in both.
* C67: arbitrary arithmetic.  Operations on arrays do not raise (`numpy.seterr` left at its default);
  `x ** 2` and divisions of scalars may raise.  All ranks compute a scalar from the same inputs in the
  same way (no mixture of machines; otherwise the solvers can hang, `C67_needs_same`).  `cgls` squares
  `cost`, a Python float, so a residual norm above 1e154 raises OverflowError, on all ranks.
* C70 uses the same model.  The operations on numbers do not depend on the dtypes of their operands;
  only storing a number does (`Arith.cast`).  With arrays of one dtype this is no restriction.  The
  operator is any program that acts as a function of the global vector (`ActsAs`), possibly only for
  vectors of certain dtypes.
* C72: the operations on entries are those of the code, in the same order.  A literal (`0.5`, `2`, `3.0`,
  `12.0`) is one number whatever it is combined with; `sampling` is a Python float, whose square may
  raise OverflowError; dividing an array by zero does not raise.
* C73: a serial operator is any pair of functions of the dtype and entries of its argument which give
  vectors of the right size and do not raise.  `numpy.sum(..., axis=0)` and `MPI.SUM` of arrays may
  depend on all entries; all ranks get the same sum.
* C74, C75: stacks of arrays without mask; a stack is not empty.  The scalars returned by the arrays of a
  stack are added by Python from left to right; the norm of a stack is any function of the norms of its
  arrays (`Arith.stackNorm`).
* C76: `pylops.FirstDerivative` and `pylops.SecondDerivative` along an axis other than the first are
  assumed to act on each row separately, with operations that do not depend on the number of rows.
* C77: an entry of a product of matrices (`numpy.matmul`, `numpy.dot`) may depend on all entries of the two
  matrices, on their shapes and dtypes and on the place in the code, but on nothing else (such as the other
  slices of a stack, or the alignment of memory).  `pylops.FFT` and `pylops.Identity` are parameters.
* C78: the standard model.  Every operation on numbers (also the complex product and `abs(x) ** 2`) has relative
  error at most `u`: no overflow, underflow, NaN or infinity.  `numpy.sum`, `numpy.dot`, matrix products and
  `MPI.SUM` are sums of the (rounded or, with fused multiply-adds, exact) products by rounded additions in any order
  and grouping.  The literals of the code and zero are exact, negation and
  conjugation too.  Storing a number rounds it, so the dtype of the result can hold it (`Stores`).
* The lines printed with `show` are modelled by the numbers they contain (`Model/SolverLog.lean`);
  the header and footer lines, the number format and the timers are not.  NumPy ≥ 1.24 is assumed for
  `np.iscomplexobj` of a list of arrays of different shapes (ValueError).
* In the value model the callback is a recorder; in the memory model it is an arbitrary program.
* solver theorems on values assume arrays without mask.

### Memory model
* attributes of array objects do not change after `__init__`; the components of a stacked array are
  fixed; temporaries of `dot` and `norm` are not allocated.
* the operator classes of the library are modelled on the memory method by method
  (`Model/HeapLeaves`): new arrays, assignments `y[:] = v`, `y[i] op= v`, aliasing of views is not
  represented: `y[index] op= v` reads and writes the part of `y` at once.  User-defined operator
  classes are assumed to return a new array (false otherwise, `C53_violated_user`); the solver
  theorems of C47 hold for arbitrary operators that change at most their argument and what they create.

### Not modelled
The drawing in `plotting/plotting.py`, `__init__` exports, CuPy branches, printing other than the log of the solvers, `MPILinearOperator.todense`-like
methods, docstring examples, tutorials (except the inversions of
poststack.py, see C81, and the distributed computations of lsm.py and mdd.py, see C82), the drawing of
the gallery scripts (their computations are modelled: plot_cgls.py and
the operator part of plot_stacked_array.py, see C94, the rest of that script, see C100, plot_distributed_array.py, see C95 and C101, plot_stacking.py and
plot_mpilinop.py, see C96, plot_derivative.py, see C97, and plot_mdc.py,
see C98) and tests.

## 4. Findings

Proved about the model (theorem in brackets); line numbers in the model comments.

1. `dot` of masked BROADCAST arrays sums shards of the whole array over the mask group only, `norm`
   uses all ranks; the two disagree (`C11_violated`).
2. `zeros_like` drops the mask (`C50_violated`).
3. Operand checks compare only the own local shape: ranks where the operands agree go on and wait
   forever for the ranks that raised (`C18_violated`, `C18_characterization`).  The global shape and
   the axis are not compared at all.
4. `ravel` of an array scattered along an axis other than 0 permutes the entries (`C16_violated`);
   `ravel(order="F")` does so for an axis other than the last.  C69 says for which layouts exactly.
5. Result dtype is that of the left operand: imaginary parts are silently dropped (`C49_violated`,
   `C35_violated_dtype`, `C27_violated_dtype`); a complex multiple of a real operator raises
   TypeError (`C27_violated_scale`) while a stacked one drops the imaginary part
   (`C37_violated_scale`).
6. `norm` with ord ±inf raises on a rank without entries and the others wait; fractional orders give
   NaN for negative entries, negative orders NaN for complex zeros (`C09_violated_*`).
7. Derivatives need enough rows per rank: too few rows raise on one rank while others wait
   (`C29_violated_rows`, `C31_violated_rows`), or give silently wrong adjoints
   (`C30_violated_rows`, `C30_violated_edge`, `C32_violated_rows`; `C65_*`: these are all the silent
   cases, and `matvec` is never silently wrong), edge handling
   (`C29_violated_edge`, `C31_violated_edge`).  Default-balanced flat vectors and BROADCAST inputs
   are rejected when the flat split is too far from the split by rows (`C29_violated_layout`,
   `C31_violated_layout`).  UNSAFE_BROADCAST inputs are always rejected.
8. Powers of stacked operators on stacked arrays return a copy of the input
   (`C37_violated_power`); `A - B` of stacked operators raises ValueError unless A is a scaled
   operator (`C37_violated_sub`); `Op.dot` of a stacked array with components that are not 1-D
   returns `None` (`C37_dot_none`).
9. `MPILaplacian` uses the requested `kind` for the first axis only (`C33_violated_kind`);
   Laplacian and Gradient reject BROADCAST inputs (`C33_violated_bcast`, `C34_violated_bcast`).
10. `MPIFredholm1`: the check for a single slice raises on rank 0 only, the other ranks wait
    (`C38_violated_one_slice`); `squeeze` breaks ny = 1 (forward) and nx = 1 (adjoint)
    (`C38_violated_squeeze`); the loop version with nx = nz = 1 and different slice counts raises in
    `vstack` (`C38_violated_stack`).
11. CGLS setup uses `damp` where the steps use `damp²` (`C44_violated`), also in `cost1[0]`; the
    returned `r1norm` is the squared norm of the gradient (`C45_violated`); `tol` is compared with
    squared norms; `istop` is 2 when the squared norm equals `tol`.
12. `add_ghost_cells`: a rank with too few cells raises before sending and later ranks wait forever
    (`C13_later_ranks_wait`, `C13_violated`).
13. `asarray()` of a broadcast array returns the local array itself (`C52_violated`).
14. `reshaped`: layouts that are too far apart make some rank raise ValueError, others may wait
    (`C21_raises`).
15. The constructor raises IndexError on a rank whose local shape lacks the axis, the other ranks
    wait (`C19_short_shape`).
16. Stacking operators compute their dtype per rank (`C24_violated_dtype`); an empty operator list
    raises on that rank only (`C23_empty`, `C24_matvec_empty`), and in `MPIVStack.rmatvec` and
    `MPIHStack.matvec` the other ranks wait forever (`C24_rmatvec_empty`, `C25_matvec_empty`).
17. Powers of an operator whose output layout differs from the input layout are silently wrong
    (`C27_violated_power`).
18. CG with tol < 0, or stepped by hand at a zero residual, divides by zero (`C40_break`).
19. MDC: a rank without slices raises IndexError, the others wait (`C39_violated_empty`); a kernel of
    real dtype drops the imaginary part of the spectrum (`C39_violated_real`).
20. Stacked `x += y` is wrong when components of `y` are components of `x` at earlier positions, or
    when `x` repeats a component (`C06_violated_stacked`, `C06_violated_repeated`).
21. A user-defined operator that returns its argument is not safe: `2 * Op` scales the argument in
    place (`C53_violated_user`).
22. `MPILinearOperator(Op)` applied to a scattered vector passes the local part to the serial operator,
    which rejects it (`C54_violated_scatter`).
23. With masks CG and CGLS solve one problem for each group of ranks (`C59_cg_partial`,
    `C59_cgls_partial`), not the gathered problem (`C46_violated_mask`).  When the groups need
    different numbers of iterations, the groups that need more wait forever (`C59_cg_deadlock`,
    `C59_cgls_deadlock`, `C59_violated`): every operation on arrays communicates between all ranks.
24. With `show=True` the solvers fail where they succeed with `show=False`: for a stacked iterate whose
    components have different local shapes rank 0 raises ValueError before the first iteration and the
    other ranks wait forever (`C61_cg_deadlock`, `C61_violated`); if rank 0 holds no entries it raises
    IndexError when it prints (`C61_cg_empty`, `C61_violated_empty`).  A division by `itershow[2] = 0` raises
    ZeroDivisionError on every rank at the same iteration (`C61_cg_zero`, `C61_cgls_zero`): no rank waits.
25. `callback(x)` gets the array in which the solver accumulates, so a callback that stores `x` to keep
    the history of iterates stores the same object each time (`C62_cg`, `C62_cgls`, `C62_cg_changed`).
26. Arrays and operators on another communicator than `COMM_WORLD` (`base_comm=…`): constructors, gathering,
    arithmetic, and `dot` and `norm` of scattered arrays are as on the world (`C63_isolated`,
    `C63_histories`, `C63_dot_scatter`, `C63_norm_scatter`).  But `to_dist(x=self.local_array)` in `dot`
    and `norm`, `ravel`, the decorator `reshaped` and MPIFredholm1 create arrays on `COMM_WORLD`: `dot` of
    broadcast arrays leaves out the rows of other ranks (`C63_dot_broadcast`, `C63_violated_dot`) and
    waits forever if only one communicator calls it (`C63_dot_waits`), `norm` mixes the arrays of different communicators
    (`C63_norm_broadcast`, `C63_violated_norm`), `ravel`, MPIBlockDiag, MPIVStack and the derivatives
    raise ValueError (`C63_ravel`, `C63_blockDiag`, `C63_vstack`, `C63_reshaped`); the derivatives on
    `COMM_SELF` get the first rows of the input on every rank (`C63_reshaped_self`); MPIFredholm1 returns on all ranks the result of the communicator of rank 0
    (`C63_fredholm`, `C63_violated_fredholm`).
27. `cg` with vectors of different dtypes: in-place updates store in the dtype of the array on the left.
    With complex data and a start vector of real dtype (`x += a * c`), `cg` returns the real parts of the solution while
    `cost` ends with 0 (`C66_real_start`, `C66_violated_start`).  With data of real dtype and an operator with
    complex entries (`self.r = self.y - …`), it solves Re(A x) = y and again `cost` ends with 0
    (`C66_real_data`, `C66_violated_data`).  NumPy gives a ComplexWarning at most.
    `cgls` without damping, with complex data and a start vector of real dtype, likewise returns the real parts of a
    least-squares solution while `cost` ends with the misfit of that solution; the squared misfit of what is returned is
    larger by ‖A (x - Re x)‖² (`C99_returns`, `C99_violated`).
28. The constructor checks `len(global_shape) <= axis` only, so negative axes pass.  They work as axes counted
    from the end (C68), with two exceptions.  `norm(axis=-1)` is the norm of all entries, so the norms
    along the axis of an array created with `axis=-1` cannot be computed: -1 gives one number, and every other
    value, also `ndim - 1`, raises NotImplementedError (`C68_violated_norm`, `C68_norm_other`).  Arrays that
    are not scattered accept `axis < -ndim` (`C68_before_first_broadcast`); scattered ones raise IndexError on
    all ranks (`C68_before_first_scatter`).
29. Arrays of integer dtype, as `to_dist` makes from integer NumPy arrays: `x * 0.5` and `x + y` truncate
    (`C71_multiply`, `C71_add`).  With integer data (and a float start vector) `cg` may change nothing and
    report the residual 0 (`C71_wrong`); every entry of `cost` is the root of a natural number
    (`C71_cg_cost`).  With a start vector of integers the result has integer entries whatever the equation
    (`C71_cg_integer`, `C71_cgls_integer`).
30. `finalize` replaces the list `self.cost` by a NumPy array, which has no `append`.  So `step` or `run` after
    `solve` computes a whole step, overwriting the array that `solve` returned, and then raises AttributeError on
    every rank (`C80_cg_run_false`, `C80_cgls_run_false`).
31. examples/plot_distributed_array.py:130-132 makes the mask with `np.repeat(np.arange(size // subsize), subsize)`,
    `subsize = max(1, size // 2)`.  For odd numbers of ranks from 5 on this has `size - 1` entries: the last rank raises
    IndexError at `mask[base_comm.rank]` and the others wait forever in `Split` (`C95_odd`).
32. examples/plot_derivative.py works on at most six ranks: on seven or more some rank raises in every
    execution, in one of the first two sections, in the Laplacian, or at the latest in the adjoint of
    the gradient (`C97_script`, `C97_script_never`).

## 5. Testing the theorems

`seeded/LOG.jsonl` records the edits of the model that were tried in a scratch copy and the
theorems that failed.
