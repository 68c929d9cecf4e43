{"id": "C01", "title": "Distribute / gather round trip", "statement": "Distributing any global array with DistributedArray.to_dist and then calling asarray() returns, on every rank, exactly the original array, whatever the partition, the distribution axis, the number of ranks or the (valid) custom local_shapes.", "quantifier": "all arrays of any shape (also with zero-length or shorter-than-#ranks axes), all partitions, all axes, all rank counts, all valid local_shapes, all schedules", "why_tests_cant": "tests fix a few shapes divisible by the number of ranks used in CI", "anchors": ["pylops_mpi/DistributedArray.py:DistributedArray.to_dist", "pylops_mpi/DistributedArray.py:DistributedArray.asarray", "pylops_mpi/DistributedArray.py:local_split"]}
{"id": "C02", "title": "Default split is a balanced partition", "statement": "When no local_shapes are given, the local shapes of a SCATTER array over the ranks sum to the global length along the distribution axis, differ by at most one between any two ranks with larger parts first, and agree with the global shape on all other axes; for the broadcast partitions every rank's local shape is the global shape.", "quantifier": "all shapes, axes, rank counts and ranks", "why_tests_cant": "infinitely many (length, #ranks) pairs", "anchors": ["pylops_mpi/DistributedArray.py:local_split"]}
{"id": "C03", "title": "Broadcast arrays stay consistent across ranks", "statement": "After any sequence of assignments and array operations on a Partition.BROADCAST array, all ranks hold the same content, and an assignment stores the value supplied by rank 0 even when ranks supply different values.", "quantifier": "all rank counts, all histories of operations, all rank-dependent values", "why_tests_cant": "requires all histories of writes with divergent per-rank values", "anchors": ["pylops_mpi/DistributedArray.py:DistributedArray.__setitem__", "pylops_mpi/DistributedArray.py:Partition"]}
{"id": "C04", "title": "Scattered and unsafe-broadcast writes are purely local", "statement": "Assigning to a SCATTER or UNSAFE_BROADCAST array changes only the calling rank's local array to the value supplied by that rank, leaves the data of every other rank unchanged, and needs no communication.", "quantifier": "all rank counts, values and subsets of ranks that perform the write", "why_tests_cant": "quantifies over every subset of writing ranks and schedule", "anchors": ["pylops_mpi/DistributedArray.py:DistributedArray.__setitem__"]}
{"id": "C05", "title": "Element-wise arithmetic commutes with gathering", "statement": "For compatible distributed arrays x, y of the same dtype, asarray() of -x, x+y, x-y, x*y, x*scalar, x.conj(), x.copy() and x.zeros_like() equals the same NumPy operation applied to asarray() of the operands, and the result has the layout (global shape, partition, axis, local shapes) of x.", "quantifier": "all shapes, layouts, values, rank counts, schedules", "why_tests_cant": "unbounded shapes and values", "anchors": ["pylops_mpi/DistributedArray.py:DistributedArray.add", "pylops_mpi/DistributedArray.py:DistributedArray.multiply", "pylops_mpi/DistributedArray.py:DistributedArray.__neg__", "pylops_mpi/DistributedArray.py:DistributedArray.conj", "pylops_mpi/DistributedArray.py:DistributedArray.copy", "pylops_mpi/DistributedArray.py:DistributedArray.zeros_like"]}
{"id": "C06", "title": "In-place updates equal out-of-place updates and touch only the receiver", "statement": "x += y and x -= y leave x with the value x+y / x-y, return the same object, and leave every other array object unchanged; copy(), +, -, *, conj() and ravel() return objects that share no memory with their operands.", "quantifier": "all heaps of live arrays, all aliasing patterns including x += x", "why_tests_cant": "aliasing patterns and histories are unbounded", "anchors": ["pylops_mpi/DistributedArray.py:DistributedArray.iadd", "pylops_mpi/DistributedArray.py:DistributedArray.__isub__", "pylops_mpi/DistributedArray.py:StackedDistributedArray.iadd"]}
{"id": "C07", "title": "Dot product is the global bilinear dot product on every rank", "statement": "Without a mask, x.dot(y) returns on every rank the same number, equal to the (unconjugated) dot product of the flattened global arrays, independently of partition, axis, local shapes and rank count.", "quantifier": "all compatible arrays, rank counts, layouts, schedules", "why_tests_cant": "unbounded shapes and layouts", "anchors": ["pylops_mpi/DistributedArray.py:DistributedArray.dot"]}
{"id": "C08", "title": "Masked reductions range over exactly the ranks with the same mask value", "statement": "With a mask, dot() and norm() of a scattered array return on each rank the reduction restricted to the local arrays of the ranks that carry the same mask value as that rank.", "quantifier": "all masks, rank counts, arrays", "why_tests_cant": "all maskings of all rank counts", "anchors": ["pylops_mpi/DistributedArray.py:DistributedArray.dot", "pylops_mpi/DistributedArray.py:DistributedArray._allreduce_subcomm", "pylops_mpi/DistributedArray.py:DistributedArray._compute_vector_norm"]}
{"id": "C09", "title": "Flattened norm is the norm of the global array", "statement": "Without a mask x.norm(ord) returns on every rank the vector ord-norm of the flattened global array for ord None, 0, inf, -inf and any non-zero finite order.", "quantifier": "all arrays, orders, layouts, rank counts", "why_tests_cant": "unbounded arrays and orders", "anchors": ["pylops_mpi/DistributedArray.py:DistributedArray.norm", "pylops_mpi/DistributedArray.py:DistributedArray._compute_vector_norm"]}
{"id": "C10", "title": "Norm along the distribution axis", "statement": "For a scattered array, x.norm(ord, axis=x.axis) equals numpy.linalg.norm(x.asarray(), ord, axis) entry by entry; any other non-negative axis raises NotImplementedError.", "quantifier": "all shapes, axes, orders, rank counts", "why_tests_cant": "unbounded shapes and axes", "anchors": ["pylops_mpi/DistributedArray.py:DistributedArray.norm", "pylops_mpi/DistributedArray.py:DistributedArray._compute_vector_norm"]}
{"id": "C11", "title": "Norm and dot are consistent", "statement": "x.norm()**2 equals x.dot(x.conj()) for every array, partition and mask.", "quantifier": "all arrays, layouts, masks", "why_tests_cant": "all masks and layouts", "anchors": ["pylops_mpi/DistributedArray.py:DistributedArray.dot", "pylops_mpi/DistributedArray.py:DistributedArray.norm"]}
{"id": "C12", "title": "Ghost cells are the neighbouring entries of the global array", "statement": "add_ghost_cells(cells_front, cells_back) returns on each rank the contiguous window of the global array that extends the local block by the requested number of entries from the previous / next rank (clipped at the first / last rank), when every rank owns enough entries.", "quantifier": "all rank counts, local sizes, per-rank cell counts, axes, schedules and send-buffering behaviours", "why_tests_cant": "point-to-point interleavings and buffering choices are unbounded", "anchors": ["pylops_mpi/DistributedArray.py:DistributedArray.add_ghost_cells"]}
{"id": "C13", "title": "Ghost cell exchange never delivers wrong data when a rank is too small", "statement": "If some rank owns fewer entries than its neighbour requests, that rank raises ValueError; no rank ever returns a ghosted array with missing or wrong cells from it.", "quantifier": "all rank counts, local sizes, cell counts and schedules", "why_tests_cant": "needs every schedule of a failing run", "anchors": ["pylops_mpi/DistributedArray.py:DistributedArray.add_ghost_cells"]}
{"id": "C14", "title": "Ghost cell exchange is deadlock free without relying on buffering", "statement": "When every rank owns enough entries, every execution of add_ghost_cells terminates on all ranks, under any interleaving and for any choice of the MPI library to buffer or synchronise individual sends.", "quantifier": "all interleavings and buffering choices, all rank counts", "why_tests_cant": "schedules are not controllable in tests", "anchors": ["pylops_mpi/DistributedArray.py:DistributedArray.add_ghost_cells"]}
{"id": "C15", "title": "Results are schedule independent", "statement": "Every execution of a collective API call (constructor, to_dist, asarray, arithmetic, dot, norm, ghost cells, matvec/rmatvec, solver) from the same inputs ends with the same per-rank results, whatever the interleaving of ranks and the buffering of sends; if one execution completes, none can deadlock.", "quantifier": "all MPI schedules and buffering choices", "why_tests_cant": "schedules are not controllable in tests", "anchors": ["pylops_mpi/DistributedArray.py:DistributedArray", "pylops_mpi/LinearOperator.py:MPILinearOperator"]}
{"id": "C16", "title": "Flattening a distributed array", "statement": "x.ravel().asarray() equals x.asarray().ravel() (C order).", "quantifier": "all shapes, axes, partitions, rank counts", "why_tests_cant": "unbounded shapes; wrong for non-zero axis", "anchors": ["pylops_mpi/DistributedArray.py:DistributedArray.ravel"]}
{"id": "C17", "title": "Incompatible operands are rejected", "statement": "add, iadd, multiply and dot raise ValueError on any rank where partition, local shape or mask of the operands differ, before any value is produced on that rank.", "quantifier": "all pairs of arrays and ranks", "why_tests_cant": "unbounded pairs of layouts", "anchors": ["pylops_mpi/DistributedArray.py:DistributedArray._check_partition_shape", "pylops_mpi/DistributedArray.py:DistributedArray._check_mask"]}
{"id": "C18", "title": "Operand incompatibility is reported on every rank", "statement": "If two distributed arrays have different local shapes on some rank, adding them raises ValueError on all ranks (no rank is left waiting).", "quantifier": "all pairs of arrays, rank counts, schedules", "why_tests_cant": "requires mismatches on a strict subset of ranks", "anchors": ["pylops_mpi/DistributedArray.py:DistributedArray._check_partition_shape", "pylops_mpi/DistributedArray.py:DistributedArray.add"]}
{"id": "C19", "title": "Constructor validates custom local shapes", "statement": "Construction with local_shapes raises ValueError unless there is exactly one shape per rank, the lengths along the axis sum to the global length and the own local shape agrees with the global shape elsewhere (scatter) or equals the global shape (broadcast); an axis out of range raises IndexError.", "quantifier": "all local_shapes lists, global shapes, axes, partitions, rank counts", "why_tests_cant": "unbounded shapes", "anchors": ["pylops_mpi/DistributedArray.py:DistributedArray.__init__", "pylops_mpi/DistributedArray.py:DistributedArray._check_local_shapes"]}
{"id": "C20", "title": "Layout invariant", "statement": "Every DistributedArray reachable through the API has, on all ranks, the same global shape, partition, axis and mask, local arrays whose shapes match local_shape, and local shapes that tile the global shape along the axis (scatter) or equal it (broadcast).", "quantifier": "all histories of API calls, rank counts", "why_tests_cant": "histories are unbounded", "anchors": ["pylops_mpi/DistributedArray.py:DistributedArray"]}
{"id": "C21", "title": "Operators redistribute their input", "statement": "A 1-D scattered input vector with any valid local shapes is brought by the operator entry (reshaped decorator) into the layout the operator needs without changing the global vector, or an error is raised; the operator result therefore does not depend on how the input was split.", "quantifier": "all input splits, target splits, rank counts", "why_tests_cant": "unbounded combinations of splits", "anchors": ["pylops_mpi/utils/decorators.py:reshaped"]}
{"id": "C22", "title": "Dimension mismatch is rejected", "statement": "matvec / rmatvec of any MPI operator of shape (M, N) raise ValueError on all ranks when the input's global shape is not (N,) / (M,).", "quantifier": "all operators and inputs", "why_tests_cant": "unbounded shapes", "anchors": ["pylops_mpi/LinearOperator.py:MPILinearOperator.matvec", "pylops_mpi/LinearOperator.py:MPILinearOperator.rmatvec"]}
{"id": "C23", "title": "MPIBlockDiag is the global block-diagonal operator", "statement": "matvec / rmatvec of MPIBlockDiag gather to the result of applying the block-diagonal operator (resp. its adjoint) made of all ranks' operators, in rank order, to the gathered input; shape is the sum of the block shapes.", "quantifier": "all rank counts, all per-rank lists of operators of any shapes, all inputs", "why_tests_cant": "unbounded shapes and rank counts", "anchors": ["pylops_mpi/basicoperators/BlockDiag.py:MPIBlockDiag"]}
{"id": "C24", "title": "MPIVStack is the global vertical stack", "statement": "matvec of MPIVStack on a broadcast vector gathers to the concatenation of all operators' outputs; rmatvec returns a broadcast vector equal to the sum of all operators' adjoints applied to their slices; operators with different column counts are rejected on all ranks.", "quantifier": "all rank counts and operator lists, all inputs", "why_tests_cant": "unbounded shapes and rank counts", "anchors": ["pylops_mpi/basicoperators/VStack.py:MPIVStack"]}
{"id": "C25", "title": "MPIHStack is the global horizontal stack", "statement": "matvec of MPIHStack returns a broadcast vector equal to the sum of all operators applied to their slices of the input; rmatvec gathers to the concatenation of the adjoints; operators with different row counts are rejected on all ranks.", "quantifier": "all rank counts and operator lists, all inputs", "why_tests_cant": "unbounded shapes and rank counts", "anchors": ["pylops_mpi/basicoperators/HStack.py:MPIHStack"]}
{"id": "C26", "title": "Stacking operators pass the dot test exactly", "statement": "For MPIBlockDiag, MPIVStack and MPIHStack, <Op u, v> = <u, Op^H v> for all conforming u, v whenever each local operator satisfies it.", "quantifier": "all operators, rank counts, vectors", "why_tests_cant": "dot tests use random vectors", "anchors": ["pylops_mpi/basicoperators/BlockDiag.py:MPIBlockDiag", "pylops_mpi/basicoperators/VStack.py:MPIVStack", "pylops_mpi/basicoperators/HStack.py:MPIHStack"]}
{"id": "C27", "title": "Operator algebra acts point-wise", "statement": "A+B, A-B, -A, alpha*A, A*B, A**p, A.conj(), A.T and A.H applied to x return A x + B x, A x - B x, -(A x), alpha (A x), A (B x), A applied p times, conj(A conj x), conj(A^H conj x) and A^H x; shape-incompatible combinations raise ValueError.", "quantifier": "all operator expressions of any depth, all inputs, rank counts", "why_tests_cant": "unbounded expression trees", "anchors": ["pylops_mpi/LinearOperator.py:_ProductLinearOperator", "pylops_mpi/LinearOperator.py:_SumLinearOperator", "pylops_mpi/LinearOperator.py:_ScaledLinearOperator", "pylops_mpi/LinearOperator.py:_PowerLinearOperator", "pylops_mpi/LinearOperator.py:_ConjLinearOperator", "pylops_mpi/LinearOperator.py:_TransposedLinearOperator", "pylops_mpi/LinearOperator.py:_AdjointLinearOperator"]}
{"id": "C28", "title": "Adjoint of composite operators", "statement": "For every operator expression whose leaves are adjoint pairs, <Op u, v> = <u, Op.H v>, and Op.H.matvec agrees with Op.rmatvec and Op.H.H with Op.", "quantifier": "all operator expressions of any depth", "why_tests_cant": "unbounded expression trees", "anchors": ["pylops_mpi/LinearOperator.py:MPILinearOperator.adjoint", "pylops_mpi/LinearOperator.py:_ProductLinearOperator._adjoint", "pylops_mpi/LinearOperator.py:_ScaledLinearOperator._adjoint", "pylops_mpi/LinearOperator.py:_SumLinearOperator._adjoint", "pylops_mpi/LinearOperator.py:_ConjLinearOperator._adjoint"]}
{"id": "C29", "title": "MPIFirstDerivative equals the serial stencil", "statement": "For every kind (forward, backward, centered order 3/5, edge on/off) the gathered matvec result equals the documented finite-difference stencil along axis 0 of the global array, independent of the number of ranks and of the layout of the input.", "quantifier": "all dims, samplings, kinds, rank counts, inputs", "why_tests_cant": "unbounded dims and rank counts, small local blocks", "anchors": ["pylops_mpi/basicoperators/FirstDerivative.py:MPIFirstDerivative"]}
{"id": "C30", "title": "MPIFirstDerivative forward and adjoint match", "statement": "<D u, v> = <u, D^H v> for every kind, order and edge setting.", "quantifier": "all dims, rank counts, inputs", "why_tests_cant": "dot tests use large dims only", "anchors": ["pylops_mpi/basicoperators/FirstDerivative.py:MPIFirstDerivative"]}
{"id": "C31", "title": "MPISecondDerivative equals the serial stencil", "statement": "For every kind (forward, backward, centered with edge on/off) the gathered matvec result equals the documented second-difference stencil along axis 0 of the global array, independent of the number of ranks and of the layout of the input.", "quantifier": "all dims, samplings, kinds, rank counts, inputs", "why_tests_cant": "unbounded dims and rank counts", "anchors": ["pylops_mpi/basicoperators/SecondDerivative.py:MPISecondDerivative"]}
{"id": "C32", "title": "MPISecondDerivative forward and adjoint match", "statement": "<D u, v> = <u, D^H v> for every kind and edge setting.", "quantifier": "all dims, rank counts, inputs", "why_tests_cant": "dot tests use large dims only", "anchors": ["pylops_mpi/basicoperators/SecondDerivative.py:MPISecondDerivative"]}
{"id": "C33", "title": "MPILaplacian is the weighted sum of second derivatives of the requested kind", "statement": "MPILaplacian(dims, axes, weights, sampling, kind).matvec equals the weighted sum over the axes of the second derivative of the requested kind along that axis; its adjoint is the weighted sum of the adjoints.", "quantifier": "all dims, axes, weights, kinds, rank counts", "why_tests_cant": "tests only exercise the centered kind", "anchors": ["pylops_mpi/basicoperators/Laplacian.py:MPILaplacian"]}
{"id": "C34", "title": "MPIGradient stacks the first derivatives", "statement": "MPIGradient.matvec returns the stack of the first derivatives of the requested kind along every axis and rmatvec the sum of their adjoints; it satisfies the adjoint identity.", "quantifier": "all dims, kinds, rank counts", "why_tests_cant": "unbounded dims", "anchors": ["pylops_mpi/basicoperators/Gradient.py:MPIGradient"]}
{"id": "C35", "title": "StackedDistributedArray operations act component-wise", "statement": "add, sub, neg, multiply, conj, copy, dot and norm of stacked arrays equal the corresponding operation on the concatenation of the flattened components (dot and norms combine to the global dot and norm), and stacks of different lengths or component shapes are rejected.", "quantifier": "all stacks, orders, rank counts", "why_tests_cant": "unbounded stacks", "anchors": ["pylops_mpi/DistributedArray.py:StackedDistributedArray"]}
{"id": "C36", "title": "Stacked operators act block-wise and are adjoint pairs", "statement": "MPIStackedVStack and MPIStackedBlockDiag apply their operators to (the components of) the input in order, and their rmatvec is the adjoint of matvec whenever the constituents are adjoint pairs.", "quantifier": "all operator lists, inputs, rank counts", "why_tests_cant": "unbounded operator lists", "anchors": ["pylops_mpi/basicoperators/VStack.py:MPIStackedVStack", "pylops_mpi/basicoperators/BlockDiag.py:MPIStackedBlockDiag"]}
{"id": "C37", "title": "Algebra of stacked operators", "statement": "Sum, difference, product, scaling, conjugate, transpose and power of stacked operators act as the corresponding algebraic combination; in particular (Op**p) x applies Op p times and (A - B) x = A x - B x for operators of equal shape.", "quantifier": "all stacked operators, exponents, inputs", "why_tests_cant": "the suite's power test never builds a power; unbounded p", "anchors": ["pylops_mpi/StackedLinearOperator.py:_PowerLinearOperator", "pylops_mpi/StackedLinearOperator.py:_SumStackedLinearOperator", "pylops_mpi/StackedLinearOperator.py:_ProductStackedLinearOperator", "pylops_mpi/StackedLinearOperator.py:_ScaledStackedLinearOperator"]}
{"id": "C38", "title": "MPIFredholm1 is the slice-wise matrix product", "statement": "For G distributed over ranks along its first dimension, matvec computes d(k) = G(k) m(k) for every global slice k and returns it on all ranks; rmatvec computes G(k)^H d(k); results do not depend on saveGt, usematmul or the distribution of slices, and the adjoint identity holds.", "quantifier": "all kernels, slice distributions, nz, rank counts", "why_tests_cant": "unbounded dims and distributions", "anchors": ["pylops_mpi/signalprocessing/Fredholm1.py:MPIFredholm1"]}
{"id": "C39", "title": "MPIMDC is the chained operator and an adjoint pair", "statement": "MPIMDC applies inverse FFT * frequency restriction^H * Fredholm (scaled by dr*dt*sqrt(nt) unless prescaled, conjugated if conj) * frequency restriction * FFT, nfreq is clamped to ceil((nt+1)/2), even nt is rejected when twosided, and the chain satisfies the adjoint identity whenever its factors do.", "quantifier": "all sizes, flags, rank counts", "why_tests_cant": "unbounded dims and flags", "anchors": ["pylops_mpi/waveeqprocessing/MDC.py:_MDC", "pylops_mpi/waveeqprocessing/MDC.py:MPIMDC"]}
{"id": "C40", "title": "CG residual invariant", "statement": "After setup and after every CG step the tracked residual equals y - Op x for the current iterate, cost[k] is the norm of the residual at iterate k, and len(cost) = iiter + 1.", "quantifier": "all operators, data, starting points, step counts (exact arithmetic)", "why_tests_cant": "unbounded iteration histories", "anchors": ["pylops_mpi/optimization/cls_basic.py:CG.setup", "pylops_mpi/optimization/cls_basic.py:CG.step"]}
{"id": "C41", "title": "Solver loop control", "statement": "cg/cgls perform at most niter steps, stop as soon as the squared residual measure is <= tol, call the callback exactly once per step with the updated iterate, and report iiter equal to the number of steps; niter None in both setup and run raises ValueError.", "quantifier": "all operators, data, niter, tol", "why_tests_cant": "unbounded histories", "anchors": ["pylops_mpi/optimization/cls_basic.py:CG.run", "pylops_mpi/optimization/cls_basic.py:CGLS.run", "pylops_mpi/optimization/cls_basic.py:CGLS.finalize"]}
{"id": "C42", "title": "CG solves Hermitian positive definite systems", "statement": "For a Hermitian positive definite Op of size N, exact-arithmetic CG never divides by zero while the residual is non-zero, decreases the error energy norm at every step, keeps residuals orthogonal and directions Op-conjugate, and reaches the solution in at most N steps.", "quantifier": "all HPD operators of any size, all data", "why_tests_cant": "convergence on all inputs is not testable", "anchors": ["pylops_mpi/optimization/cls_basic.py:CG.step"]}
{"id": "C43", "title": "CGLS invariants", "statement": "After every CGLS step s = y - Op x, q = Op c and the gradient used for the next direction is Op^H s - damp^2 x; cost[k] is the norm of s at iterate k and cost1 the damped objective's square root.", "quantifier": "all operators, data, damping, starting points, step counts", "why_tests_cant": "unbounded histories", "anchors": ["pylops_mpi/optimization/cls_basic.py:CGLS.setup", "pylops_mpi/optimization/cls_basic.py:CGLS.step"]}
{"id": "C44", "title": "CGLS starts from the gradient of the damped objective", "statement": "At setup, CGLS's first search direction is Op^H (y - Op x0) - damp^2 x0 and cost1[0]^2 = ||y - Op x0||^2 + damp^2 ||x0||^2, the (negative half) gradient and the value of the documented functional.", "quantifier": "all operators, data, damping and starting points", "why_tests_cant": "upstream tests only use damp=0 / x0=0", "anchors": ["pylops_mpi/optimization/cls_basic.py:CGLS.setup"]}
{"id": "C45", "title": "CGLS decreases the damped objective and reports documented norms", "statement": "From a zero starting point (or damp 0), every CGLS step does not increase ||y - Op x||^2 + damp^2 ||x||^2, the iteration solves the normal equations in at most as many steps as unknowns, and r1norm / r2norm returned are ||y - Op x|| and the square root of the damped objective.", "quantifier": "all operators, data, damping", "why_tests_cant": "unbounded inputs", "anchors": ["pylops_mpi/optimization/cls_basic.py:CGLS.step", "pylops_mpi/optimization/cls_basic.py:CGLS.finalize"]}
{"id": "C46", "title": "Distributed solvers equal serial solvers", "statement": "cg and cgls on distributed arrays produce, on every rank and for any number of ranks and layout, the iterates, iteration counts and cost histories of the serial algorithm on the gathered operator, data and starting point.", "quantifier": "all rank counts, layouts, operators, data, iteration counts, schedules", "why_tests_cant": "unbounded histories and rank counts", "anchors": ["pylops_mpi/optimization/cls_basic.py:CG", "pylops_mpi/optimization/cls_basic.py:CGLS"]}
{"id": "C47", "title": "Solvers do not modify their inputs", "statement": "cg and cgls leave the arrays y and x0 passed by the caller unchanged.", "quantifier": "all inputs, iteration counts, operators", "why_tests_cant": "unbounded histories of in-place updates", "anchors": ["pylops_mpi/optimization/cls_basic.py:CG.solve", "pylops_mpi/optimization/cls_basic.py:CGLS.solve"]}
{"id": "C48", "title": "dottest verdict", "statement": "dottest returns True exactly when |u^H(Op^H v) - (Op u)^H v| <= atol + rtol |(Op u)^H v|, raises AssertionError instead of returning False when raiseerror is set, rejects nr/nc that differ from the shape, and always passes for exact adjoint pairs.", "quantifier": "all operators, vectors, tolerances", "why_tests_cant": "unbounded inputs", "anchors": ["pylops_mpi/utils/dottest.py:dottest"]}
{"id": "C49", "title": "Mixed-dtype arithmetic keeps the value", "statement": "Adding or multiplying distributed arrays (or an array and a scalar) of different dtypes gives the mathematically correct value, irrespective of operand order.", "quantifier": "all dtype combinations and values", "why_tests_cant": "requires all dtype combinations", "anchors": ["pylops_mpi/DistributedArray.py:DistributedArray.add", "pylops_mpi/DistributedArray.py:DistributedArray.multiply", "pylops_mpi/LinearOperator.py:_ScaledLinearOperator"]}
{"id": "C50", "title": "zeros_like is a neutral element", "statement": "x + x.zeros_like() equals x for every distributed array, with or without mask.", "quantifier": "all arrays, masks", "why_tests_cant": "all masks", "anchors": ["pylops_mpi/DistributedArray.py:DistributedArray.zeros_like"]}
{"id": "C51", "title": "No result depends on uninitialised memory", "statement": "Although arrays are allocated uninitialised, the local arrays returned by to_dist, arithmetic, copy, zeros_like, ravel and operator applications do not depend on the initial memory content.", "quantifier": "all initial memory contents, rank counts, inputs", "why_tests_cant": "uninitialised content cannot be enumerated", "anchors": ["pylops_mpi/DistributedArray.py:DistributedArray.__init__"]}
{"id": "C52", "title": "The gathered array is a private copy", "statement": "Writing into the NumPy array returned by x.asarray() changes neither x nor any other distributed array.", "quantifier": "all arrays, partitions, histories and executions", "why_tests_cant": "aliasing shows only when the caller later writes into the result, on some partitions", "anchors": ["pylops_mpi/DistributedArray.py:DistributedArray.asarray"]}
{"id": "C53", "title": "Applying an operator leaves its argument unchanged", "statement": "For every operator built with the library (the operator classes and all expressions of them, also stacked ones), matvec and rmatvec leave the argument and every other existing array unchanged, also when they raise, and return a new array that shares no memory with existing ones; the in-place assignments inside the methods compute the same values as the out-of-place description of the operators.", "quantifier": "all operator classes, constructor arguments, expressions, reachable memories, arguments and executions", "why_tests_cant": "tests compare results; an input that is overwritten with equal data, or only on some rank or partition, goes unnoticed", "anchors": ["pylops_mpi/LinearOperator.py:MPILinearOperator.matvec", "pylops_mpi/basicoperators/BlockDiag.py:MPIBlockDiag._matvec", "pylops_mpi/basicoperators/FirstDerivative.py:MPIFirstDerivative._matvec", "pylops_mpi/signalprocessing/Fredholm1.py:MPIFredholm1._matvec", "pylops_mpi/StackedLinearOperator.py:MPIStackedLinearOperator.matvec"]}
{"id": "C54", "title": "Wrapped serial operators act like the serial ones on replicated vectors", "statement": "An expression of operators MPILinearOperator(Op_i) (or asmpilinearoperator(Op_i)) of one dtype (with real scalars if it is real), applied with matvec or rmatvec to a vector held in full by every rank, gives on every rank the whole result of the same expression of the serial operators, with the partition of the input; asmpilinearoperator returns distributed operators as they are.", "quantifier": "all numbers of ranks, serial operators, expressions of any depth accepted by the shape checks, vectors, BROADCAST and UNSAFE_BROADCAST, executions", "why_tests_cant": "tests wrap a few operators on the process counts at hand and rarely nest them", "anchors": ["pylops_mpi/LinearOperator.py:MPILinearOperator._matvec", "pylops_mpi/LinearOperator.py:MPILinearOperator._rmatvec", "pylops_mpi/LinearOperator.py:asmpilinearoperator"]}
{"id": "C55", "title": "Combined operators do exactly what their definition says, for any operator classes", "statement": "For any operators A, B (also user-defined ones that communicate, fail or return anything), scalars s and arrays x: if accepted, (A*B)*x performs exactly the computation and communication of A*(B*x), (A+B)*x of A*x + B*x, A.H of rmatvec/matvec of A, and A.H.H of A; A*s and s*A are the same operator; @ is * except that scalars are rejected with ValueError; arrays that are not one-dimensional and negative powers are rejected with ValueError. The same holds for stacked operators.", "quantifier": "all operators, arrays, scalars, numbers of ranks and executions", "why_tests_cant": "tests use the classes of the library with matching shapes; error and communication behaviour of arbitrary operators is not observed", "anchors": ["pylops_mpi/LinearOperator.py:MPILinearOperator.dot", "pylops_mpi/LinearOperator.py:MPILinearOperator.__matmul__", "pylops_mpi/LinearOperator.py:MPILinearOperator.__rmul__", "pylops_mpi/LinearOperator.py:_ProductLinearOperator", "pylops_mpi/StackedLinearOperator.py:MPIStackedLinearOperator.dot"]}
{"id": "C56", "title": "The solvers can be interrupted and resumed", "statement": "For CG and CGLS, run(niter=k) followed by run(niter=m) with k <= m performs exactly the computation and communication of run(niter=m), hands the same iterates to the callback and ends in the same state with the same returned object; a run with a number of iterations already reached does nothing; cg and cgls with niter=m are setup, run(k), run(m) (and finalize).", "quantifier": "all operators (also such that change their argument or fail), callbacks, solver states, iterates, tolerances, k <= m, numbers of ranks, executions", "why_tests_cant": "tests call solve once; the resumed run differs only if some state is kept in local variables or reset, for particular k and stopping points", "anchors": ["pylops_mpi/optimization/cls_basic.py:CG.run", "pylops_mpi/optimization/cls_basic.py:CGLS.run", "pylops_mpi/optimization/basic.py:cg", "pylops_mpi/optimization/basic.py:cgls"]}
{"id": "C57", "title": "Expressions of linear operators are linear", "statement": "If the operators at the leaves are linear (in particular if matvec and rmatvec of each are adjoint to each other), then for every accepted expression of any depth, matvec and rmatvec of s*x + t*y give, on all ranks and in all executions, s times the result for x plus t times the result for y.", "quantifier": "all numbers of ranks, layouts, expressions, vectors, scalars, both directions, executions", "why_tests_cant": "dot tests check two random vectors; linearity is a statement about all vectors and scalars", "anchors": ["pylops_mpi/LinearOperator.py:MPILinearOperator.matvec", "pylops_mpi/LinearOperator.py:MPILinearOperator.rmatvec", "pylops_mpi/LinearOperator.py:_ConjLinearOperator", "pylops_mpi/LinearOperator.py:_TransposedLinearOperator", "pylops_mpi/LinearOperator.py:_PowerLinearOperator"]}
{"id": "C58", "title": "Results do not depend on the number of ranks and on the distribution", "statement": "Let two programs, on n and on n' ranks with any layouts, have operators that compute the same functions. Distributing a vector, applying any expression of the operators or its adjoint and gathering the result gives the same array on all ranks of both; distributing data and starting point, calling cg or cgls and gathering the solution gives the same solution, number of iterations, cost history (and istop, r1norm, r2norm), or the same exception. MPIBlockDiag of the same sequence of blocks, cut into groups in two ways, gives the same result.", "quantifier": "all pairs of numbers of ranks, layouts (distributed in any way, replicated), operators, expressions, data, starting points, limits, tolerances, damping, executions", "why_tests_cant": "each run of the test suite has one number of ranks and compares against a serial result up to rounding for one distribution", "anchors": ["pylops_mpi/DistributedArray.py:DistributedArray.to_dist", "pylops_mpi/DistributedArray.py:DistributedArray.asarray", "pylops_mpi/LinearOperator.py:MPILinearOperator.matvec", "pylops_mpi/optimization/basic.py:cg", "pylops_mpi/optimization/basic.py:cgls", "pylops_mpi/basicoperators/BlockDiag.py:MPIBlockDiag._matvec"]}
{"id": "C59", "title": "Solvers on arrays with a mask solve one problem per group", "statement": "With a mask, the ranks of one colour hold a vector of their own and MPIBlockDiag applies the block-diagonal matrix of the blocks of these ranks. cg and cgls return, on every rank, the part of the iterate, the iteration count and the cost history of the serial algorithm run on the operator, data and starting point of the rank's own group, whatever the other groups do.", "quantifier": "all numbers of ranks, masks, local sizes, operators, data, starting points, limits, tolerances, executions", "why_tests_cant": "the groups meet in every collective operation; only some combinations of data make them stop at different iterations", "anchors": ["pylops_mpi/DistributedArray.py:subcomm_split", "pylops_mpi/DistributedArray.py:DistributedArray.dot", "pylops_mpi/optimization/cls_basic.py:CG", "pylops_mpi/optimization/cls_basic.py:CGLS", "pylops_mpi/basicoperators/BlockDiag.py:MPIBlockDiag._matvec"]}
{"id": "C60", "title": "The plotting functions show the array and its owners", "statement": "For a scattered array (with or without mask), plot_distributed_array shows on rank 0 the gathered array and beside it the array of the same shape in which every entry is the number of the rank that holds it; the other ranks show nothing. A BROADCAST array is refused on every rank. plot_local_arrays shows on rank 0 the local arrays of all ranks in rank order.", "quantifier": "all numbers of ranks, shapes, axes, partitions, local sizes, masks, contents, executions", "why_tests_cant": "there is no test of the plotting module; the picture depends on shape, axis and number of ranks", "anchors": ["pylops_mpi/plotting/plotting.py:plot_distributed_array", "pylops_mpi/plotting/plotting.py:plot_local_arrays"]}
{"id": "C61", "title": "Showing the progress of a solver does not change its results", "statement": "cg and cgls with show=True return on every rank what they return with show=False and make the same MPI calls; only rank 0 prints. Rank 0 prints one line for each iteration that is among the first itershow[0], the last itershow[1] or a multiple of itershow[2], with its number, the first entry of the iterate on rank 0 (of the first component for stacked arrays), the residual norm and for cgls the second cost.", "quantifier": "all numbers of ranks, arrays, operators, data, limits, tolerances, values of itershow, executions", "why_tests_cant": "no test uses show on stacked arrays or with an empty part on rank 0; a failure in printing happens on one rank only and leaves the others waiting", "anchors": ["pylops_mpi/optimization/cls_basic.py:CG._print_step", "pylops_mpi/optimization/cls_basic.py:CG.setup", "pylops_mpi/optimization/cls_basic.py:CG.run", "pylops_mpi/optimization/cls_basic.py:CGLS._print_step", "pylops_mpi/optimization/cls_basic.py:CGLS.setup", "pylops_mpi/optimization/cls_basic.py:CGLS.run"]}
{"id": "C62", "title": "A callback gets the array that the solver returns, and later iterations overwrite it", "statement": "In cg and cgls every call of callback(x) gets the same array object; it is the object that solve returns. Its entries are overwritten by the next iteration: when there are at least two iterations, a reference kept by the last-but-one call shows at the end a value that differs, on some rank, from the iterate of that call.", "quantifier": "all numbers of ranks, operators, data, starting models, limits, tolerances, callbacks that do not write, executions in which no step divides by zero", "why_tests_cant": "tests use callbacks that only print or count; aliasing appears only when the callback keeps a reference", "anchors": ["pylops_mpi/optimization/cls_basic.py:CG.step", "pylops_mpi/optimization/cls_basic.py:CG.run", "pylops_mpi/optimization/cls_basic.py:CGLS.step", "pylops_mpi/optimization/cls_basic.py:CGLS.run", "pylops_mpi/optimization/basic.py:cg", "pylops_mpi/optimization/basic.py:cgls"]}
{"id": "C63", "title": "Arrays and operators on another communicator behave as if its ranks were all ranks", "statement": "Let the ranks be divided among communicators, and let arrays and operators be created with base_comm set to the communicator of the rank. Then every method returns on each communicator what it returns when the ranks of that communicator are all ranks, whatever the ranks of other communicators do.", "quantifier": "all numbers of ranks, divisions into communicators, orders of the ranks in them, arrays, operators, executions", "why_tests_cant": "tests use COMM_WORLD only; results differ only if a function creates an intermediate array with the default communicator", "anchors": ["pylops_mpi/DistributedArray.py:DistributedArray.dot", "pylops_mpi/DistributedArray.py:DistributedArray.norm", "pylops_mpi/DistributedArray.py:DistributedArray.ravel", "pylops_mpi/utils/decorators.py:reshaped", "pylops_mpi/basicoperators/BlockDiag.py:MPIBlockDiag", "pylops_mpi/basicoperators/VStack.py:MPIVStack", "pylops_mpi/signalprocessing/Fredholm1.py:MPIFredholm1"]}
{"id": "C64", "title": "Reductions give the same result in whatever order MPI combines the contributions", "statement": "The results of dot, norm (all orders), the adjoint of MPIVStack and the integer reductions in the constructors are the same, errors included, for every bracketing and every order in which the MPI implementation combines the contributions of the ranks, even if this differs from call to call and from rank to rank (in exact arithmetic).", "quantifier": "all communicators, contributions, binary trees whose leaves are the ranks in any order", "why_tests_cant": "an MPI implementation uses one algorithm for a given number of ranks and message size", "anchors": ["pylops_mpi/DistributedArray.py:DistributedArray.dot", "pylops_mpi/DistributedArray.py:DistributedArray._compute_vector_norm", "pylops_mpi/DistributedArray.py:DistributedArray._allreduce", "pylops_mpi/DistributedArray.py:DistributedArray._allreduce_subcomm", "pylops_mpi/basicoperators/VStack.py:MPIVStack._rmatvec"]}
{"id": "C65", "title": "The derivative operators return the serial result or raise, also when ranks have too few rows", "statement": "For every kind of stencil, with and without edges, every number of ranks, every number of rows of the first axis and every layout of the input, matvec of MPIFirstDerivative and MPISecondDerivative either returns the finite difference of the global array on all ranks or some rank raises; rmatvec either returns the value of the adjoint on all ranks or some rank raises.", "quantifier": "all kinds, edge flags, samplings, dims, numbers of ranks (including more ranks than rows), scattered and broadcast inputs, input vectors, executions", "why_tests_cant": "tests run with many rows per rank; wrong results arise only for particular relations between the number of rows and the number of ranks", "anchors": ["pylops_mpi/basicoperators/FirstDerivative.py:MPIFirstDerivative", "pylops_mpi/basicoperators/SecondDerivative.py:MPISecondDerivative", "pylops_mpi/DistributedArray.py:DistributedArray.add_ghost_cells"]}
{"id": "C66", "title": "cg returns the solution whatever the dtypes of the data, the start vector and the operator", "statement": "For data, a start vector and an operator of real or complex dtype in any combination, a Hermitian positive definite operator, tolerance 0 and a limit of at least N iterations, cg returns a solution of A x = y on every rank; the residual norms in cost are those of the returned iterates.", "quantifier": "all numbers of ranks, layouts, dtypes, operators, data, start vectors, executions", "why_tests_cant": "the tests give all vectors the dtype of the operator", "anchors": ["pylops_mpi/optimization/cls_basic.py:CG.setup", "pylops_mpi/optimization/cls_basic.py:CG.step", "pylops_mpi/DistributedArray.py:DistributedArray.iadd", "pylops_mpi/DistributedArray.py:DistributedArray.__setitem__"]}
{"id": "C67", "title": "The solvers keep the ranks in step whatever the arithmetic does", "statement": "For arrays and stacks without mask and an operator that on every array either returns on all ranks or raises on all ranks, cg and cgls end in every execution, either returning on all ranks or raising on all ranks; if they return, all ranks have the same number of iterations, cost, istop, r1norm and r2norm, as many callback calls, and arrays of the layout of the start vector, whose replicas are equal if they were equal in the input. This does not depend on how numbers are rounded, whether they overflow to inf or nan, or in which order sums are formed.", "quantifier": "all number types and operations on them, numbers of ranks, layouts (arrays or stacks), contents of the arrays, operators, niter, tol, damp, executions", "why_tests_cant": "a rounding error that sends the ranks different ways shows up only for particular data and numbers of ranks, and then as a hang; the tests also use finite data only", "anchors": ["pylops_mpi/optimization/cls_basic.py:CG.setup", "pylops_mpi/optimization/cls_basic.py:CG.step", "pylops_mpi/optimization/cls_basic.py:CG.run", "pylops_mpi/optimization/cls_basic.py:CGLS.setup", "pylops_mpi/optimization/cls_basic.py:CGLS.step", "pylops_mpi/optimization/cls_basic.py:CGLS.run", "pylops_mpi/optimization/cls_basic.py:CGLS.finalize", "pylops_mpi/DistributedArray.py:DistributedArray._allreduce_subcomm", "pylops_mpi/DistributedArray.py:DistributedArray.dot", "pylops_mpi/DistributedArray.py:DistributedArray.norm", "pylops_mpi/DistributedArray.py:StackedDistributedArray.dot", "pylops_mpi/DistributedArray.py:StackedDistributedArray.norm"]}
{"id": "C68", "title": "Negative axes count from the end", "statement": "An array of d dimensions created or distributed with axis=a, -d <= a < 0, is the array with axis d+a: it has the same local shapes and data, and asarray, the elementwise methods, dot, ravel, add_ghost_cells and norm(axis=a) give the same results (also when the operands designate the axis in different ways). An axis below -d raises IndexError on every rank.", "quantifier": "all numbers of ranks, shapes, partitions, axes, local shapes, masks, data, executions", "why_tests_cant": "no test uses a negative axis; which numbers designate an axis depends on the number of dimensions", "anchors": ["pylops_mpi/DistributedArray.py:local_split", "pylops_mpi/DistributedArray.py:DistributedArray.__init__", "pylops_mpi/DistributedArray.py:DistributedArray._check_local_shapes", "pylops_mpi/DistributedArray.py:DistributedArray.to_dist", "pylops_mpi/DistributedArray.py:DistributedArray.asarray", "pylops_mpi/DistributedArray.py:DistributedArray.norm", "pylops_mpi/DistributedArray.py:DistributedArray.add_ghost_cells"]}
{"id": "C69", "title": "ravel(order) flattens the global array in that order", "statement": "For order C, F, A or K, gathering x.ravel(order) gives numpy.ravel(x.asarray(), order) on every rank.", "quantifier": "all numbers of ranks, shapes, partitions, axes, local shapes, masks, data, orders, executions", "why_tests_cant": "the tests ravel with the default order only; whether the parts follow one another in the flattened array depends on the axis and the order", "anchors": ["pylops_mpi/DistributedArray.py:DistributedArray.ravel", "pylops_mpi/DistributedArray.py:DistributedArray.asarray"]}
{"id": "C70", "title": "The solvers compute what the serial algorithms compute on the global vectors, rounding included", "statement": "For distributed arrays without mask of any partition, cg and cgls perform exactly the operations of the serial algorithms on the global vectors, whatever the arithmetic does: every rank returns its part of the same iterate, the same number of iterations, cost, istop, r1norm and r2norm, the callback sees the parts of the same iterates, and if a scalar operation of the serial algorithm raises then all ranks raise the same error. The number of ranks and the layout enter only through the order of summation in dot products and norms; if that order does not matter, the results are the same for all numbers of ranks and layouts.", "quantifier": "all number types and operations on them, dtypes, numbers of ranks, layouts, contents of the arrays, operators that act as a function of the global vector, niter, tol, damp, executions", "why_tests_cant": "tests compare with the serial solvers up to a tolerance, for a few sizes and numbers of ranks, so an operation in a wrong order or dtype is indistinguishable from rounding", "anchors": ["pylops_mpi/optimization/cls_basic.py:CG.setup", "pylops_mpi/optimization/cls_basic.py:CG.step", "pylops_mpi/optimization/cls_basic.py:CG.run", "pylops_mpi/optimization/cls_basic.py:CGLS.setup", "pylops_mpi/optimization/cls_basic.py:CGLS.step", "pylops_mpi/optimization/cls_basic.py:CGLS.run", "pylops_mpi/optimization/cls_basic.py:CGLS.finalize", "pylops_mpi/DistributedArray.py:DistributedArray.dot", "pylops_mpi/DistributedArray.py:DistributedArray.norm", "pylops_mpi/DistributedArray.py:DistributedArray.add", "pylops_mpi/DistributedArray.py:DistributedArray.multiply"]}
{"id": "C71", "title": "Arrays of integer dtype behave like arrays of real dtype with the same entries", "statement": "Arithmetic on arrays of integer dtype (as to_dist makes from integer NumPy arrays) gives the numbers that the same entries give in float64, and cg and cgls with integer data or an integer start vector solve the same equations.", "quantifier": "all numbers of ranks, layouts, entries, factors, operators, niter, tol, damp, executions", "why_tests_cant": "the tests use floating-point arrays only; the truncation is silent and the solvers report a residual of zero", "anchors": ["pylops_mpi/DistributedArray.py:DistributedArray.__setitem__", "pylops_mpi/DistributedArray.py:DistributedArray.to_dist", "pylops_mpi/DistributedArray.py:DistributedArray.add", "pylops_mpi/DistributedArray.py:DistributedArray.iadd", "pylops_mpi/DistributedArray.py:DistributedArray.multiply", "pylops_mpi/optimization/cls_basic.py:CG.step", "pylops_mpi/optimization/cls_basic.py:CGLS.step"]}
{"id": "C72", "title": "Derivative operators give the same floating-point numbers on every number of ranks", "statement": "If every rank has enough rows for the stencil and the boundaries of the input are near those of the rows, then matvec and rmatvec of MPIFirstDerivative and MPISecondDerivative (all kinds and orders, with and without edge) compute each entry by a fixed sequence of floating-point operations on the neighbouring entries of the global array. So the numbers are bitwise the same for all numbers of ranks and all such layouts, and with exact arithmetic they are the finite differences; CGLS with such an operator gives the same results on all numbers of ranks if sums are rounded only once.", "quantifier": "all arithmetics (rounding, overflow, infinities, NaN), numbers of ranks, layouts, shapes, entries, sampling steps, dtypes, executions", "why_tests_cant": "tests compare with a tolerance and on a few numbers of ranks; they do not see differences in the last bits, which depend on the order of operations", "anchors": ["pylops_mpi/basicoperators/FirstDerivative.py:MPIFirstDerivative._matvec", "pylops_mpi/basicoperators/FirstDerivative.py:MPIFirstDerivative._rmatvec", "pylops_mpi/basicoperators/SecondDerivative.py:MPISecondDerivative._matvec", "pylops_mpi/basicoperators/SecondDerivative.py:MPISecondDerivative._rmatvec", "pylops_mpi/utils/decorators.py:reshaped", "pylops_mpi/optimization/basic.py:cgls"]}
{"id": "C73", "title": "Stacked operators and operator expressions with floating-point arithmetic", "statement": "With any arithmetic and any serial operators, the products with MPIBlockDiag apply each operator to its slice of the global vector and those with MPIVStack apply each operator to the whole vector, so the numbers are bitwise the same however the operators are distributed. The adjoint of MPIVStack and the product with MPIHStack add the results first on each rank and then over the ranks: they depend on the distribution (there is an example), but not if sums of vectors do not depend on grouping. matvec and rmatvec of expressions (adjoint, transpose, product, sum, scaling, power, conjugate) perform the serial operations in the same order, and CGLS with an expression gives the same results on all numbers of ranks if this holds for the leaves and sums are rounded once.", "quantifier": "all arithmetics (rounding, overflow, infinities, NaN), serial operators, distributions of operators, expressions, layouts, numbers of ranks, dtypes, executions", "why_tests_cant": "tests compare with a tolerance and a fixed distribution; a wrong order of operations or a conversion of dtypes at the wrong place changes only the last bits for typical data", "anchors": ["pylops_mpi/basicoperators/BlockDiag.py:MPIBlockDiag._matvec", "pylops_mpi/basicoperators/BlockDiag.py:MPIBlockDiag._rmatvec", "pylops_mpi/basicoperators/VStack.py:MPIVStack._matvec", "pylops_mpi/basicoperators/VStack.py:MPIVStack._rmatvec", "pylops_mpi/basicoperators/HStack.py:MPIHStack._matvec", "pylops_mpi/basicoperators/HStack.py:MPIHStack._rmatvec", "pylops_mpi/LinearOperator.py:_SumLinearOperator._matvec", "pylops_mpi/LinearOperator.py:_ProductLinearOperator._rmatvec", "pylops_mpi/LinearOperator.py:_ScaledLinearOperator._rmatvec", "pylops_mpi/LinearOperator.py:_PowerLinearOperator._power", "pylops_mpi/optimization/basic.py:cgls"]}
{"id": "C74", "title": "The solvers on stacked arrays with floating-point arithmetic", "statement": "For stacks of distributed arrays without mask (and for single arrays), cg and cgls perform exactly the operations of the serial algorithms on the lists of global vectors, whatever the arithmetic does: each rank returns its parts of the same iterate, the same number of iterations, cost, istop and norms, and if a scalar operation of the serial algorithm raises then all ranks raise the same error. Dot products of a stack are the sums, from left to right, of those of its arrays, and results of its operations are stored twice. The numbers of ranks and the layouts enter only through the order of summation within each array; if that order does not matter, the results are the same for all of them.", "quantifier": "all number types and operations on them, dtypes, numbers of ranks, numbers of arrays and their layouts, contents, operators that act as a function of the global vectors, niter, tol, damp, executions", "why_tests_cant": "tests of stacked arrays compare with a tolerance for two arrays of one size; an operation applied to the wrong array of the stack, in a wrong order or dtype, can stay below the tolerance", "anchors": ["pylops_mpi/DistributedArray.py:StackedDistributedArray.add", "pylops_mpi/DistributedArray.py:StackedDistributedArray.iadd", "pylops_mpi/DistributedArray.py:StackedDistributedArray.multiply", "pylops_mpi/DistributedArray.py:StackedDistributedArray.dot", "pylops_mpi/DistributedArray.py:StackedDistributedArray.norm", "pylops_mpi/DistributedArray.py:StackedDistributedArray.copy", "pylops_mpi/optimization/cls_basic.py:CG.step", "pylops_mpi/optimization/cls_basic.py:CGLS.step", "pylops_mpi/optimization/cls_basic.py:CGLS.run"]}
{"id": "C75", "title": "Stacked operators and regularised inversion with floating-point arithmetic", "statement": "matvec and rmatvec of MPIStackedVStack, MPIStackedBlockDiag, MPIGradient and of expressions of them (adjoint, transpose, conjugate, products, multiples, sums, powers) compute, whatever the arithmetic does, the serial expression on the lists of global vectors: the forward product of a vertical stack is the list of the products, its adjoint adds the products with the adjoints from the first to the last, a block diagonal acts on each array separately, and a power applied to a stack only copies it. Hence CG and CGLS with a stacked operator, for instance regularised inversion, give the same iterates, costs and norms on every number of ranks on which the constituent operators compute the same functions, if dot products and norms do not depend on the order of summation. Op.H of a stacked operator performs the computation and communication of rmatvec.", "quantifier": "all number types and operations on them, dtypes, numbers of ranks, layouts, stacked expressions and the operator expressions in them, leaves that compute functions of the global vectors, contents, niter, tol, damp, executions", "why_tests_cant": "tests compare with dense matrices up to a tolerance on one number of ranks; an operation in another order, in another dtype or on the wrong array of a stack can stay below the tolerance", "anchors": ["pylops_mpi/basicoperators/VStack.py:MPIStackedVStack._matvec", "pylops_mpi/basicoperators/VStack.py:MPIStackedVStack._rmatvec", "pylops_mpi/basicoperators/BlockDiag.py:MPIStackedBlockDiag._matvec", "pylops_mpi/basicoperators/BlockDiag.py:MPIStackedBlockDiag._rmatvec", "pylops_mpi/basicoperators/Gradient.py:MPIGradient._matvec", "pylops_mpi/StackedLinearOperator.py:MPIStackedLinearOperator.matvec", "pylops_mpi/StackedLinearOperator.py:MPIStackedLinearOperator.rmatvec", "pylops_mpi/StackedLinearOperator.py:_PowerLinearOperator", "pylops_mpi/StackedLinearOperator.py:_SumStackedLinearOperator", "pylops_mpi/optimization/cls_basic.py:CGLS.run"]}
{"id": "C76", "title": "MPILaplacian and MPIGradient with floating-point arithmetic", "statement": "Whatever the arithmetic does, the products with MPILaplacian and its adjoint are the weighted sums of the second derivatives along the axes, multiplied by their weights and added from the first axis of the list to the last, where only the first of them has the kind that was asked for and the others are centered; the product with MPIGradient is the stack of the first derivatives along all axes in order, and its adjoint adds their adjoints from the first axis to the last. Derivatives along the first axis perform the operations of C72 on the global vector, the others those of the serial operator on each row. So all results have the same bits on every number of ranks that has enough rows per rank, and if dot products and norms do not depend on the order of summation then neither do the results of CGLS with MPIGradient. Axes that are out of range, lists of different lengths and missing sampling steps are rejected on all ranks.", "quantifier": "all number types and operations on them, dtypes, shapes, lists of axes, weights, steps, kinds, edge, numbers of ranks with enough rows, layouts whose boundaries need exchange with neighbours only, contents, executions, serial derivative operators that act on each row", "why_tests_cant": "tests compare with the serial operators up to a tolerance; terms added in another order or a weight applied in another dtype stay below it", "anchors": ["pylops_mpi/basicoperators/Laplacian.py:MPILaplacian._calc_l2op", "pylops_mpi/basicoperators/Laplacian.py:MPILaplacian._matvec", "pylops_mpi/basicoperators/Laplacian.py:MPILaplacian._rmatvec", "pylops_mpi/basicoperators/Gradient.py:MPIGradient._calc_stack_op", "pylops_mpi/basicoperators/Gradient.py:MPIGradient._matvec", "pylops_mpi/basicoperators/Gradient.py:MPIGradient._rmatvec"]}
{"id": "C77", "title": "MPIFredholm1 and MPIMDC with floating-point arithmetic", "statement": "Whatever the arithmetic does, and whatever the library for matrix products does as long as each product depends on its two matrices only, all ranks end up with the slices G(k) m(k) of MPIFredholm1 (adjoint: the products with the saved conjugate transposes, or the conjugate transposes of d(k)^H G(k)), each computed by one matrix product and stored in the dtype of the operator; the bits are the same on every number of ranks and for every distribution of the slices. MPIMDC computes the Fourier transform, the restriction to the frequencies of the kernel, the slice-wise products with the kernel (scaled once unless prescaled), the padding and the inverse transform, one after the other; its results, too, have the same bits for every number of ranks and distribution of the frequencies. With exact arithmetic these are the functions of C38, for both values of saveGt and usematmul.", "quantifier": "all number types and operations on them, matrix products and serial operators (as parameters), dtypes, sizes, kernels, inputs, flags, numbers of ranks, distributions of the slices without the sizes that the code rejects or mishandles (C38), executions", "why_tests_cant": "tests compare with the serial operators up to a tolerance, on the numbers of ranks of the CI, for a few kernels", "anchors": ["pylops_mpi/signalprocessing/Fredholm1.py:MPIFredholm1.__init__", "pylops_mpi/signalprocessing/Fredholm1.py:MPIFredholm1._matvec", "pylops_mpi/signalprocessing/Fredholm1.py:MPIFredholm1._rmatvec", "pylops_mpi/waveeqprocessing/MDC.py:MPIMDC", "pylops_mpi/waveeqprocessing/MDC.py:_MDC", "pylops_mpi/LinearOperator.py:MPILinearOperator.matvec"]}
{"id": "C78", "title": "Rounding errors of reductions, stacked operators, derivatives and slice-wise products", "statement": "If every operation rounds its exact result with relative error at most u (and sums are formed by rounded additions in any order and grouping), then: dot of two arrays with m entries on n ranks differs from the exact dot product by at most ((1+u)^(m+n)-1) times the sum of |x_i||y_i|, where the exact sum is the same for all numbers of ranks, so that two distributions give results within the sum of the two bounds; the 2-norm has such a relative error; MPIVStack adjoint and MPIHStack forward differ from the exact sum over all operators by at most that factor times the sum of the absolute values of the terms, with an exponent that grows with the number of ranks and the number of operators per rank only; every entry of a first or second derivative and of its adjoint differs from the exact derivative by at most a fixed number of roundings, whatever the number of ranks; an entry of MPIFredholm1 forward by at most ny+1 roundings. Binary floating-point numbers with any number of bits and round to nearest satisfy the assumptions.", "quantifier": "all unit roundoffs, arithmetics that satisfy the standard model, orders of summation, sizes, inputs, numbers of ranks, distributions, executions", "why_tests_cant": "tests compare with a fixed tolerance on random inputs for a few numbers of ranks; they cannot tell how the error grows with the number of ranks or for ill-conditioned sums", "anchors": ["pylops_mpi/DistributedArray.py:DistributedArray.dot", "pylops_mpi/DistributedArray.py:DistributedArray.norm", "pylops_mpi/DistributedArray.py:DistributedArray._compute_vector_norm", "pylops_mpi/basicoperators/VStack.py:MPIVStack._rmatvec", "pylops_mpi/basicoperators/HStack.py:MPIHStack", "pylops_mpi/basicoperators/FirstDerivative.py:MPIFirstDerivative", "pylops_mpi/basicoperators/SecondDerivative.py:MPISecondDerivative", "pylops_mpi/signalprocessing/Fredholm1.py:MPIFredholm1._matvec"]}
{"id": "C79", "title": "The dot test with floating-point arithmetic", "statement": "Whatever the arithmetic does, all ranks compare the same two numbers in dottest, so that they all return the same verdict or all raise AssertionError; the verdict is the same for all numbers of ranks and layouts, as long as the operators compute the same functions of the global vectors. If every operation rounds with relative error at most u, the two numbers differ from the exact inner products by at most bounds that are stated; so an adjoint pair passes if the tolerances exceed these bounds, and a pair whose exact inner products differ by more than tolerances and bounds fails. In particular the test of MPIFirstDerivative passes, for every number of ranks, as soon as the tolerances exceed an explicit bound. Wrong nr or nc: AssertionError on all ranks. With exact arithmetic this is the test of C48.", "quantifier": "all arithmetics (for the bounds: with unit roundoff u), operator expressions, vectors, layouts, numbers of ranks, tolerances, executions", "why_tests_cant": "the dot test is itself a test; whether it can fail for a correct operator because of rounding, or pass on one rank and fail on another, cannot be seen from runs that pass", "anchors": ["pylops_mpi/utils/dottest.py:dottest", "pylops_mpi/DistributedArray.py:DistributedArray.asarray", "pylops_mpi/basicoperators/FirstDerivative.py:MPIFirstDerivative"]}
{"id": "C80", "title": "A solver object can be used again", "statement": "Calling solve or setup on a CG or CGLS object that was used before, whatever happened then (also if a call ended with an exception), gives exactly the results, communication, memory and attributes of a new object. After solve, run with a larger limit continues the iteration where it ended.", "quantifier": "all operators, callbacks, data, starting vectors, limits, tolerances, earlier attributes, numbers of ranks, executions", "why_tests_cant": "the tests create a new object for every call, so no state left by an earlier call is ever seen, nor a call after finalize", "anchors": ["pylops_mpi/optimization/cls_basic.py:CG.setup", "pylops_mpi/optimization/cls_basic.py:CG.step", "pylops_mpi/optimization/cls_basic.py:CG.run", "pylops_mpi/optimization/cls_basic.py:CG.finalize", "pylops_mpi/optimization/cls_basic.py:CG.solve", "pylops_mpi/optimization/cls_basic.py:CGLS.setup", "pylops_mpi/optimization/cls_basic.py:CGLS.step", "pylops_mpi/optimization/cls_basic.py:CGLS.finalize"]}
{"id": "C81", "title": "The two regularised inversions agree", "statement": "Regularised inversion with the normal equations (cg on G.H @ G + eps * R.H @ R with data G.H @ d) and with the stacked system (cgls on MPIStackedVStack([G, sqrt(eps) * R]) with data [d, 0]) make the same iterates: same result, number of steps and callback arguments on all ranks, or the same exception. With tolerance 0 and enough steps both return a minimiser of ||d - G x||^2 + eps ||R x||^2. This holds in particular for the operators of the post-stack tutorial, MPIBlockDiag and MPILaplacian.", "quantifier": "all operator expressions with correct adjoints, weights >= 0, data, starting points, limits, tolerances, layouts without mask, numbers of ranks, executions (exact arithmetic)", "why_tests_cant": "the tutorial runs both inversions and plots them for one model on a few ranks; nothing compares them, and no test applies cgls to a stacked operator with a scaled distributed derivative", "anchors": ["pylops_mpi/LinearOperator.py:MPILinearOperator.__matmul__", "pylops_mpi/LinearOperator.py:_ScaledLinearOperator._matvec", "pylops_mpi/basicoperators/VStack.py:MPIStackedVStack._matvec", "pylops_mpi/basicoperators/VStack.py:MPIStackedVStack._rmatvec", "pylops_mpi/basicoperators/Laplacian.py:MPILaplacian._matvec", "pylops_mpi/optimization/basic.py:cg", "pylops_mpi/optimization/basic.py:cgls"]}
{"id": "C82", "title": "The migration and deconvolution tutorials end with the stated arrays on all ranks", "statement": "The distributed part of lsm.py (MPIVStack of modelling operators, its data, adjoint, data of the adjoint, cgls inversion and data of the inverse) and of mdd.py (frequencies of every rank taken from the gathered local_split, MPIMDC, its data, adjoint and cgls inversion) terminates without deadlock or exception, and all ranks gather the same arrays: the data, the image or correlation and an inverse of which the data misfit is not larger than that of zero. Either the iteration limit is reached or the squared norm of the gradient is at most the tolerance; with tolerance 0 and enough iterations the data of the inverse are exactly the data.", "quantifier": "all modelling operators and Fourier transforms with correct adjoints, kernels, reflectivities, sizes, limits, tolerances >= 0, numbers of ranks (mdd: at least two frequencies on every rank), executions (exact arithmetic)", "why_tests_cant": "the tutorials are run by hand for one model and their results are looked at in plots; no test combines MPIVStack or MPIMDC with cgls", "anchors": ["pylops_mpi/basicoperators/VStack.py:MPIVStack._matvec", "pylops_mpi/basicoperators/VStack.py:MPIVStack._rmatvec", "pylops_mpi/waveeqprocessing/MDC.py:MPIMDC", "pylops_mpi/DistributedArray.py:local_split", "pylops_mpi/DistributedArray.py:DistributedArray.asarray", "pylops_mpi/optimization/cls_basic.py:CGLS.solve"]}
{"id": "C83", "title": "Expressions of distributed operators return the right result or raise", "statement": "If the leaves of an operator expression (sums, products, scalings, powers, conjugates, adjoints, vertical and block-diagonal stacks) each give the right result or make some rank raise, so does the expression: there is no execution in which all ranks return and the result is something else. MPIBlockDiag has this property for every layout of its input, and so have the matvec of MPILaplacian and MPIGradient for every number of rows and ranks, kind and layout (including inputs held by all ranks and ranks without rows). The rmatvec of MPILaplacian and MPIGradient has it but for the numbers of rows where the forward or five-point kinds are silently wrong (C65).", "quantifier": "all expressions, leaves, serial operators along the other axes, numbers of rows >= 1 and of ranks, kinds, sampling steps, weights, layouts of the input (scattered in any way or broadcast), executions", "why_tests_cant": "the tests of the Laplacian and the gradient use grids with many rows per rank and inputs with the balanced layout; that nothing else is returned silently is a statement about all numbers of rows, layouts and interleavings", "anchors": ["pylops_mpi/basicoperators/Laplacian.py:MPILaplacian._matvec", "pylops_mpi/basicoperators/Gradient.py:MPIGradient._matvec", "pylops_mpi/basicoperators/Gradient.py:MPIGradient._rmatvec", "pylops_mpi/basicoperators/BlockDiag.py:MPIBlockDiag._matvec", "pylops_mpi/LinearOperator.py:MPILinearOperator.matvec", "pylops_mpi/StackedLinearOperator.py:MPIStackedLinearOperator.matvec"]}
{"id": "C84", "title": "MPIFredholm1 and MPIMDC return the right result or raise", "statement": "MPIFredholm1, built from any kernel and applied to any input of the right global shape, either leaves the slice-wise products on all ranks or makes some rank raise, for every distribution of the slices (including ranks with no or one slice), all sizes of the matrices (including one row or column), both flags and all partitions and layouts of the input; and it returns the right result exactly if no rank has one slice, the input is held by all ranks, the contracted axis is longer than one (or there is nothing or only products of numbers to compute, without usematmul), and the results of the ranks can be stacked. The same dichotomy holds for matvec and rmatvec of MPIMDC with a complex kernel, for all numbers of samples, sources, receivers, frequencies and slices, all flags and layouts; scattered inputs always make some rank raise.", "quantifier": "all kernels, sizes, distributions of slices, flags, numbers of ranks, partitions and layouts of the input, executions", "why_tests_cant": "the tests use kernels with several rows and columns and as many slices on all ranks; that no combination of sizes that numpy.squeeze or broadcasting treat specially gives a wrong result silently is a statement about all sizes", "anchors": ["pylops_mpi/signalprocessing/Fredholm1.py:MPIFredholm1.__init__", "pylops_mpi/signalprocessing/Fredholm1.py:MPIFredholm1._matvec", "pylops_mpi/signalprocessing/Fredholm1.py:MPIFredholm1._rmatvec", "pylops_mpi/waveeqprocessing/MDC.py:MPIMDC", "pylops_mpi/waveeqprocessing/MDC.py:_MDC"]}
{"id": "C85", "title": "The solvers return the serial result or raise when the operator may raise", "statement": "Let Op be an operator each application of which either leaves the right result on all ranks or makes some rank raise. Then cg and cgls with Op, for all data, starting points, limits and tolerances, either return on all ranks the parts of the iterate at which the serial algorithm for the gathered operator stops, with its number of steps and cost history, or some rank raises; there is no third outcome such as a return with another vector after an exception on some rank, or all ranks returning after a division by zero. If the data differ on some rank from Op x0 in partition, local shape or mask, some rank raises. This applies to all expressions and stacked expressions of such operators, and to MPIFredholm1 however its slices are spread over the ranks.", "quantifier": "all operators that compute or raise, layouts, data, starting points, limits, tolerances, damping factors, numbers of ranks and steps, executions", "why_tests_cant": "whether the operator raises may depend on the number of ranks and rows; tests run a few steps of operators that do not raise, on one number of ranks", "anchors": ["pylops_mpi/optimization/basic.py:cg", "pylops_mpi/optimization/basic.py:cgls", "pylops_mpi/optimization/cls_basic.py:CG.setup", "pylops_mpi/optimization/cls_basic.py:CG.step", "pylops_mpi/optimization/cls_basic.py:CG.run", "pylops_mpi/optimization/cls_basic.py:CGLS.setup", "pylops_mpi/optimization/cls_basic.py:CGLS.step", "pylops_mpi/optimization/cls_basic.py:CGLS.run"]}
{"id": "C86", "title": "MPIBlockDiag, MPIVStack and MPIHStack return the right result or raise, and which", "statement": "Let every rank pass any list of serial operators to MPIBlockDiag, MPIVStack or MPIHStack, possibly an empty one, and apply the operator or its adjoint to any one-dimensional array. If every rank has an operator, the operators have a common number of columns (MPIVStack) or rows (MPIHStack), the input has the right number of entries and the right partition, and the boundaries of its parts are such that exchanges between neighbours suffice, then in all executions all ranks obtain their parts of the result. In all other cases, in all executions some rank raises; the operator never returns a wrong result on all ranks, and never leaves all ranks blocked without an exception.", "quantifier": "all lists of operators on the ranks, element types, masks, inputs, layouts, numbers of ranks, executions", "why_tests_cant": "the tests use the same number of operators on all ranks and inputs made for them; the failing cases depend on the number of ranks and the sizes of the parts, and a test run that hangs has no verdict", "anchors": ["pylops_mpi/basicoperators/BlockDiag.py:MPIBlockDiag.__init__", "pylops_mpi/basicoperators/BlockDiag.py:MPIBlockDiag._matvec", "pylops_mpi/basicoperators/BlockDiag.py:MPIBlockDiag._rmatvec", "pylops_mpi/basicoperators/VStack.py:MPIVStack.__init__", "pylops_mpi/basicoperators/VStack.py:MPIVStack._matvec", "pylops_mpi/basicoperators/VStack.py:MPIVStack._rmatvec", "pylops_mpi/basicoperators/HStack.py:MPIHStack.__init__", "pylops_mpi/basicoperators/HStack.py:MPIHStack._matvec", "pylops_mpi/basicoperators/HStack.py:MPIHStack._rmatvec", "pylops_mpi/utils/decorators.py:reshaped"]}
{"id": "C87", "title": "How fast cg and cgls converge", "statement": "Let Op be Hermitian positive definite with eigenvalues between a > 0 and b, and tol >= 0. Then cg with any niter returns on all ranks, without an exception, the parts of one vector x after m <= niter steps; the limit is reached or the squared residual is at most tol; x is the best approximation of the solution in x0 + span(r, A r, ..., A^(m-1) r) in the energy norm; and the energy norm of its error is at most 2 ((sqrt(k) - 1)/(sqrt(k) + 1))^m times that of x0, k = b/a. So niter = sqrt(k)/2 log(2/eps) steps suffice to reduce the error by eps, and as many steps as Op has different eigenvalues give the solution. The same holds for cgls and the damped objective, with the eigenvalues of A^H A + damp^2 other than 0, when x0 = 0 or damp is 0 or 1.", "quantifier": "all operators, vectors, layouts and stacks without mask, numbers of ranks, limits, tolerances, executions; exact arithmetic", "why_tests_cant": "tests solve small well-conditioned systems with more steps than unknowns; the claim is about every number of steps and every spectrum, and optimality among infinitely many vectors", "anchors": ["pylops_mpi/optimization/cls_basic.py:CG.step", "pylops_mpi/optimization/cls_basic.py:CG.run", "pylops_mpi/optimization/cls_basic.py:CGLS.step", "pylops_mpi/optimization/cls_basic.py:CGLS.run", "pylops_mpi/optimization/basic.py:cg", "pylops_mpi/optimization/basic.py:cgls"]}
{"id": "C88", "title": "With rounding errors, the residual norms that cg and cgls report belong to the vectors that they return", "statement": "cg and cgls update the residual by a recurrence and never compute it from the iterate. In arithmetic that rounds every operation (relative error u), with an operator that multiplies by a matrix M up to rounding errors, in all executions: after i steps the reported norm differs from the norm of y - M x_i by at most a relative error of about (b + n + 2) u, for n ranks with at most b entries each, plus 12 ((1 + u)^((k + 5)(i + 1)) - 1) times the norm of |y| + |M| X, where X bounds the entries of the iterates so far and k is the number of roundings per entry of a product. So if cg stops because of tol, the norm of the true residual of the returned vector is at most sqrt(tol / (1 - ((1 + u)^(b + n + 1) - 1))) plus that bound.", "quantifier": "all rounded arithmetics over the real and complex numbers without overflow and underflow, operators, vectors, dtypes that store with error u, layouts without mask, numbers of ranks, limits, tolerances, executions", "why_tests_cant": "the tests compare with a loose tolerance on a few systems; the claim is a bound on rounding errors for all systems, all numbers of steps and all distributions", "anchors": ["pylops_mpi/optimization/cls_basic.py:CG.setup", "pylops_mpi/optimization/cls_basic.py:CG.step", "pylops_mpi/optimization/cls_basic.py:CGLS.setup", "pylops_mpi/optimization/cls_basic.py:CGLS.step", "pylops_mpi/optimization/basic.py:cg", "pylops_mpi/optimization/basic.py:cgls"]}
{"id": "C89", "title": "How much is communicated", "statement": "In every execution, finished or not, each rank makes at most a fixed number of MPI calls that depends neither on the sizes of the arrays nor on the number of ranks, and hands over at most the following. Elementwise operations on distributed arrays, assignment, norms and dot products only make collective calls with at most one number per rank. asarray hands over the local array once. Ghost cells go to the two neighbours only, and at most two messages of the requested number of slices are sent. Redistribution, MPIBlockDiag, and the first and second derivatives send array data to neighbours only, at most a fixed multiple of the local array, and the stencils themselves at most 32 slices. Of these operators only the adjoint of MPIVStack makes a number of calls that grows with the number of ranks, on the root. Operator expressions, stacked operators, the Laplacian and the gradient add up the calls of their parts, with a small number for each node and each axis. One iteration of cg or cgls makes the calls of its products and at most 27 or 50 more, all collective with at most one number per rank. Assignment to a BROADCAST array, by contrast, hands over the data.", "quantifier": "all arrays, layouts, masks, element types, operators, numbers of ranks, limits, partial and complete executions, also those in which a rank raises", "why_tests_cant": "tests check values, not traffic; a benchmark measures a few sizes on a few ranks and cannot show that no execution makes more calls or reaches further ranks", "anchors": ["pylops_mpi/DistributedArray.py:DistributedArray.__setitem__", "pylops_mpi/DistributedArray.py:DistributedArray.asarray", "pylops_mpi/DistributedArray.py:DistributedArray.to_dist", "pylops_mpi/DistributedArray.py:DistributedArray.dot", "pylops_mpi/DistributedArray.py:DistributedArray.norm", "pylops_mpi/DistributedArray.py:DistributedArray.add_ghost_cells", "pylops_mpi/utils/decorators.py:reshaped", "pylops_mpi/basicoperators/BlockDiag.py:MPIBlockDiag._matvec", "pylops_mpi/basicoperators/VStack.py:MPIVStack._rmatvec", "pylops_mpi/basicoperators/FirstDerivative.py:MPIFirstDerivative._matvec", "pylops_mpi/basicoperators/SecondDerivative.py:MPISecondDerivative._matvec", "pylops_mpi/basicoperators/Laplacian.py:MPILaplacian._matvec", "pylops_mpi/basicoperators/Gradient.py:MPIGradient.__init__", "pylops_mpi/LinearOperator.py:MPILinearOperator.matvec", "pylops_mpi/optimization/cls_basic.py:CG.step", "pylops_mpi/optimization/cls_basic.py:CGLS.step"]}
{"id": "C90", "title": "Programs compute what they compute with NumPy arrays", "statement": "A program creates distributed arrays, computes with them (negation, conjugation, copies, zeros, multiplication by a number, sums, differences, products, += and -=, ravel), takes inner products and norms, gathers arrays, applies operators and their adjoints, does anything with replicated numbers and local arrays, and has conditions and loops that depend on them. All its arrays have one dtype and are scattered along the first axis in any way or BROADCAST, without mask. If the operators give the right result or raise (MPIBlockDiag, MPIFredholm1 and MPILaplacian do), then: if the program raises with NumPy arrays, some rank raises; if it ends with certain arrays and numbers, then in all executions either all ranks return, hold the parts of these arrays and have these numbers, or some rank raises. Hence if all ranks return in one execution, they have the right results in all. A program that makes no BROADCAST arrays and calls no ravel, with operators that return in the default layout, raises on no rank unless it raises with NumPy arrays; conjugate gradients written in this way with a block diagonal operator is an example. Arrays scattered along another axis have to be excluded: the sum of a (4, 2) array scattered along axis 0 and a (2, 4) array scattered along axis 1 is not refused on 2 ranks.", "quantifier": "all programs, initial values, numbers of ranks, layouts along the first axis and executions", "why_tests_cant": "the programs that users write are an infinite family; tests compare a few fixed sequences of operations with NumPy", "anchors": ["pylops_mpi/DistributedArray.py:DistributedArray.to_dist", "pylops_mpi/DistributedArray.py:DistributedArray.asarray", "pylops_mpi/DistributedArray.py:DistributedArray.add", "pylops_mpi/DistributedArray.py:DistributedArray.iadd", "pylops_mpi/DistributedArray.py:DistributedArray.multiply", "pylops_mpi/DistributedArray.py:DistributedArray.dot", "pylops_mpi/DistributedArray.py:DistributedArray.norm", "pylops_mpi/DistributedArray.py:DistributedArray.ravel", "pylops_mpi/DistributedArray.py:DistributedArray._check_partition_shape", "pylops_mpi/LinearOperator.py:MPILinearOperator.matvec", "pylops_mpi/LinearOperator.py:MPILinearOperator.rmatvec"]}
{"id": "C91", "title": "Solver calls and operator expressions in programs, and independence of the number of ranks", "statement": "The programs of C90 may also call cg and cgls, and their operators may be expressions (adjoints, transposes, conjugates, products, sums and scalar multiples, each passing the shape checks made when it is built) of operators that give the right result or raise. The data, the first guess and the results of the operators may have different layouts (scattered along the first axis in any way, or BROADCAST). If cg or cgls raises with NumPy arrays, including for a division by zero, some rank raises. If it returns, then in all executions either all ranks return their parts of the solution and the same numbers (iterations, stop flag, residual norms), or some rank raises. Powers of operators are excluded, except for operators that give their result in the default layout, since a power of an operator that changes the layout is wrong without an exception. A job with n ranks and a job with m ranks that run the same program with the same operators, distributed in any two ways, have the same numbers, gathered arrays and array entries if both return; in the default layout the one raises if and only if the other does.", "quantifier": "all programs, expressions, numbers of ranks, layouts along the first axis, numbers of iterations, tolerances and executions", "why_tests_cant": "the solvers are tested with data, first guess and operators in a few matching layouts and on the number of ranks of the test run; that mismatches cannot give a wrong answer, and that the number of ranks does not matter, are statements about all of them", "anchors": ["pylops_mpi/optimization/basic.py:cg", "pylops_mpi/optimization/basic.py:cgls", "pylops_mpi/optimization/cls_basic.py:CG.setup", "pylops_mpi/optimization/cls_basic.py:CG.step", "pylops_mpi/optimization/cls_basic.py:CG.run", "pylops_mpi/optimization/cls_basic.py:CGLS.setup", "pylops_mpi/optimization/cls_basic.py:CGLS.step", "pylops_mpi/optimization/cls_basic.py:CGLS.finalize", "pylops_mpi/LinearOperator.py:_AdjointLinearOperator", "pylops_mpi/LinearOperator.py:_ProductLinearOperator", "pylops_mpi/LinearOperator.py:_SumLinearOperator", "pylops_mpi/LinearOperator.py:_ScaledLinearOperator", "pylops_mpi/DistributedArray.py:DistributedArray._check_partition_shape"]}
{"id": "C92", "title": "All operators may be used in programs", "statement": "The programs of C90 and C91 may use MPIVStack and MPIHStack (constructed and applied, of operators with the same number of columns or rows), MPIFirstDerivative and MPISecondDerivative of every kind, MPILaplacian and MPIMDC (complex), besides MPIBlockDiag and MPIFredholm1: for a vector scattered in any way or BROADCAST, in both directions, each of them gives its part of the serial result to every rank, in all executions, or some rank raises, in all executions (the forward stencils with N + 1 = n or N + 1 = 2n rows on n >= 2 ranks and the 5-point stencil with edge of 3 rows on one rank are excepted, see C65). The adjoint of the derivatives and of the Laplacian is the one function that is adjoint to the stencil, so it does not depend on the number of ranks. A program whose operators are expressions of first and second derivatives of one-dimensional arrays in the default layout and that may call cg and cgls, run on n and on m ranks with enough rows, raises in both jobs or returns in both jobs with the same arrays and numbers.", "quantifier": "all operators, sizes, numbers of ranks, layouts along the first axis, programs, expressions and executions", "why_tests_cant": "the tests apply each operator to vectors in the layout it expects on the number of ranks of the test run; that no program can get a wrong number out of a combination of operators and layouts is a statement about all programs", "anchors": ["pylops_mpi/basicoperators/VStack.py:MPIVStack", "pylops_mpi/basicoperators/HStack.py:MPIHStack", "pylops_mpi/basicoperators/FirstDerivative.py:MPIFirstDerivative", "pylops_mpi/basicoperators/SecondDerivative.py:MPISecondDerivative", "pylops_mpi/basicoperators/Laplacian.py:MPILaplacian", "pylops_mpi/waveeqprocessing/MDC.py:MPIMDC", "pylops_mpi/optimization/basic.py:cg", "pylops_mpi/optimization/basic.py:cgls"]}
{"id": "C93", "title": "Programs with stacked arrays, stacked operators and solvers on stacks compute what they compute with NumPy arrays", "statement": "Let a program use, besides everything of C90 and C91, StackedDistributedArrays (made of distributed arrays, taken apart, negated, conjugated, copied, scaled, added, subtracted, multiplied, updated in place, dot, norm, asarray), MPIStackedVStack, MPIStackedBlockDiag, MPIGradient and expressions of them (sums, products, scalar multiples, adjoints, transposes, conjugates; no powers), and cg and cgls on arrays and stacks, with branches and loops on what it has computed. The arrays of a stack may be scattered along the first axis in different ways or be BROADCAST. If the program raises with lists of NumPy arrays, some rank raises, in all executions. If it returns, then either all ranks return in all executions, hold their parts of its arrays and stacks and have its numbers, gathered arrays and costs, or some rank raises, in all executions. If all operators keep the default layout and the program neither makes BROADCAST arrays nor calls ravel, the second cannot happen, so whether it raises does not depend on the number of ranks. Two jobs with different numbers of ranks that both return have the same numbers, arrays and stacks.", "quantifier": "all programs, operators, stacks of any length, sizes, numbers of ranks, layouts along the first axis, numbers of iterations and executions", "why_tests_cant": "the tests run a few operations on stacks of two arrays; that no sequence of operations on stacks, operators and solvers gives a wrong number on some number of ranks is a statement about all programs", "anchors": ["pylops_mpi/DistributedArray.py:StackedDistributedArray", "pylops_mpi/StackedLinearOperator.py:MPIStackedLinearOperator", "pylops_mpi/basicoperators/VStack.py:MPIStackedVStack", "pylops_mpi/basicoperators/BlockDiag.py:MPIStackedBlockDiag", "pylops_mpi/basicoperators/Gradient.py:MPIGradient", "pylops_mpi/optimization/basic.py:cg", "pylops_mpi/optimization/basic.py:cgls"]}
{"id": "C94", "title": "The gallery scripts plot_cgls.py and plot_stacked_array.py end with the stated arrays on any number of ranks", "statement": "In plot_cgls.py all ranks have the same matrix and solve for one block-diagonal operator with equal blocks. On any number of ranks, in all executions, all ranks finish with the same array, which is one vector of the size of one block repeated, after at most as many iterations as one block has columns (not as many as there are unknowns), and the first and last costs are the norms of the data and of the misfit. If the limit is at least the number of columns of a block (both are 15 in the script) then the squared norm of the gradient is at most the tolerance. With tolerance zero the solution has the right data, and if the matrix has independent columns it is the vector the data were made from. plot_stacked_array.py, with its matrices of ones and twos, ends on any number of ranks with 10s and 20s as data, 370 in all entries of the adjoint, and exactly ones as solution, after one of the 15 iterations allowed; the same holds for any two matrices for which the vector of ones is an eigenvector of the normal equations.", "quantifier": "all numbers of ranks, matrices, sizes, iteration limits, tolerances and executions", "why_tests_cant": "the gallery is run on one number of ranks and its output is not checked; that the number of iterations does not grow with the number of ranks is a statement about all of them", "anchors": ["examples/plot_cgls.py", "examples/plot_stacked_array.py", "pylops_mpi/optimization/basic.py:cgls", "pylops_mpi/basicoperators/BlockDiag.py:MPIBlockDiag", "pylops_mpi/basicoperators/VStack.py:MPIStackedVStack"]}
{"id": "C95", "title": "The sections on masked arrays of plot_distributed_array.py compute what they compare with, for exactly the numbers of ranks for which the mask fits", "statement": "The script splits the ranks into groups of max(1, size // 2) ranks with np.repeat(np.arange(size // subsize), subsize), fills arrays with that mask, and compares dot and norm with the dot product and the norm of the part of the gathered array that belongs to the rank's group. If the number of ranks is even, 1 or 3 then in all executions, for all shapes, axes and values, on every rank the gathered array consists of the local arrays in rank order, dot is the dot product of that part, norm with no axis is the norm of its entries, and norm along the distributed axis is, entry by entry, the norm along that axis of that part; so all checks of the script print True. With the values of the script the dot product is the same on all ranks and counts the values that the groups repeat once. For odd numbers of ranks from 5 on the mask has one entry too few: the last rank raises IndexError in the constructor and all other ranks wait forever.", "quantifier": "all numbers of ranks, shapes, axes, local values and executions", "why_tests_cant": "the gallery is run on one number of ranks; a deadlock for odd numbers of ranks shows only when one of them is tried", "anchors": ["examples/plot_distributed_array.py", "pylops_mpi/DistributedArray.py:DistributedArray.__init__", "pylops_mpi/DistributedArray.py:DistributedArray.dot", "pylops_mpi/DistributedArray.py:DistributedArray.norm"]}
{"id": "C96", "title": "plot_stacking.py and plot_mpilinop.py compute the stacks that they show, on any number of ranks", "statement": "In plot_stacking.py rank r holds r + 1 times each of two operators. On any number n of ranks, for all real operators of equal shape and all vectors, in all executions all ranks end with the same three arrays: MPIVStack gives for each rank in turn r + 1 times the two products; MPIHStack, with the same two halves on every rank, gives n (n + 1) / 2 times the sum of the two products of the halves; MPIBlockDiag gives for each rank in turn r + 1 times the product of each half. In plot_mpilinop.py a serial operator F is wrapped with asmpilinearoperator and multiplied from the left with the MPIVStack of r + 1 times S: Mop @ x is F of the vector on every rank, FullOp @ x is for each rank in turn r + 1 times S F x, and FullOp.H @ x, where each rank has the same part u, is the adjoint of F applied to n (n + 1) / 2 times the adjoint of S applied to u.", "quantifier": "all numbers of ranks, real operators of compatible shapes, vectors and executions", "why_tests_cant": "the gallery is run on one number of ranks with two operators and only plots the results", "anchors": ["examples/plot_stacking.py", "examples/plot_mpilinop.py", "pylops_mpi/basicoperators/VStack.py:MPIVStack", "pylops_mpi/basicoperators/HStack.py:MPIHStack", "pylops_mpi/basicoperators/BlockDiag.py:MPIBlockDiag", "pylops_mpi/LinearOperator.py:asmpilinearoperator"]}
{"id": "C97", "title": "plot_derivative.py computes the derivatives that it shows on up to six ranks, and never anything else", "statement": "plot_derivative.py lays out flattened arrays evenly with to_dist and applies MPIFirstDerivative, MPISecondDerivative, two MPILaplacians (weights (1, 1) and (3, 1)) and MPIGradient with its adjoint. For all sizes, all real arrays and all numbers of ranks, in all executions: if there are at most as many ranks as rows, every rank's even share of the flat array reaches at most one rank away from its rows, and each rank has at least two rows of the last array (or there is one rank), then all ranks end with the same six arrays, namely the centered first and second differences along the rows, the weighted sums of second differences along both axes, the stacked first differences along both axes, and the adjoint of the latter. If the first array does not fit, some rank raises ValueError in every execution. For any sizes the script ends with these arrays or some rank raises; it never shows anything else. With the sizes of the script (11 x 21, 11 x 21, 12 x 21) the arrays are computed on 1 to 6 ranks, and on 7, 8, 9 or more than 11 ranks some rank raises ValueError.", "quantifier": "all numbers of ranks, sizes, real arrays, serial derivatives that compute the differences, and executions", "why_tests_cant": "the gallery is run on one number of ranks with unit impulses and only plots the results", "anchors": ["examples/plot_derivative.py", "pylops_mpi/basicoperators/FirstDerivative.py:MPIFirstDerivative", "pylops_mpi/basicoperators/SecondDerivative.py:MPISecondDerivative", "pylops_mpi/basicoperators/Laplacian.py:MPILaplacian", "pylops_mpi/basicoperators/Gradient.py:MPIGradient", "pylops_mpi/DistributedArray.py:DistributedArray.to_dist"]}
{"id": "C98", "title": "plot_mdc.py computes the convolution and the correlation that it shows whenever every rank has two frequencies", "statement": "plot_mdc.py splits the frequencies of a kernel over the ranks with local_split, builds MPIMDC from the part of each rank, and applies it and its adjoint. Let there be nf frequencies, none beyond the last one of the Fourier transform of 2 nt - 1 samples, and at least two sources and receivers. If 2 n <= nf for n ranks then, for all complex kernels and real models m, in all executions all ranks end with the same two arrays: the real part of the multi-dimensional convolution A m with the kernel times dt sqrt(2 nt - 1), and the real part of the correlation B (A m) (where B gets the complex array, not its real part). If nf < 2 n then in every execution some rank raises. If nf < n then in every execution the ranks without frequencies end with IndexError and the others wait for ever.", "quantifier": "all numbers of ranks, sizes, kernels, real models, Fourier transforms with the right sizes, and executions", "why_tests_cant": "the gallery is run on one number of ranks with one kernel and only plots the results; a deadlock cannot be told from a slow run", "anchors": ["examples/plot_mdc.py", "pylops_mpi/waveeqprocessing/MDC.py:MPIMDC", "pylops_mpi/signalprocessing/Fredholm1.py:MPIFredholm1", "pylops_mpi/DistributedArray.py:local_split"]}
{"id": "C99", "title": "cgls on complex data returns a least-squares solution whatever the dtype of the start vector", "statement": "For complex data, an operator that gives complex vectors and whose two directions are adjoint, no damping, tolerance 0 and a limit of at least as many iterations as unknowns, and a start vector of real or of complex dtype, cgls returns a least-squares solution on every rank after at most as many steps as there are unknowns, and the last residual norm in cost is the misfit of the returned vector.", "quantifier": "all numbers of ranks, layouts, dtypes of the start vector, operators, data, start vectors, executions", "why_tests_cant": "the tests give the start vector the dtype of the operator", "anchors": ["pylops_mpi/optimization/cls_basic.py:CGLS.setup", "pylops_mpi/optimization/cls_basic.py:CGLS.step", "pylops_mpi/optimization/cls_basic.py:CGLS.run", "pylops_mpi/optimization/basic.py:cgls", "pylops_mpi/DistributedArray.py:DistributedArray.iadd", "pylops_mpi/DistributedArray.py:DistributedArray.__setitem__"]}
{"id": "C100", "title": "plot_stacked_array.py prints the arrays, the dot product and the norms of NumPy on the full arrays", "statement": "The first part of plot_stacked_array.py stacks two arrays of 10 and 4 entries per rank, overwrites on rank 0 only its part of the first one, and prints negation, sum, difference, product, dot product and the norms of orders 0, 1, 2 and inf. In all executions on any number n > 0 of ranks, all ranks end with the same arrays and numbers: with a and b for the concatenated arrays (a starts with the 10 entries that rank 0 overwrote), -a, a + b, a - b, a * b entrywise, the sum of the products of their entries, and the norms of a as NumPy defines them. With the numbers of the script the dot product is 98 n + 450 and the norms are 14 n, 18 n + 90, sqrt(26 n + 990) and 10.", "quantifier": "all numbers of ranks, numbers of entries per rank, numbers written into the arrays, executions", "why_tests_cant": "the script is run on one number of ranks to build the gallery and its output is not compared with anything", "anchors": ["pylops_mpi/DistributedArray.py:StackedDistributedArray.asarray", "pylops_mpi/DistributedArray.py:StackedDistributedArray.__neg__", "pylops_mpi/DistributedArray.py:StackedDistributedArray.add", "pylops_mpi/DistributedArray.py:StackedDistributedArray.__sub__", "pylops_mpi/DistributedArray.py:StackedDistributedArray.multiply", "pylops_mpi/DistributedArray.py:StackedDistributedArray.dot", "pylops_mpi/DistributedArray.py:StackedDistributedArray.norm", "pylops_mpi/DistributedArray.py:DistributedArray.__setitem__"]}
{"id": "C101", "title": "plot_distributed_array.py shows the parts of the arrays and of the results of the operations on them", "statement": "The sections of plot_distributed_array.py without masks distribute two arrays with to_dist and show, with plot_local_arrays, the parts of the ranks of both arrays and of scaling, addition, in-place addition, subtraction and multiplication. For all arrays of the same shape, axes and numbers of ranks, in all executions all ranks end and rank 0 shows, in rank order, the parts of what NumPy gives on the whole arrays; the in-place addition changes neither of the two arrays. The first three sections fill the part of each rank with consecutive numbers and show the global array and the ranks that hold its entries; with rows distributed the numbers are 0, 1, 2, ... exactly when the number of ranks divides the number of rows or is at least as large.", "quantifier": "all numbers of ranks, shapes, axes, arrays, factors, executions", "why_tests_cant": "the script is run on one number of ranks to build the gallery and its plots are not compared with anything", "anchors": ["pylops_mpi/DistributedArray.py:DistributedArray.to_dist", "pylops_mpi/DistributedArray.py:DistributedArray.add", "pylops_mpi/DistributedArray.py:DistributedArray.iadd", "pylops_mpi/DistributedArray.py:DistributedArray.multiply", "pylops_mpi/DistributedArray.py:DistributedArray.__sub__", "pylops_mpi/DistributedArray.py:local_split", "pylops_mpi/plotting/plotting.py:plot_distributed_array", "pylops_mpi/plotting/plotting.py:plot_local_arrays"]}
{"id": "C102", "title": "Operator expressions, MPILaplacian and MPIGradient raise when the operator that they apply first raises", "statement": "If the operator that a sum, product, scaling or adjoint applies first to its argument raises on some rank, the expression raises on some rank in every execution; nothing catches the exception. So MPILaplacian, with the distributed axis first in its axes, and MPIGradient raise whenever the derivative along the distributed axis raises, in matvec and rmatvec and whatever the input is. In particular their matvec raises on two or more ranks if the blocks of rows are shorter than the ghost cells or the boundaries of the input are too far from those of the rows, and their rmatvec if there are fewer rows than the adjoint stencil needs, except in the cases where the rmatvec of the derivative is silently wrong (C65).", "quantifier": "all expressions, inputs, serial operators along the other axes, kinds, samplings, weights, numbers of rows and of ranks, executions", "why_tests_cant": "tests do not run the stacked operators with too few rows, and with ranks that wait for messages an exception on one rank shows only as a hang", "anchors": ["pylops_mpi/LinearOperator.py:MPILinearOperator.matvec", "pylops_mpi/LinearOperator.py:MPILinearOperator.rmatvec", "pylops_mpi/basicoperators/Laplacian.py:MPILaplacian._matvec", "pylops_mpi/basicoperators/Laplacian.py:MPILaplacian._rmatvec", "pylops_mpi/basicoperators/Gradient.py:MPIGradient._matvec", "pylops_mpi/basicoperators/Gradient.py:MPIGradient._rmatvec", "pylops_mpi/basicoperators/VStack.py:MPIStackedVStack._rmatvec"]}
