{
 "claims": [
  {
   "property": "C01",
   "status": "proved",
   "theorems": [
    "Verif.C01_roundtrip_shapes",
    "Verif.C01_roundtrip_default"
   ],
   "note": "all shapes, partitions, axes, valid local shapes, rank counts, schedules"
  },
  {
   "property": "C02",
   "status": "proved",
   "theorems": [
    "Verif.C02_scatter",
    "Verif.C02_broadcast",
    "Verif.C02_constructor"
   ],
   "note": ""
  },
  {
   "property": "C03",
   "status": "proved",
   "theorems": [
    "Verif.C03_consistent",
    "Verif.C03_assignment"
   ],
   "note": "histories in which every array is assigned when created: a fresh unassigned BROADCAST array holds unspecified memory"
  },
  {
   "property": "C04",
   "status": "proved",
   "theorems": [
    "Verif.C04_no_communication",
    "Verif.C04_local_writes",
    "Verif.C04_whole_array"
   ],
   "note": ""
  },
  {
   "property": "C05",
   "status": "proved",
   "theorems": [
    "Verif.C05_elementwise"
   ],
   "note": ""
  },
  {
   "property": "C06",
   "status": "partial",
   "theorems": [
    "Verif.C06_inplace",
    "Verif.C06_new",
    "Verif.C06_no_sharing",
    "Verif.C06_value",
    "Verif.C06_value_stacked_partial",
    "Verif.C06_self_ok",
    "Verif.C06_violated_stacked",
    "Verif.C06_violated_repeated"
   ],
   "note": "object identity, frame and freshness: all reachable memories, all aliasing, all executions; values: all DistributedArrays with any aliasing, stacked arrays except those whose components alias (proved false there)"
  },
  {
   "property": "C07",
   "status": "proved",
   "theorems": [
    "Verif.C07_dot"
   ],
   "note": "all partitions, layouts, rank counts; broadcast operands hold equal data on all ranks"
  },
  {
   "property": "C08",
   "status": "partial",
   "theorems": [
    "Verif.C08_dot",
    "Verif.C08_norm_partial"
   ],
   "note": "dot: full; norm: orders admissible for the entries (see C09)"
  },
  {
   "property": "C09",
   "status": "partial",
   "theorems": [
    "Verif.C09_partial",
    "Verif.C09_euclidean",
    "Verif.C09_positive",
    "Verif.C09_integer",
    "Verif.C09_fro",
    "Verif.C09_violated_fractional",
    "Verif.C09_violated_negative",
    "Verif.C09_violated_empty"
   ],
   "note": "false for fractional orders on negative real entries, negative orders on complex zeros, and ±inf with an empty rank (counterexamples proved)"
  },
  {
   "property": "C10",
   "status": "partial",
   "theorems": [
    "Verif.C10_value_partial",
    "Verif.C10_other_axis"
   ],
   "note": "same order restrictions as C09"
  },
  {
   "property": "C100",
   "status": "proved",
   "theorems": [
    "Verif.C100_stack",
    "Verif.C100_script"
   ],
   "note": "lines 25-118 of the script; the rest is C94"
  },
  {
   "property": "C101",
   "status": "proved",
   "theorems": [
    "Verif.C101_ops",
    "Verif.C101_parts",
    "Verif.C101_filled",
    "Verif.C101_shapes",
    "Verif.C101_consecutive",
    "Verif.C101_rows",
    "Verif.C101_script"
   ],
   "note": "exact arithmetic; the drawing is not modelled; the sections with masks are C95"
  },
  {
   "property": "C102",
   "status": "proved",
   "theorems": [
    "Verif.C102_expression",
    "Verif.C102_stacked",
    "Verif.C102_laplacian",
    "Verif.C102_gradient",
    "Verif.C102_gradient_adjoint",
    "Verif.C102_gradient_rows",
    "Verif.C102_gradient_adjoint_rows",
    "Verif.C102_gradient_adjoint_exact",
    "Verif.C102_laplacian_rows",
    "Verif.C102_laplacian_adjoint_rows",
    "Verif.C102_laplacian_adjoint_exact"
   ],
   "note": "Powers, transposes and conjugates are not among the expressions: they first copy or conjugate their argument."
  },
  {
   "property": "C11",
   "status": "partial",
   "theorems": [
    "Verif.C11_partial",
    "Verif.C11_violated"
   ],
   "note": "false for masked broadcast arrays (counterexample proved)"
  },
  {
   "property": "C12",
   "status": "proved",
   "theorems": [
    "Verif.C12_ghost",
    "Verif.C12_entries"
   ],
   "note": ""
  },
  {
   "property": "C13",
   "status": "partial",
   "theorems": [
    "Verif.C13_safe",
    "Verif.C13_raises_front_partial",
    "Verif.C13_raises_back_partial",
    "Verif.C13_later_ranks_wait",
    "Verif.C13_violated"
   ],
   "note": "Safety holds for all executions. The claim that every too-small rank raises is false (C13_violated): only the first one in the front phase does, later ranks wait forever."
  },
  {
   "property": "C14",
   "status": "proved",
   "theorems": [
    "Verif.C14_deadlock_free",
    "Verif.C12_ghost"
   ],
   "note": ""
  },
  {
   "property": "C15",
   "status": "proved",
   "theorems": [
    "Verif.C15_schedule_independent",
    "Verif.C15_rank"
   ],
   "note": "for arbitrary programs of the message-passing language in which every modelled API call is written"
  },
  {
   "property": "C16",
   "status": "partial",
   "theorems": [
    "Verif.C16_ravel_partial",
    "Verif.C16_violated"
   ],
   "note": "false for arrays scattered along an axis other than 0 (counterexample proved)"
  },
  {
   "property": "C17",
   "status": "proved",
   "theorems": [
    "Verif.C17_incompatible",
    "Verif.C17_compatible_accepted"
   ],
   "note": ""
  },
  {
   "property": "C18",
   "status": "partial",
   "theorems": [
    "Verif.C18_partial",
    "Verif.C18_characterization",
    "Verif.C18_violated"
   ],
   "note": "false: ranks where the operands agree wait forever (counterexample and exact characterization proved)"
  },
  {
   "property": "C19",
   "status": "partial",
   "theorems": [
    "Verif.C19_axis_out_of_range",
    "Verif.C19_local_shapes_partial",
    "Verif.C19_short_shape"
   ],
   "note": "exact characterization, except local shapes lacking the distribution axis, for which IndexError is raised instead (proved)"
  },
  {
   "property": "C20",
   "status": "proved",
   "theorems": [
    "Verif.C20_layout"
   ],
   "note": ""
  },
  {
   "property": "C21",
   "status": "proved",
   "theorems": [
    "Verif.C21_redistribute",
    "Verif.C21_raises",
    "Verif.C21_safe",
    "Verif.C21_operator",
    "Verif.C21_independent",
    "Verif.C21_rejects"
   ],
   "note": "complete case split: near layouts are redistributed exactly; otherwise some rank raises ValueError (other ranks may wait) and no rank ever obtains wrong data"
  },
  {
   "property": "C22",
   "status": "proved",
   "theorems": [
    "Verif.C22_mismatch",
    "Verif.C22_match"
   ],
   "note": ""
  },
  {
   "property": "C23",
   "status": "partial",
   "theorems": [
    "Verif.C23_blockdiag_partial",
    "Verif.C23_gathered_partial",
    "Verif.C23_shape",
    "Verif.C23_violated_empty",
    "Verif.C23_empty",
    "Verif.C23_empty_construct",
    "Verif.C23_dtype"
   ],
   "note": "all rank counts, operator lists and inputs whose layout is near the operator's; ranks without operators raise (C23_empty, C23_empty_construct), which is the exact behaviour; far layouts raise (C21)"
  },
  {
   "property": "C24",
   "status": "partial",
   "theorems": [
    "Verif.C24_matvec_partial",
    "Verif.C24_rmatvec_partial",
    "Verif.C24_reject",
    "Verif.C24_shape",
    "Verif.C24_violated_dtype",
    "Verif.C24_matvec_empty",
    "Verif.C24_rmatvec_empty",
    "Verif.C24_empty_construct",
    "Verif.C24_no_operators",
    "Verif.C24_violated_empty",
    "Verif.C24_dtype"
   ],
   "note": "common dtype; false for dtypes that differ between ranks (C24_violated_dtype) and for ranks without operators, whose exact behaviour is proved: they raise, and in rmatvec the other ranks wait forever (C24_*_empty)"
  },
  {
   "property": "C25",
   "status": "partial",
   "theorems": [
    "Verif.C25_matvec_partial",
    "Verif.C25_rmatvec_partial",
    "Verif.C25_reject",
    "Verif.C25_shape",
    "Verif.C25_matvec_empty",
    "Verif.C25_rmatvec_empty",
    "Verif.C25_violated_empty"
   ],
   "note": "as C24; ranks without operators raise and in matvec the other ranks wait forever (C25_*_empty)"
  },
  {
   "property": "C26",
   "status": "partial",
   "theorems": [
    "Verif.C26_blockdiag_partial",
    "Verif.C26_vstack_partial",
    "Verif.C26_hstack_partial"
   ],
   "note": "as C23/C24"
  },
  {
   "property": "C27",
   "status": "partial",
   "theorems": [
    "Verif.C27_partial",
    "Verif.C27_sub",
    "Verif.C27_combinators",
    "Verif.C27_reject",
    "Verif.C27_violated_power",
    "Verif.C27_violated_dtype",
    "Verif.C27_violated_scale"
   ],
   "note": "expressions of any depth, when vectors that are combined have the same layout and dtype; false otherwise (C27_violated_*)"
  },
  {
   "property": "C28",
   "status": "proved",
   "theorems": [
    "Verif.C28_adjoint",
    "Verif.C28_H",
    "Verif.C28_HH",
    "Verif.C28_dottest"
   ],
   "note": "any depth; execution part for expressions typed as in C27"
  },
  {
   "property": "C29",
   "status": "partial",
   "theorems": [
    "Verif.C29_scatter_partial",
    "Verif.C29_bcast_partial",
    "Verif.C29_one_dim",
    "Verif.C29_raises_layout",
    "Verif.C29_raises_bcast",
    "Verif.C29_raises_rows",
    "Verif.C29_violated_layout",
    "Verif.C29_violated_rows",
    "Verif.C29_violated_edge"
   ],
   "note": "holds when every rank has enough rows for the stencil and the flat boundaries are near the row boundaries; false otherwise (witnesses)"
  },
  {
   "property": "C30",
   "status": "partial",
   "theorems": [
    "Verif.C30_transpose",
    "Verif.C30_adjoint_partial",
    "Verif.C30_bcast_partial",
    "Verif.C30_partial",
    "Verif.C30_violated_rows",
    "Verif.C30_violated_edge"
   ],
   "note": "as C29; the adjoint is silently wrong when the last rank has no rows"
  },
  {
   "property": "C31",
   "status": "partial",
   "theorems": [
    "Verif.C31_scatter_partial",
    "Verif.C31_bcast_partial",
    "Verif.C31_one_dim",
    "Verif.C31_raises_layout",
    "Verif.C31_raises_bcast",
    "Verif.C31_raises_rows",
    "Verif.C31_violated_layout",
    "Verif.C31_violated_rows",
    "Verif.C31_violated_edge"
   ],
   "note": "as C29"
  },
  {
   "property": "C32",
   "status": "partial",
   "theorems": [
    "Verif.C32_transpose",
    "Verif.C32_adjoint_partial",
    "Verif.C32_bcast_partial",
    "Verif.C32_partial",
    "Verif.C32_violated_rows"
   ],
   "note": "as C30"
  },
  {
   "property": "C33",
   "status": "partial",
   "theorems": [
    "Verif.C33_partial",
    "Verif.C33_kinds_partial",
    "Verif.C33_adjoint_partial",
    "Verif.C33_rejects",
    "Verif.C33_violated_kind",
    "Verif.C33_violated_bcast"
   ],
   "note": "the requested kind is used for the first axis only; holds for the centered kind or one axis, with the row and layout conditions of C31; pylops' serial derivatives are assumed correct"
  },
  {
   "property": "C34",
   "status": "partial",
   "theorems": [
    "Verif.C34_matvec_partial",
    "Verif.C34_rmatvec_partial",
    "Verif.C34_violated_bcast"
   ],
   "note": "row and layout conditions of C29; scattered inputs only; pylops' serial derivatives are assumed correct"
  },
  {
   "property": "C35",
   "status": "partial",
   "theorems": [
    "Verif.C35_partial",
    "Verif.C35_dot_partial",
    "Verif.C35_asarray",
    "Verif.C35_reject",
    "Verif.C35_norm_partial",
    "Verif.C35_norm_euclidean",
    "Verif.C35_violated_dtype"
   ],
   "note": "Component-wise operations, dot, norm, gathering and rejection for all stacks, layouts and rank counts. False for operands of different dtypes (C35_violated_dtype); masks and inadmissible norm orders excluded."
  },
  {
   "property": "C36",
   "status": "proved",
   "theorems": [
    "Verif.C36_vstack_matvec",
    "Verif.C36_vstack_rmatvec",
    "Verif.C36_blockDiag",
    "Verif.C36_vstack_adjoint",
    "Verif.C36_blockDiag_adjoint",
    "Verif.C36_dottest"
   ],
   "note": "All operator lists of any length and any expressions, all inputs, all rank counts and all executions."
  },
  {
   "property": "C37",
   "status": "partial",
   "theorems": [
    "Verif.C37_partial",
    "Verif.C37_combinators",
    "Verif.C37_dot",
    "Verif.C37_adjoint",
    "Verif.C37_H",
    "Verif.C37_H_run",
    "Verif.C37_reject",
    "Verif.C37_mkVStack",
    "Verif.C37_sub_scaled",
    "Verif.C37_violated_sub",
    "Verif.C37_violated_power",
    "Verif.C37_violated_power_witness",
    "Verif.C37_violated_scale",
    "Verif.C37_dot_none"
   ],
   "note": "Expressions of any depth except: powers on stacked vectors (return the input, C37_violated_power), differences (raise unless the minuend is a scaled operator, C37_violated_sub), complex multiples of real stacks (imaginary part dropped, C37_violated_scale)."
  },
  {
   "property": "C38",
   "status": "partial",
   "theorems": [
    "Verif.C38_matvec_partial",
    "Verif.C38_rmatvec_partial",
    "Verif.C38_adjoint",
    "Verif.C38_rejects",
    "Verif.C38_violated_one_slice",
    "Verif.C38_violated_squeeze",
    "Verif.C38_violated_stack"
   ],
   "note": "partial: no rank with exactly one slice, ny != 1 (forward) / nx != 1 (adjoint), equal slice counts for the loop version with nx = nz = 1; violations proved for those cases"
  },
  {
   "property": "C39",
   "status": "partial",
   "theorems": [
    "Verif.C39_matvec_partial",
    "Verif.C39_rmatvec_partial",
    "Verif.C39_adjoint",
    "Verif.C39_adjoint'",
    "Verif.C39_rejects",
    "Verif.C39_rejects_freq",
    "Verif.C39_violated_real",
    "Verif.C39_violated_empty"
   ],
   "note": "proved for complex kernels with at least two slices on each rank and more than one receiver (forward) / source (adjoint), the FFT being a parameter; false for real-dtype kernels (imaginary part dropped) and for ranks without slices (IndexError and deadlock)"
  },
  {
   "property": "C40",
   "status": "proved",
   "theorems": [
    "Verif.C40_invariant",
    "Verif.C40_break"
   ],
   "note": "arrays without mask, any layouts and stacks; exact arithmetic"
  },
  {
   "property": "C41",
   "status": "proved",
   "theorems": [
    "Verif.C41_cg",
    "Verif.C41_cg_cases",
    "Verif.C41_cg_none",
    "Verif.C41_cgls",
    "Verif.C41_cgls_solve",
    "Verif.C41_cgls_cases",
    "Verif.C41_cgls_none"
   ],
   "note": "arrays without mask; a division by zero ends the model's run"
  },
  {
   "property": "C42",
   "status": "proved",
   "theorems": [
    "Verif.C42_hpd",
    "Verif.C42_cg"
   ],
   "note": "exact arithmetic, arrays without mask"
  },
  {
   "property": "C43",
   "status": "partial",
   "theorems": [
    "Verif.C43_partial"
   ],
   "note": "everything except cost1[0], which is false (C44_violated)"
  },
  {
   "property": "C44",
   "status": "partial",
   "theorems": [
    "Verif.C44_partial",
    "Verif.C44_actual",
    "Verif.C44_violated"
   ],
   "note": "false unless damp is 0 or 1 or x0 = 0 (counterexample proved)"
  },
  {
   "property": "C45",
   "status": "partial",
   "theorems": [
    "Verif.C45_partial",
    "Verif.C45_cgls",
    "Verif.C45_norms",
    "Verif.C45_violated"
   ],
   "note": "false for r1norm, which is the squared gradient norm (counterexample proved); the rest proved"
  },
  {
   "property": "C46",
   "status": "partial",
   "theorems": [
    "Verif.C46_cg",
    "Verif.C46_cg_break",
    "Verif.C46_cgls",
    "Verif.C46_cgls_break",
    "Verif.C46_cg_expr",
    "Verif.C46_cgls_stacked",
    "Verif.C46_violated_mask"
   ],
   "note": "false for arrays with a mask (C46_violated_mask, see C59); proved for arrays without mask; a division by zero ends the model's run"
  },
  {
   "property": "C47",
   "status": "proved",
   "theorems": [
    "Verif.C47_cg",
    "Verif.C47_cgls",
    "Verif.C47_operators",
    "Verif.C47_stacked_operators",
    "Verif.C47_inplace_operator",
    "Verif.C47_callbacks",
    "Verif.C47_cg_refines",
    "Verif.C47_cgls_refines"
   ],
   "note": "any operator and callback that change at most their argument; all limits, tolerances, aliasing of y and x0, executions, also when an exception is raised; the in-place solvers compute what the value solvers compute"
  },
  {
   "property": "C48",
   "status": "proved",
   "theorems": [
    "Verif.C48_verdict",
    "Verif.C48_reject",
    "Verif.C48_pass"
   ],
   "note": "finite values"
  },
  {
   "property": "C49",
   "status": "partial",
   "theorems": [
    "Verif.C49_complex_left_partial",
    "Verif.C49_real_left",
    "Verif.C49_violated"
   ],
   "note": "false for a real left operand with a complex right operand (counterexample proved)"
  },
  {
   "property": "C50",
   "status": "partial",
   "theorems": [
    "Verif.C50_partial",
    "Verif.C50_violated"
   ],
   "note": "false for masked arrays (proved for every masked array)"
  },
  {
   "property": "C51",
   "status": "proved",
   "theorems": [
    "Verif.C51_no_junk",
    "Verif.C51_success"
   ],
   "note": "array operations; operators: see C23-C25, C46 theorems which hold for all memory contents"
  },
  {
   "property": "C52",
   "status": "partial",
   "theorems": [
    "Verif.C52_partial",
    "Verif.C52_violated",
    "Verif.C06_asarray"
   ],
   "note": "true for scattered arrays, false for broadcast arrays (asarray returns the local array itself)"
  },
  {
   "property": "C53",
   "status": "proved",
   "theorems": [
    "Verif.C53",
    "Verif.C53_stacked",
    "Verif.C53_value",
    "Verif.C53_classes",
    "Verif.C53_violated_user"
   ],
   "note": "operators whose own classes are those of the library, or user-defined classes that return a new array; false for user-defined classes that return their argument (C53_violated_user)"
  },
  {
   "property": "C54",
   "status": "proved",
   "theorems": [
    "Verif.C54",
    "Verif.C54_as",
    "Verif.C54_violated_scatter"
   ],
   "note": "false for scattered vectors (C54_violated_scatter), which the property does not claim"
  },
  {
   "property": "C55",
   "status": "proved",
   "theorems": [
    "Verif.C55_mul",
    "Verif.C55_add",
    "Verif.C55_scale",
    "Verif.C55_matmul",
    "Verif.C55_H",
    "Verif.C55_HH",
    "Verif.C55_H_ok",
    "Verif.C55_stacked_mul",
    "Verif.C55_stacked_add",
    "Verif.C55_stacked_matmul",
    "Verif.C55_stacked_H"
   ],
   "note": ""
  },
  {
   "property": "C56",
   "status": "proved",
   "theorems": [
    "Verif.C56_cg",
    "Verif.C56_cgls",
    "Verif.C56_cg_memory",
    "Verif.C56_cgls_memory",
    "Verif.C56_cg_solve",
    "Verif.C56_cgls_solve",
    "Verif.C56_done"
   ],
   "note": ""
  },
  {
   "property": "C57",
   "status": "proved",
   "theorems": [
    "Verif.C57",
    "Verif.C57_den",
    "Verif.C57_adjoint"
   ],
   "note": "expressions whose intermediate results have fitting spaces (Typed, as in C27)"
  },
  {
   "property": "C58",
   "status": "proved",
   "theorems": [
    "Verif.C58_operator",
    "Verif.C58_serial",
    "Verif.C58_cg",
    "Verif.C58_cg_serial",
    "Verif.C58_cgls",
    "Verif.C58_cgls_serial",
    "Verif.C58_blockDiag"
   ],
   "note": "exact arithmetic; layouts without mask for the solvers"
  },
  {
   "property": "C59",
   "status": "partial",
   "theorems": [
    "Verif.C59_cg_partial",
    "Verif.C59_cg_steps",
    "Verif.C59_cgls_partial",
    "Verif.C59_cg_deadlock",
    "Verif.C59_cgls_deadlock",
    "Verif.C59_blockDiag",
    "Verif.C59_blockDiag_waits",
    "Verif.C59_violated"
   ],
   "note": "false when the groups stop after different numbers of iterations: the ranks of the slower groups wait forever (C59_violated; C59_cg_deadlock and C59_cgls_deadlock characterise it); proved when all groups stop after the same number, and for any number of explicit steps"
  },
  {
   "property": "C60",
   "status": "proved",
   "theorems": [
    "Verif.C60_distribution",
    "Verif.C60_owners",
    "Verif.C60_broadcast",
    "Verif.C60_unsafe",
    "Verif.C60_local"
   ],
   "note": "the arrays given to matplotlib; drawing not modelled. UNSAFE_BROADCAST arrays are not refused: rank 0 labels every entry with 0 (C60_unsafe)"
  },
  {
   "property": "C61",
   "status": "partial",
   "theorems": [
    "Verif.C61_cg_silent",
    "Verif.C61_cgls_silent",
    "Verif.C61_cg_partial",
    "Verif.C61_cgls_partial",
    "Verif.C61_cg_serial_partial",
    "Verif.C61_cgls_serial_partial",
    "Verif.C61_cg_zero",
    "Verif.C61_cgls_zero",
    "Verif.C61_cg_serial_zero",
    "Verif.C61_cgls_serial_zero",
    "Verif.C61_cg_deadlock",
    "Verif.C61_cg_empty",
    "Verif.C61_violated",
    "Verif.C61_violated_empty"
   ],
   "note": "Holds if on rank 0 the components of the iterate have equal local shapes and the shown part is a nonempty vector; false otherwise (both failures proved, one leaves the other ranks waiting). If an iteration divides by itershow[2] = 0 then all ranks raise ZeroDivisionError at that iteration (C61_cg_zero, C61_cgls_zero); otherwise itershow is arbitrary."
  },
  {
   "property": "C62",
   "status": "proved",
   "theorems": [
    "Verif.C62_cg",
    "Verif.C62_cgls",
    "Verif.C62_run",
    "Verif.C62_cg_changed",
    "Verif.C62_cgls_changed",
    "Verif.C62_cg_example",
    "Verif.C62_cgls_example"
   ],
   "note": "solvers without masks; the change needs that the steps do not break down"
  },
  {
   "property": "C63",
   "status": "partial",
   "theorems": [
    "Verif.C63_isolated",
    "Verif.C63_histories",
    "Verif.C63_dot_scatter",
    "Verif.C63_norm_scatter",
    "Verif.C63_dot_broadcast",
    "Verif.C63_violated_dot",
    "Verif.C63_dot_waits",
    "Verif.C63_norm_broadcast",
    "Verif.C63_violated_norm",
    "Verif.C63_ravel",
    "Verif.C63_blockDiag",
    "Verif.C63_vstack",
    "Verif.C63_reshaped",
    "Verif.C63_reshaped_self",
    "Verif.C63_fredholm",
    "Verif.C63_violated_fredholm",
    "Verif.C63_vstack_reject",
    "Verif.C63_reshaped_self_flat"
   ],
   "note": "Holds for programs that communicate on base_comm only (constructors, to_dist, asarray, arithmetic, ghost cells, dot and norm of scattered arrays). False for dot and norm of broadcast arrays, ravel, the reshaped decorator, MPIBlockDiag, MPIVStack, MPIFredholm1, which create arrays on COMM_WORLD: it is proved what they return or raise instead."
  },
  {
   "property": "C64",
   "status": "proved",
   "theorems": [
    "Verif.C64_nat",
    "Verif.C64_dot",
    "Verif.C64_vstack",
    "Verif.C64_norm"
   ],
   "note": ""
  },
  {
   "property": "C65",
   "status": "partial",
   "theorems": [
    "Verif.C65_fd",
    "Verif.C65_sd",
    "Verif.C65_fd_adj_partial",
    "Verif.C65_sd_adj_partial",
    "Verif.C65_fd_forward_violated",
    "Verif.C65_sd_forward_violated",
    "Verif.C65_fd_centered5_violated",
    "Verif.C65_fd_backward",
    "Verif.C65_sd_backward"
   ],
   "note": "matvec: proved for all kinds, ranks, rows and layouts (N ≥ 1). rmatvec: proved outside three cases, in which the claim is false: forward first derivative with N + 1 = n (n ≥ 2), forward second derivative with N + 1 = 2 n (n ≥ 2), order-5 first derivative with edges and three rows on one rank; there the value returned in every execution is given and shown not to be the adjoint."
  },
  {
   "property": "C66",
   "status": "partial",
   "theorems": [
    "Verif.C66_cg",
    "Verif.C66_real_start",
    "Verif.C66_real_data",
    "Verif.C66_cplx_partial",
    "Verif.C66_violated_start",
    "Verif.C66_violated_data"
   ],
   "note": "false as stated: a start vector or data of real dtype loses imaginary parts without an error (C66_violated_start, C66_violated_data); the exact result for every combination of dtypes is C66_cg; with complex data and start vector the property holds (C66_cplx_partial). Unmasked single arrays; stacked arrays with mixed dtypes are missing"
  },
  {
   "property": "C67",
   "status": "proved",
   "theorems": [
    "Verif.C67_cg",
    "Verif.C67_cgls",
    "Verif.C67_exact_cg",
    "Verif.C67_exact_cgls",
    "Verif.C67_exact_norm",
    "Verif.C67_needs_same"
   ],
   "note": "arrays and stacks without mask; the operator is assumed to keep the ranks in step"
  },
  {
   "property": "C68",
   "status": "partial",
   "theorems": [
    "Verif.C68_create",
    "Verif.C68_to_dist",
    "Verif.C68_to_dist_default",
    "Verif.C68_asarray",
    "Verif.C68_roundtrip",
    "Verif.C68_elementwise",
    "Verif.C68_inplace",
    "Verif.C68_dot",
    "Verif.C68_ravel",
    "Verif.C68_ghost",
    "Verif.C68_norm_partial",
    "Verif.C68_norm_other",
    "Verif.C68_violated_norm",
    "Verif.C68_before_first_scatter",
    "Verif.C68_before_first_broadcast",
    "Verif.C68_norm_broadcast"
   ],
   "note": "proved for everything except norm along axis -1, where the claim is false (C68_violated_norm: -1 always means all entries, and every other value raises), and the IndexError for axes below -ndim, which arrays that are not scattered do not raise (C68_before_first_broadcast); norm for the orders of C10"
  },
  {
   "property": "C69",
   "status": "partial",
   "theorems": [
    "Verif.C69_ravel_partial",
    "Verif.C69_ravel_spec",
    "Verif.C69_default",
    "Verif.C69_violated",
    "Verif.C69_violated_general"
   ],
   "note": "proved for broadcast arrays, and for arrays scattered along the slowest axis of the order (dimensions before it, for F after it, all 1); for any other layout in which two ranks hold entries the claim is false (C69_violated_general)"
  },
  {
   "property": "C70",
   "status": "proved",
   "theorems": [
    "Verif.C70_cg",
    "Verif.C70_cg_error",
    "Verif.C70_cg_cases",
    "Verif.C70_cg_layouts",
    "Verif.C70_cgls",
    "Verif.C70_cgls_error",
    "Verif.C70_cgls_setup_error",
    "Verif.C70_cgls_cases",
    "Verif.C70_cgls_layouts",
    "Verif.C70_order_matters"
   ],
   "note": "single distributed arrays without mask; with rounding the order of summation can decide whether cg stops (C70_order_matters)"
  },
  {
   "property": "C71",
   "status": "partial",
   "theorems": [
    "Verif.C71_multiply",
    "Verif.C71_add",
    "Verif.C71_exact_partial",
    "Verif.C71_cg_integer",
    "Verif.C71_cgls_integer",
    "Verif.C71_cg_cost",
    "Verif.C71_cgls_cost",
    "Verif.C71_wrong"
   ],
   "note": "false: products and sums are truncated (C71_multiply, C71_add), and cg with integer data returns the start vector and residual 0 (C71_wrong); integer start vectors give integer iterates (C71_cg_integer, C71_cgls_integer); proved for integer entries and factors (C71_exact_partial)"
  },
  {
   "property": "C72",
   "status": "proved",
   "theorems": [
    "Verif.C72_first",
    "Verif.C72_first_adj",
    "Verif.C72_second",
    "Verif.C72_second_adj",
    "Verif.C72_second_overflow",
    "Verif.C72_second_adj_overflow",
    "Verif.C72_ranks",
    "Verif.C72_ranks_adj",
    "Verif.C72_ranks_second",
    "Verif.C72_ranks_second_adj",
    "Verif.C72_actsAs",
    "Verif.C72_actsAs_second",
    "Verif.C72_cgls",
    "Verif.C72_exact",
    "Verif.C72_exact_second"
   ],
   "note": "first axis of the array, as in the operators; where rows are too few or boundaries too far the behaviour is in C29-C32 and C65"
  },
  {
   "property": "C73",
   "status": "proved",
   "theorems": [
    "Verif.C73_blockDiag",
    "Verif.C73_vstack",
    "Verif.C73_hstack",
    "Verif.C73_expr",
    "Verif.C73_actsAs",
    "Verif.C73_leaf_first",
    "Verif.C73_leaf_second",
    "Verif.C73_sum_ranks",
    "Verif.C73_cgls",
    "Verif.C73_exact_run",
    "Verif.C73_exact_bdiag",
    "Verif.C73_exact_onWhole",
    "Verif.C73_exact_sumSlices",
    "Verif.C73_vstack_adj_depends",
    "Verif.C73_H",
    "Verif.C73_H_ok",
    "Verif.C73_sub"
   ],
   "note": "for the stacked operators without mask on COMM_WORLD; inputs whose boundaries need exchange with neighbours only, arrays without mask in expressions"
  },
  {
   "property": "C74",
   "status": "proved",
   "theorems": [
    "Verif.C74_cg",
    "Verif.C74_cg_error",
    "Verif.C74_cg_cases",
    "Verif.C74_cg_layouts",
    "Verif.C74_cgls",
    "Verif.C74_cgls_error",
    "Verif.C74_cgls_setup_error",
    "Verif.C74_cgls_cases",
    "Verif.C74_cgls_layouts",
    "Verif.C74_cg_one",
    "Verif.C74_cgls_one"
   ],
   "note": "arrays without mask; stacks of at least one array; if some array is replicated, independence of the layout assumes that storing a number twice is storing it once and, for CGLS, that the operator's results are stored numbers"
  },
  {
   "property": "C75",
   "status": "proved",
   "theorems": [
    "Verif.C75_expr",
    "Verif.C75_acts",
    "Verif.C75_vstack",
    "Verif.C75_vstack_adj",
    "Verif.C75_pow_stack",
    "Verif.C75_cgls",
    "Verif.C75_cg",
    "Verif.C75_H",
    "Verif.C75_sub",
    "Verif.C75_exact_run"
   ],
   "note": "arrays without mask; the operators in a stack compute functions of the global vectors (C72, C73 for those of this package); for the solvers with replicated arrays storing must be idempotent and the operator's results stored numbers; `e - f` is rejected unless `e` is a scaled operator (C75_sub)"
  },
  {
   "property": "C76",
   "status": "proved",
   "theorems": [
    "Verif.C76_laplacian",
    "Verif.C76_laplacian_ranks",
    "Verif.C76_laplacian_rejects",
    "Verif.C76_gradient_op",
    "Verif.C76_gradient",
    "Verif.C76_gradient_adj",
    "Verif.C76_gradient_cgls",
    "Verif.C76_gradient_rejects",
    "Verif.C76_exact_second",
    "Verif.C76_exact_first",
    "Verif.C76_exact_laplacian"
   ],
   "note": "scattered arrays without mask on COMM_WORLD; axes are non-negative; the serial derivatives along the other axes act on each row (hypothesis ByRows)"
  },
  {
   "property": "C77",
   "status": "proved",
   "theorems": [
    "Verif.C77_fredholm",
    "Verif.C77_fredholm_ranks",
    "Verif.C77_entry",
    "Verif.C77_rejects",
    "Verif.C77_wrap",
    "Verif.C77_mdc",
    "Verif.C77_mdc_ranks",
    "Verif.C77_mdc_cgls",
    "Verif.C77_mdc_rejects",
    "Verif.C77_exact"
   ],
   "note": "no rank has exactly one slice, matrices have more than one column (adjoint: row) and, for the loop version with slices of one number, all ranks have as many slices (elsewhere the code fails, see C38); MPIMDC needs two slices per rank; matrix products, FFT and Identity are parameters; C77_mdc_cgls: CGLS with MPIMDC gives the same results on all numbers of ranks if dot products and norms do not depend on the order of summation and storing is idempotent"
  },
  {
   "property": "C78",
   "status": "proved",
   "theorems": [
    "Verif.C78_dot",
    "Verif.C78_norm",
    "Verif.C78_dot_ranks",
    "Verif.C78_norm_ranks",
    "Verif.C78_stack",
    "Verif.C78_stack_ranks",
    "Verif.C78_first",
    "Verif.C78_first_adj",
    "Verif.C78_second",
    "Verif.C78_second_adj",
    "Verif.C78_fredholm",
    "Verif.C78_gamma"
   ],
   "note": "standard model of rounding without overflow and underflow; arrays without mask; MPIFredholm1 forward with usematmul=True; with replicated arrays the norm assumes stored entries"
  },
  {
   "property": "C79",
   "status": "proved",
   "theorems": [
    "Verif.C79_verdict",
    "Verif.C79_ranks",
    "Verif.C79_reject",
    "Verif.C79_products",
    "Verif.C79_passes",
    "Verif.C79_detects",
    "Verif.C79_first",
    "Verif.C79_exact"
   ],
   "note": "arrays without mask, DistributedArray only (no stacks); rounding bounds without overflow and underflow; isclose is any function which accepts (rejects) what is inside (outside) of the tolerances"
  },
  {
   "property": "C80",
   "status": "partial",
   "theorems": [
    "Verif.C80_cg_again",
    "Verif.C80_cg_result",
    "Verif.C80_cg_setup",
    "Verif.C80_cgls_again",
    "Verif.C80_cgls_result",
    "Verif.C80_cgls_setup",
    "Verif.C80_step_before_setup",
    "Verif.C80_cg_run_partial",
    "Verif.C80_cgls_run_partial",
    "Verif.C80_cg_run_false",
    "Verif.C80_cgls_run_false"
   ],
   "note": "solve and setup again: proved for all earlier attributes. run after solve: false, finalize turns the list of costs into a NumPy array, so the first step changes the returned solution and then raises AttributeError on all ranks (C80_cg_run_false, C80_cgls_run_false)"
  },
  {
   "property": "C81",
   "status": "proved",
   "theorems": [
    "Verif.C81_same",
    "Verif.C81_minimises",
    "Verif.C81_poststack",
    "Verif.C81_poststack_minimises"
   ],
   "note": "exact arithmetic; no masks; the zero data has the layout of the output of R (in the tutorial every rank has the same number of rows, so that it has)"
  },
  {
   "property": "C82",
   "status": "proved",
   "theorems": [
    "Verif.C82_lsm",
    "Verif.C82_mdd"
   ],
   "note": "serial modelling operators and Fourier transforms are parameters; reshaping and plotting of the gathered arrays are left out"
  },
  {
   "property": "C83",
   "status": "partial",
   "theorems": [
    "Verif.C83_expr",
    "Verif.C83_stacked",
    "Verif.C83_exclusive",
    "Verif.C83_blockDiag",
    "Verif.C83_laplacian",
    "Verif.C83_laplacian_adjoint_partial",
    "Verif.C83_gradient",
    "Verif.C83_gradient_adjoint_partial",
    "Verif.C83_violated_adjoint"
   ],
   "note": "rmatvec of the Laplacian and the gradient: but for the numbers of rows of C65, where it is false (C83_violated_adjoint)"
  },
  {
   "property": "C84",
   "status": "proved",
   "theorems": [
    "Verif.C84_fredholm",
    "Verif.C84_fredholm_iff",
    "Verif.C84_mdc_matvec",
    "Verif.C84_mdc_rmatvec",
    "Verif.C84_mdc_scatter"
   ],
   "note": "For MPIMDC the kernel has complex dtype (with a real kernel the result is silently wrong, C39_violated_real) and the local Fourier transforms have the right sizes and complex dtype."
  },
  {
   "property": "C85",
   "status": "proved",
   "theorems": [
    "Verif.C85_cg",
    "Verif.C85_cgls",
    "Verif.C85_cg_expr",
    "Verif.C85_cgls_stacked",
    "Verif.C85_cgls_fredholm",
    "Verif.C85_cg_layout",
    "Verif.C85_cgls_layout"
   ],
   "note": "exact arithmetic; niter given; serial CG and CGLS as in C46"
  },
  {
   "property": "C86",
   "status": "proved",
   "theorems": [
    "Verif.C86_blockDiag",
    "Verif.C86_vstack_matvec",
    "Verif.C86_vstack_rmatvec",
    "Verif.C86_hstack_matvec",
    "Verif.C86_hstack_rmatvec"
   ],
   "note": "conditions are BDGood, VSGood, VSGoodAdj, HSGood, HSGoodAdj in Spec/Safe.lean; operators of one result dtype dt as in C23 to C25 (C24_violated_dtype is the counterexample otherwise); one-dimensional inputs"
  },
  {
   "property": "C87",
   "status": "proved",
   "theorems": [
    "Verif.C87_cg",
    "Verif.C87_cg_count",
    "Verif.C87_cg_eigenvalues",
    "Verif.C87_cgls"
   ],
   "note": "exact arithmetic, arrays without mask; the definitions energyOf, krylov, SpectrumIn, rho are in Spec/Rate.lean"
  },
  {
   "property": "C88",
   "status": "proved",
   "theorems": [
    "Verif.C88_cg",
    "Verif.C88_cg_stop",
    "Verif.C88_cgls"
   ],
   "note": "Arithmetic with relative errors, no overflow or underflow; arrays without mask."
  },
  {
   "property": "C89",
   "status": "proved",
   "theorems": [
    "Verif.C89_elementwise",
    "Verif.C89_setItem",
    "Verif.C89_setItem_broadcast",
    "Verif.C89_toDist",
    "Verif.C89_asarray",
    "Verif.C89_dot",
    "Verif.C89_ghost",
    "Verif.C89_redistribute",
    "Verif.C89_blockDiag",
    "Verif.C89_vstack",
    "Verif.C89_stencils",
    "Verif.C89_derivative",
    "Verif.C89_quiet_blockDiag",
    "Verif.C89_quiet_derivative",
    "Verif.C89_laplacian",
    "Verif.C89_expression",
    "Verif.C89_norm",
    "Verif.C89_cg",
    "Verif.C89_cgls",
    "Verif.C89_cgls_expression",
    "Verif.C89_cgls_stacked",
    "Verif.C89_cgls_laplacian",
    "Verif.C89_cgls_gradient"
   ],
   "note": "the weight of a collective call is what the rank hands over, not what an implementation of MPI moves; products with MPIVStack, MPIFredholm1 and MPIMDC inside the solvers and BROADCAST arrays in the solvers are not covered"
  },
  {
   "property": "C90",
   "status": "proved",
   "theorems": [
    "Verif.Script.C90_script",
    "Verif.Script.C90_results",
    "Verif.Script.C90_plain",
    "Verif.Script.C90_plain_iff",
    "Verif.Script.C90_blockDiag",
    "Verif.Script.C90_blockDiag_standard",
    "Verif.Script.C90_fredholm",
    "Verif.Script.C90_laplacian",
    "Verif.Script.C90_cg",
    "Verif.Script.C90_needs_axis"
   ],
   "note": "Programs with arrays of one dtype scattered along the first axis or BROADCAST, without masks; the state besides the arrays is replicated."
  },
  {
   "property": "C91",
   "status": "proved",
   "theorems": [
    "Verif.Script.C91_cg",
    "Verif.Script.C91_cgls",
    "Verif.Script.C91_expr",
    "Verif.Script.C91_wrap",
    "Verif.Script.C91_expr_standard",
    "Verif.Script.C91_script",
    "Verif.Script.C91_ranks",
    "Verif.Script.C91_ranks_plain"
   ],
   "note": "niter is given (not None); the callback is the model's"
  },
  {
   "property": "C92",
   "status": "proved",
   "theorems": [
    "Verif.Script.C92_vstack",
    "Verif.Script.C92_hstack",
    "Verif.Script.C92_firstDerivative",
    "Verif.Script.C92_secondDerivative",
    "Verif.Script.C92_laplacian",
    "Verif.Script.C92_mdc",
    "Verif.Script.C92_firstDerivative_standard",
    "Verif.Script.C92_secondDerivative_standard",
    "Verif.Script.C92_ranks"
   ],
   "note": "the stencils that are silently wrong (C65) are excepted; MPIMDC with complex kernels and arrays; MPIGradient and other operators on stacked arrays are not in these programs"
  },
  {
   "property": "C93",
   "status": "proved",
   "theorems": [
    "Verif.SScript.C93_script",
    "Verif.SScript.C93_results",
    "Verif.SScript.C93_plain",
    "Verif.SScript.C93_plain_iff",
    "Verif.SScript.C93_ranks",
    "Verif.SScript.C93_ranks_plain",
    "Verif.SScript.C93_stacked",
    "Verif.SScript.C93_stacked_standard",
    "Verif.SScript.C93_linear",
    "Verif.SScript.C93_linear_standard",
    "Verif.SScript.C93_gradient"
   ],
   "note": "Simulation between the ranks and lists of NumPy arrays, by induction on the program; stacked operators by induction on the expression."
  },
  {
   "property": "C94",
   "status": "proved",
   "theorems": [
    "Verif.C94_cgls",
    "Verif.C94_cgls_recovers",
    "Verif.C94_stacked",
    "Verif.C94_stacked_script"
   ],
   "note": "plot_cgls.py and the operator part of plot_stacked_array.py; exact arithmetic"
  },
  {
   "property": "C95",
   "status": "proved",
   "theorems": [
    "Verif.C95_masked",
    "Verif.C95_sizes",
    "Verif.C95_dot_once",
    "Verif.C95_odd"
   ],
   "note": "The three sections on masked arrays as one program; exact arithmetic, one real dtype."
  },
  {
   "property": "C96",
   "status": "proved",
   "theorems": [
    "Verif.C96_stacking",
    "Verif.C96_mpilinop"
   ],
   "note": "the two scripts, for all operators and vectors of compatible shapes and any number of ranks"
  },
  {
   "property": "C97",
   "status": "proved",
   "theorems": [
    "Verif.C97_derivative",
    "Verif.C97_raises",
    "Verif.C97_sizes",
    "Verif.C97_safe",
    "Verif.C97_script",
    "Verif.C97_script_raises",
    "Verif.C97_raises_laplacian",
    "Verif.C97_script_ten",
    "Verif.C97_raises_adjoint",
    "Verif.C97_script_never"
   ],
   "note": "exact arithmetic; the serial derivatives of PyLops are parameters"
  },
  {
   "property": "C98",
   "status": "proved",
   "theorems": [
    "Verif.C98_mdc",
    "Verif.C98_raises",
    "Verif.C98_waits"
   ],
   "note": "exact arithmetic; at least two sources and receivers; the Fourier transforms are parameters"
  },
  {
   "property": "C99",
   "status": "partial",
   "theorems": [
    "Verif.C99_cgls",
    "Verif.C99_returns",
    "Verif.C99_cplx_partial",
    "Verif.C99_violated"
   ],
   "note": "What cgls without damping computes on complex data for start vectors of both dtypes (C99_cgls, C99_returns), the claim for complex start vectors (C99_cplx_partial) and its negation for real ones (C99_violated). With damping, or with data of real dtype and a complex operator, the stored vectors feed back into the iteration; what is computed then is stated by C70 only."
  }
 ]
}
