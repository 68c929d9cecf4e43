import Verif.MPI.Bind
import Verif.MPI.Confluence
import Verif.MPI.Follow
import Verif.MPI.Partial
import Verif.MPI.Prog
import Verif.MPI.Rename
import Verif.MPI.Runs
import Verif.MPI.Safe
import Verif.MPI.Semantics
import Verif.MPI.Sim
import Verif.MPI.Wf
import Verif.NumPy.Array
import Verif.NumPy.Column
import Verif.NumPy.Concat
import Verif.NumPy.Float
import Verif.NumPy.Lemmas
import Verif.NumPy.Matmul
import Verif.NumPy.Rows
import Verif.Model.Comm
import Verif.Model.Decorators
import Verif.Model.Derivatives
import Verif.Model.Dispatch
import Verif.Model.DistributedArray
import Verif.Model.Dottest
import Verif.Model.FloatDerivatives
import Verif.Model.FloatDottest
import Verif.Model.FloatFredholm
import Verif.Model.FloatLaplacian
import Verif.Model.FloatOperators
import Verif.Model.FloatSolvers
import Verif.Model.FloatStacked
import Verif.Model.Fredholm
import Verif.Model.Gallery
import Verif.Model.GalleryArrays
import Verif.Model.GalleryDerivative
import Verif.Model.GalleryMDC
import Verif.Model.GalleryOps
import Verif.Model.GalleryStacked
import Verif.Model.GalleryStacking
import Verif.Model.Heap
import Verif.Model.HeapLeaves
import Verif.Model.HeapOperators
import Verif.Model.HeapSolvers
import Verif.Model.IntegerDtype
import Verif.Model.Laplacian
import Verif.Model.LinearOperator
import Verif.Model.MDC
import Verif.Model.NegativeAxis
import Verif.Model.Norm
import Verif.Model.Plotting
import Verif.Model.RavelOrder
import Verif.Model.Regularised
import Verif.Model.SolverLog
import Verif.Model.SolverObject
import Verif.Model.Solvers
import Verif.Model.Stacked
import Verif.Model.StackedOperator
import Verif.Model.Stacking
import Verif.Model.SubComm
import Verif.Model.Tutorials
import Verif.Spec.Algebra
import Verif.Spec.BlockSolvers
import Verif.Spec.Derivatives
import Verif.Spec.Examples
import Verif.Spec.FewRows
import Verif.Spec.FloatDerivatives
import Verif.Spec.FloatDottest
import Verif.Spec.FloatFredholm
import Verif.Spec.FloatLaplacian
import Verif.Spec.FloatOperators
import Verif.Spec.FloatSolvers
import Verif.Spec.FloatStacked
import Verif.Spec.Fredholm
import Verif.Spec.Gap
import Verif.Spec.Gauss
import Verif.Spec.Groups
import Verif.Spec.Heap
import Verif.Spec.History
import Verif.Spec.Layout
import Verif.Spec.Library
import Verif.Spec.MDC
import Verif.Spec.MixedDtype
import Verif.Spec.NegativeAxis
import Verif.Spec.Norm
import Verif.Spec.Operators
import Verif.Spec.Rate
import Verif.Spec.RavelOrder
import Verif.Spec.Redistribute
import Verif.Spec.Rounding
import Verif.Spec.Safe
import Verif.Spec.Script
import Verif.Spec.Shapes
import Verif.Spec.SolverLog
import Verif.Spec.Solvers
import Verif.Spec.StackScript
import Verif.Spec.StackSolvers
import Verif.Spec.Stacked
import Verif.Spec.StackedOperator
import Verif.Spec.Traffic
import Verif.Spec.Vector
import Verif.Proofs.Algebra
import Verif.Proofs.Array
import Verif.Proofs.AxisOps
import Verif.Proofs.Basic
import Verif.Proofs.BinaryFloat
import Verif.Proofs.BlockSolvers
import Verif.Proofs.CGLSTheory
import Verif.Proofs.CGRate
import Verif.Proofs.CGTheory
import Verif.Proofs.DerivApply
import Verif.Proofs.Descent
import Verif.Proofs.Dottest
import Verif.Proofs.FewRows
import Verif.Proofs.FirstDerivative
import Verif.Proofs.FloatArray
import Verif.Proofs.FloatDerivApply
import Verif.Proofs.FloatDerivExact
import Verif.Proofs.FloatDerivatives
import Verif.Proofs.FloatDottest
import Verif.Proofs.FloatExact
import Verif.Proofs.FloatExpr
import Verif.Proofs.FloatFredholm
import Verif.Proofs.FloatLaplacian
import Verif.Proofs.FloatSolvers
import Verif.Proofs.FloatStacked
import Verif.Proofs.FloatStacking
import Verif.Proofs.FloatStencil
import Verif.Proofs.Fredholm
import Verif.Proofs.Gap
import Verif.Proofs.Ghost
import Verif.Proofs.Gradient
import Verif.Proofs.GroupDeadlock
import Verif.Proofs.GroupNorm
import Verif.Proofs.GroupOperators
import Verif.Proofs.GroupSolvers
import Verif.Proofs.Groups
import Verif.Proofs.Heap
import Verif.Proofs.HeapLeaves
import Verif.Proofs.HeapOperators
import Verif.Proofs.HeapOps
import Verif.Proofs.HeapPost
import Verif.Proofs.HeapRefine
import Verif.Proofs.HeapSolvers
import Verif.Proofs.HeapStack
import Verif.Proofs.History
import Verif.Proofs.History2
import Verif.Proofs.Inner
import Verif.Proofs.IntegerDtype
import Verif.Proofs.Laplacian
import Verif.Proofs.Library
import Verif.Proofs.MDC
import Verif.Proofs.Methods
import Verif.Proofs.MixedCGLS
import Verif.Proofs.MixedDtype
import Verif.Proofs.NegativeAxis
import Verif.Proofs.Norm
import Verif.Proofs.Operators
import Verif.Proofs.Part
import Verif.Proofs.Poststack
import Verif.Proofs.Redistribute
import Verif.Proofs.Reduce
import Verif.Proofs.Regularised
import Verif.Proofs.Repeat
import Verif.Proofs.Rounding
import Verif.Proofs.Rows
import Verif.Proofs.Safe
import Verif.Proofs.SafeDeriv
import Verif.Proofs.SafeFredholm
import Verif.Proofs.SafeMDC
import Verif.Proofs.SafeOps
import Verif.Proofs.SafeSolvers
import Verif.Proofs.SafeStacks
import Verif.Proofs.Script
import Verif.Proofs.ScriptBase
import Verif.Proofs.ScriptExpr
import Verif.Proofs.ScriptSolvers
import Verif.Proofs.SecondDerivative
import Verif.Proofs.SolverExample
import Verif.Proofs.SolverLog
import Verif.Proofs.SolverObject
import Verif.Proofs.SolverReuse
import Verif.Proofs.Solvers
import Verif.Proofs.StackScript
import Verif.Proofs.StackScriptBase
import Verif.Proofs.StackScriptSolvers
import Verif.Proofs.StackSolvers
import Verif.Proofs.StackVectors
import Verif.Proofs.Stacked
import Verif.Proofs.StackedNorm
import Verif.Proofs.StackedOperator
import Verif.Proofs.Stacking
import Verif.Proofs.Stencil
import Verif.Proofs.StencilAdjoint
import Verif.Proofs.SubComm
import Verif.Proofs.Traffic
import Verif.Proofs.TrafficArr
import Verif.Proofs.TrafficOps
import Verif.Proofs.TrafficSolvers
import Verif.Proofs.TrafficStacked
import Verif.Proofs.UnifyIdx
import Verif.Proofs.Vec
import Verif.Proofs.XVec
import Verif.Props.C01
import Verif.Props.C02
import Verif.Props.C04
import Verif.Props.C05
import Verif.Props.C06
import Verif.Props.C07
import Verif.Props.C09
import Verif.Props.C100
import Verif.Props.C101
import Verif.Props.C102
import Verif.Props.C12
import Verif.Props.C15
import Verif.Props.C16
import Verif.Props.C17
import Verif.Props.C19
import Verif.Props.C20
import Verif.Props.C21
import Verif.Props.C22
import Verif.Props.C23
import Verif.Props.C24
import Verif.Props.C24Dtype
import Verif.Props.C24Empty
import Verif.Props.C26
import Verif.Props.C27
import Verif.Props.C28
import Verif.Props.C29
import Verif.Props.C30
import Verif.Props.C31
import Verif.Props.C32
import Verif.Props.C33
import Verif.Props.C34
import Verif.Props.C35
import Verif.Props.C36
import Verif.Props.C37
import Verif.Props.C38
import Verif.Props.C39
import Verif.Props.C40
import Verif.Props.C41
import Verif.Props.C42
import Verif.Props.C43
import Verif.Props.C45
import Verif.Props.C46
import Verif.Props.C47
import Verif.Props.C48
import Verif.Props.C49
import Verif.Props.C52
import Verif.Props.C53
import Verif.Props.C54
import Verif.Props.C55
import Verif.Props.C56
import Verif.Props.C57
import Verif.Props.C58
import Verif.Props.C59
import Verif.Props.C60
import Verif.Props.C61
import Verif.Props.C62
import Verif.Props.C63
import Verif.Props.C63Stack
import Verif.Props.C64
import Verif.Props.C65
import Verif.Props.C66
import Verif.Props.C67
import Verif.Props.C68
import Verif.Props.C69
import Verif.Props.C70
import Verif.Props.C71
import Verif.Props.C72
import Verif.Props.C73
import Verif.Props.C74
import Verif.Props.C75
import Verif.Props.C76
import Verif.Props.C77
import Verif.Props.C78
import Verif.Props.C79
import Verif.Props.C80
import Verif.Props.C81
import Verif.Props.C82
import Verif.Props.C83
import Verif.Props.C84
import Verif.Props.C85
import Verif.Props.C86
import Verif.Props.C87
import Verif.Props.C88
import Verif.Props.C89
import Verif.Props.C90
import Verif.Props.C91
import Verif.Props.C92
import Verif.Props.C93
import Verif.Props.C94
import Verif.Props.C95
import Verif.Props.C96
import Verif.Props.C97
import Verif.Props.C98
import Verif.Props.C99
