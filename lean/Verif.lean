import Verif.Props.Layout
import Verif.Props.Dense
import Verif.Props.Machine
import Verif.Props.DenseIter
import Verif.Props.Packed
import Verif.Props.Symmetric
import Verif.Props.Banded
import Verif.Props.Select
import Verif.Props.Storage
import Verif.Props.MapArray
import Verif.Props.Mapped
import Verif.Props.CompressedVector
import Verif.Props.Coo
import Verif.Model.CompressedMatrix
import Verif.Spec.CompressedMatrix
import Verif.Lemmas.CompressedMatrix
import Verif.Props.CompressedMatrix
import Verif.Model.CooToCMat
import Verif.Props.CooToCMat
import Verif.Model.CMatIter
import Verif.Lemmas.CMatIter
import Verif.Props.CMatIter
import Verif.Model.Prod
import Verif.Spec.Prod
import Verif.Lemmas.Prod
import Verif.Model.PackedIter
import Verif.Props.PackedIter
import Verif.Model.Operands
import Verif.Props.Prod
import Verif.Props.VectorAssign
import Verif.Model.Expr
import Verif.Props.TriRow
import Verif.Props.Expr
import Verif.Props.AssignOps
import Verif.Model.MatrixAssign
import Verif.Spec.MatrixAssign
import Verif.Lemmas.MatrixAssign
import Verif.Model.MatrixTargets
import Verif.Props.MatrixAssign
import Verif.Model.Operation
import Verif.Lemmas.Operation
import Verif.Props.Axpy
import Verif.Props.AxpySparse
import Verif.Props.AxpyMM
import Verif.Props.Opb
import Verif.Model.Blocked
import Verif.Lemmas.Blocked
import Verif.Props.Blocked
import Verif.Model.SparseProd
import Verif.Props.SparseProd
import Verif.Model.Solve
import Verif.Spec.Solve
import Verif.Lemmas.Solve
import Verif.Props.Solve
import Verif.Model.Norms
import Verif.Spec.Norms
import Verif.Props.Norms
import Verif.Model.LU
import Verif.Spec.LU
import Verif.Lemmas.LU
import Verif.Props.LU
import Verif.Props.LUSubst
import Verif.Props.LUAxpy
import Verif.Model.Tensor
import Verif.Model.TensorExpr
import Verif.Spec.Tensor
import Verif.Lemmas.Tensor
import Verif.Props.Tensor
import Verif.Model.TensorAlg
import Verif.Model.TensorMul
import Verif.Lemmas.TensorNest
import Verif.Lemmas.TensorPerm
import Verif.Lemmas.TensorMul
import Verif.Props.TensorAlg
import Verif.Props.TensorTrans
import Verif.Model.TensorEin
import Verif.Props.TensorVec
import Verif.Props.TensorMat
import Verif.Props.TensorTen
import Verif.Props.TensorProd
import Verif.Props.TensorInner
import Verif.Props.TensorEin
import Verif.Model.Assigner
import Verif.Spec.Assigner
import Verif.Props.Assigner
import Verif.Props.AssignerUse
import Verif.Props.AssignerBlocks
import Verif.Props.AssignerRefuted
import Verif.Model.IO
import Verif.Spec.IO
import Verif.Lemmas.IO
import Verif.Lemmas.IOMatrix
import Verif.Lemmas.IOSym
import Verif.Props.IO
import Verif.Props.IORound
import Verif.Props.IOSize
import Verif.Model.ScalarAssign
import Verif.Props.ScalarAssign
import Verif.Model.Blas
import Verif.Lemmas.Blas
import Verif.Props.Blas
import Verif.Model.VectorOfVector
import Verif.Spec.VectorOfVector
import Verif.Lemmas.VectorOfVector
import Verif.Props.VectorOfVector
import Verif.Model.Constant
import Verif.Props.Constant
import Verif.Spec.CArray
import Verif.Props.CArray
import Verif.Model.DenseVV
import Verif.Spec.DenseVV
import Verif.Props.DenseVV
import Verif.Model.Swap
import Verif.Spec.Swap
import Verif.Props.Swap
import Verif.Model.SymAdaptor
import Verif.Spec.SymAdaptor
import Verif.Props.SymAdaptor
import Verif.Model.PackedAdaptor
import Verif.Props.PackedAdaptor
import Verif.Model.ProxyIter
import Verif.Spec.ProxyIter
import Verif.Props.ProxyIter
import Verif.Props.ProxyIterM
import Verif.Props.ProxyIterDense
import Verif.Props.ProxyIterSparse
import Verif.Props.ProxyIterPacked
import Verif.Model.MappedIter
import Verif.Props.KeyLines
import Verif.Props.ProxyIterMapped
import Verif.Model.CoordIter
import Verif.Props.ProxyIterCoord
import Verif.Model.MapOfMaps
import Verif.Props.MapOfMaps
import Verif.Model.MapOfMapsIter
import Verif.Props.MapOfMapsIter
import Verif.Model.TensorStatic
import Verif.Props.TensorRank
import Verif.Props.ExtentsStatic
import Verif.Props.TensorFixed
import Verif.Model.SparseView
import Verif.Spec.SparseView
import Verif.Props.SparseView
import Verif.Model.MatrixVector
import Verif.Spec.MatrixVector
import Verif.Props.MatrixVector
import Verif.Model.TensorOut
import Verif.Spec.TensorOut
import Verif.Props.TensorOut
import Verif.Model.TensorMap
import Verif.Props.TensorMap
import Verif.Model.MatrixRange
import Verif.Props.MatrixRange
import Verif.Props.MatrixSwap
import Verif.Model.TypeCheck
import Verif.Spec.TypeCheck
import Verif.Props.TypeCheck
import Verif.Model.LUCheck
import Verif.Props.LUCheck
import Verif.Model.AxpyCheck
import Verif.Spec.AxpyCheck
import Verif.Props.AxpyCheck
import Verif.Model.ArrayAdaptor
import Verif.Spec.ArrayAdaptor
import Verif.Props.ArrayAdaptor
import Verif.Model.ElementProxy
import Verif.Spec.ElementProxy
import Verif.Props.ElementProxy
import Verif.Model.SelfScalar
import Verif.Props.SelfScalar
import Verif.Model.SelfInsert
import Verif.Props.SelfInsert
import Verif.Model.HermitianProxy
import Verif.Spec.HermitianProxy
import Verif.Props.HermitianProxy
import Verif.Model.Duff
import Verif.Props.Duff
import Verif.Model.ExcStorage
import Verif.Spec.ExcStorage
import Verif.Lemmas.ExcStorage
import Verif.Props.ExcStorage
import Verif.Props.ExcStorageMain
import Verif.Model.ExcContainers
import Verif.Props.ExcContainers
import Verif.Model.TensorLife
import Verif.Spec.TensorLife
import Verif.Props.TensorLife
import Verif.Spec.OutOfRange
import Verif.Props.OutOfRange
import Verif.Spec.BuildModes
import Verif.Lemmas.BuildModes
import Verif.Lemmas.BuildModesA
import Verif.Lemmas.BuildModesB
import Verif.Lemmas.BuildModesC
import Verif.Props.BuildModes
import Verif.Model.Machine64
import Verif.Props.Machine64
import Verif.Model.MatrixAlias
import Verif.Props.MatrixAlias
import Verif.Model.OpenCL
import Verif.Lemmas.OpenCL
import Verif.Props.OpenCL
import Verif.Model.Threads
import Verif.Spec.Threads
import Verif.Lemmas.Threads
import Verif.Lemmas.ThreadsOps
import Verif.Lemmas.ThreadsCoord
import Verif.Props.Threads
import Verif.Model.ThreadsPacked
import Verif.Props.ThreadsPacked
import Verif.Model.AtElement
import Verif.Props.AtElement
import Verif.Model.Serialize
import Verif.Spec.Serialize
import Verif.Lemmas.Serialize
import Verif.Props.Serialize
import Verif.Model.Fixed
import Verif.Spec.Fixed
import Verif.Props.Fixed
import Verif.Model.RandomAccess
import Verif.Spec.RandomAccess
import Verif.Props.RandomAccess
import Verif.Model.Oriented
import Verif.Spec.Oriented
import Verif.Props.Oriented
import Verif.Model.MultiIndex
import Verif.Spec.MultiIndex
import Verif.Props.MultiIndex
import Verif.Model.ShallowAdaptor
import Verif.Spec.ShallowAdaptor
import Verif.Props.ShallowAdaptor
import Verif.Model.ExcSparse
import Verif.Props.ExcSparse
import Verif.Props.ExcNothing
import Verif.Props.ExcInsert
import Verif.Props.Additions
import Verif.Model.OpenCLReduce
import Verif.Props.OpenCLReduce
import Verif.Model.IndexedIter
import Verif.Spec.IndexedIter
import Verif.Props.IndexedIter
import Verif.Props.TensorMixed
import Verif.Model.VoVCoord
import Verif.Spec.VoVCoord
import Verif.Lemmas.VoVCoord
import Verif.Props.VoVCoord
import Verif.Model.Predicates
import Verif.Props.Predicates
import Verif.Model.TensorCompare
import Verif.Props.TensorCompare
import Verif.Props.SerializeFixed
import Verif.Model.CArrayIter
import Verif.Props.CArrayIter
import Verif.Model.SelfInsertCoo
import Verif.Props.SelfInsertCoo
import Verif.Model.ThreadsHerm
import Verif.Spec.ThreadsMirror
import Verif.Props.ThreadsHerm
import Verif.Model.ThreadsCoordMat
import Verif.Props.ThreadsCoordMat
import Verif.Spec.Values
import Verif.Model.Values
import Verif.Props.Values
import Verif.Spec.Vector
import Verif.Model.Vector
import Verif.Props.Vector
import Verif.Spec.Table
import Verif.Model.Table
import Verif.Props.Table
import Verif.Spec.StrictMap
import Verif.Model.StrictMap
import Verif.Props.StrictMap
import Verif.Model.BlasSwap
import Verif.Props.BlasSwap
