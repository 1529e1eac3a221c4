import Verif.Props.Params
import Verif.Props.Fit
import Verif.Props.FitTermination
import Verif.Props.Flat
import Verif.Props.Constraint
import Verif.Props.Criteria
import Verif.Props.Likelihood
import Verif.Props.Func
import Verif.Props.Leaves
import Verif.Props.Tennis
import Verif.Props.Markov
import Verif.Props.Copula
import Verif.Props.Skellam
import Verif.Props.Preprocessing
import Verif.Props.Tensor
import Verif.Props.TensorAdd
import Verif.Props.TensorExpand
import Verif.Props.TensorStruct
import Verif.Props.TensorMul
import Verif.Props.TensorSum
import Verif.Props.TensorDot
import Verif.Props.TensorGeneric
import Verif.Props.TensorGenericArray
import Verif.Props.TensorGenericSum
import Verif.Props.TensorGenericSumDim
import Verif.Props.TensorGenericStruct
import Verif.Props.FuncTensor
import Verif.Props.LikeTensor
import Verif.Props.LikeTensorMore
import Verif.Props.LikeTensorMain
import Verif.Props.FuncWrapTensor
import Verif.Props.FuncSumTensor
import Verif.Props.FuncLeafTensor
import Verif.Props.FitTensor
import Verif.Props.TwoFactor
import Verif.Lemmas.Sheet
import Verif.Lemmas.Stack
import Verif.Lemmas.ComposeKit
import Verif.Spec.Sheet
import Verif.Spec.Acts
import Verif.Lemmas.ActsLeaf
import Verif.Lemmas.ActsCompose
import Verif.Lemmas.ComposeNum
import Verif.Props.FuncComposeTensor
import Verif.Props.TestModels
import Verif.Lemmas.AddClosed
import Verif.Model.ProductTensor
import Verif.Lemmas.ArrMul
import Verif.Lemmas.ArrStep
import Verif.Spec.ProductTensor
import Verif.Props.FuncProductTensor
import Verif.Props.ProductModels
import Verif.Model.MarkovTensor
import Verif.Lemmas.MarkovPos
import Verif.Props.MarkovTensor
import Verif.Spec.Collapse
import Verif.Model.CollapseTensor
import Verif.Lemmas.Wall
import Verif.Lemmas.CollapseLeaf
import Verif.Props.CollapseTensor
import Verif.Props.CollapseActs
import Verif.Props.CollapseModels
import Verif.Model.COrder
import Verif.Model.FlatTensor
import Verif.Spec.FlatTensor
import Verif.Lemmas.FlatTensor
import Verif.Lemmas.FlatLoops
import Verif.Lemmas.FlatMain
import Verif.Lemmas.FlatHessMain
import Verif.Lemmas.FlatAssembly
import Verif.Lemmas.LinQuad
import Verif.Lemmas.LinQuadTerms
import Verif.Props.FlatTensor
import Verif.Model.TennisTensor
import Verif.Spec.Tennis
import Verif.Lemmas.Tennis
import Verif.Props.TennisTensor
import Verif.Props.TennisSet
import Verif.Model.FitFull
import Verif.Spec.FitFull
import Verif.Lemmas.FitFull
import Verif.Props.FitFull
import Verif.Props.FitExamples
import Verif.Model.ErrorsTensor
import Verif.Spec.ErrorsTensor
import Verif.Lemmas.ErrorsTensor
import Verif.Props.ErrorsTensor
import Verif.Spec.Concave
import Verif.Lemmas.Concave
import Verif.Props.Concave
import Verif.Props.ConcaveExamples
import Verif.Spec.Broyden
import Verif.Lemmas.Broyden
import Verif.Props.Broyden
import Verif.Props.BroydenExamples
import Verif.Model.Operators
import Verif.Props.Operators
import Verif.Lemmas.Scale
import Verif.Lemmas.Terms
import Verif.Props.Terms
import Verif.Model.Protocol
import Verif.Spec.Protocol
import Verif.Props.Protocol
import Verif.Lemmas.Unused
import Verif.Spec.Unused
import Verif.Props.Unused
import Verif.Lemmas.CollapseTerm
import Verif.Props.CollapseTerm
import Verif.Props.FlipTensor
import Verif.Props.Descending
import Verif.Model.Session
import Verif.Spec.Session
import Verif.Props.Session
import Verif.Spec.SessionLike
import Verif.Props.SessionLike
import Verif.Spec.Observations
import Verif.Model.Pipeline
import Verif.Props.Observations
import Verif.Props.ObservationsProb
import Verif.Props.Pipeline
import Verif.Props.MaximumLikelihood
import Verif.Props.MaximumLikelihoodExample
import Verif.Model.SessionErrors
import Verif.Props.SessionErrors
import Verif.Spec.Linked
import Verif.Props.SessionTest
import Verif.Spec.NewtonLocal
import Verif.Lemmas.NewtonLocal
import Verif.Lemmas.NewtonStepLocal
import Verif.Props.NewtonLocal
import Verif.Props.NewtonLocalExamples
import Verif.Props.NewtonSteps
import Verif.Props.NewtonFar
import Verif.Props.CollapseModel
import Verif.Props.Symmetry
import Verif.Props.Rearrange
import Verif.Props.RearrangeExamples
import Verif.Props.RearrangeErrors
import Verif.Props.Weights
import Verif.Props.RowOrder
import Verif.Model.CopulaGaussian
import Verif.Props.CopulaGaussian
import Verif.Props.WeightsSession
import Verif.Spec.Reparam
import Verif.Lemmas.Directional
import Verif.Props.Reparam
import Verif.Props.ReparamFit
import Verif.Props.ReparamErrors
import Verif.Props.ReparamExamples
import Verif.Model.Memory
import Verif.Spec.Memory
import Verif.Lemmas.Memory
import Verif.Props.Memory
import Verif.Props.MemoryState
import Verif.Props.MemoryExamples
import Verif.Spec.Pin
import Verif.Props.Pin
import Verif.Props.PinErrors
import Verif.Props.PinExamples
import Verif.Props.Refit
import Verif.Props.ComposeCounterexamples
import Verif.Props.CollapseCounterexamples
import Verif.Props.FlatCounterexamples
import Verif.Spec.Score
import Verif.Props.Score
import Verif.Props.ScoreMean
import Verif.Props.ScoreCells
import Verif.Props.ScoreExample
import Verif.Model.AddTensor
import Verif.Props.AddTensor
