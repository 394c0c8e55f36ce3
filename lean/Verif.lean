import Verif.Model.AamBase
import Verif.Model.AamSolvers
import Verif.Model.Alignment
import Verif.Model.Base
import Verif.Model.Builder
import Verif.Model.Checks
import Verif.Model.Clm
import Verif.Model.ClmRuns
import Verif.Model.Constructors
import Verif.Model.Convolution
import Verif.Model.CorrelationFilter
import Verif.Model.Deformation
import Verif.Model.DeformationTree
import Verif.Model.Dft
import Verif.Model.Dlib
import Verif.Model.DlibTraining
import Verif.Model.Ensemble
import Verif.Model.Error
import Verif.Model.Face
import Verif.Model.FailedTraining
import Verif.Model.FftUtils
import Verif.Model.Fitter
import Verif.Model.GaussNewton
import Verif.Model.Homogeneous
import Verif.Model.InUse
import Verif.Model.Instances
import Verif.Model.Io
import Verif.Model.LinearTraining
import Verif.Model.LinearTransform
import Verif.Model.LkKernel
import Verif.Model.LkResidual
import Verif.Model.LkRuns
import Verif.Model.ModelDriven
import Verif.Model.ModelInstance
import Verif.Model.NdConvolution
import Verif.Model.Noise
import Verif.Model.Optim
import Verif.Model.PatchNorm
import Verif.Model.Perturb
import Verif.Model.Placement
import Verif.Model.Plane
import Verif.Model.Printing
import Verif.Model.Py
import Verif.Model.Regression
import Verif.Model.Result
import Verif.Model.ResultShow
import Verif.Model.Sampling
import Verif.Model.ScaleTraining
import Verif.Model.SdClasses
import Verif.Model.SdFeatures
import Verif.Model.Sdm
import Verif.Model.SdmRegression
import Verif.Model.SdmReport
import Verif.Model.SdmStart
import Verif.Model.SdmState
import Verif.Model.SharedModel
import Verif.Model.Spectral
import Verif.Model.StatTable
import Verif.Model.Stats
import Verif.Model.TpsLandmarks
import Verif.Model.TrainFit
import Verif.Model.Training
import Verif.Model.Unified
import Verif.Model.UnifiedBase
import Verif.Model.Visualize
import Verif.Model.Warps
import Verif.Spec.AamBase
import Verif.Spec.AamSolvers
import Verif.Spec.Alignment
import Verif.Spec.Builder
import Verif.Spec.Bystander
import Verif.Spec.Channels
import Verif.Spec.Checks
import Verif.Spec.Clm
import Verif.Spec.ClmRest
import Verif.Spec.Coarser
import Verif.Spec.Constructors
import Verif.Spec.ConvLinear
import Verif.Spec.Convolution
import Verif.Spec.Copies
import Verif.Spec.CorrelationFilter
import Verif.Spec.Deformation
import Verif.Spec.DeformationTree
import Verif.Spec.Descent
import Verif.Spec.DlibTraining
import Verif.Spec.Downhill
import Verif.Spec.Ensemble
import Verif.Spec.Expression
import Verif.Spec.Face
import Verif.Spec.FailedTraining
import Verif.Spec.FftUtils
import Verif.Spec.Fitter
import Verif.Spec.FixedPoint
import Verif.Spec.GaussNewton
import Verif.Spec.Homogeneous
import Verif.Spec.InUse
import Verif.Spec.Instances
import Verif.Spec.Io
import Verif.Spec.Lighting
import Verif.Spec.LinearTraining
import Verif.Spec.LinearTransform
import Verif.Spec.LkKernel
import Verif.Spec.LkResidual
import Verif.Spec.Mirror
import Verif.Spec.ModelDriven
import Verif.Spec.ModelInstance
import Verif.Spec.Noise
import Verif.Spec.Order
import Verif.Spec.PatchNorm
import Verif.Spec.Perturb
import Verif.Spec.Placement
import Verif.Spec.Plane
import Verif.Spec.Printing
import Verif.Spec.Regression
import Verif.Spec.Renumber
import Verif.Spec.Reorder
import Verif.Spec.Reparametrised
import Verif.Spec.Resolution
import Verif.Spec.Result
import Verif.Spec.ResultShow
import Verif.Spec.Resume
import Verif.Spec.SameSpace
import Verif.Spec.Sampling
import Verif.Spec.ScaleTraining
import Verif.Spec.SdClasses
import Verif.Spec.SdFeatures
import Verif.Spec.Sdm
import Verif.Spec.SdmReorder
import Verif.Spec.SdmState
import Verif.Spec.SharedModel
import Verif.Spec.Signs
import Verif.Spec.Spectral
import Verif.Spec.StatTable
import Verif.Spec.Stats
import Verif.Spec.TpsLandmarks
import Verif.Spec.TrainPlacement
import Verif.Spec.Training
import Verif.Spec.Transpose
import Verif.Spec.Turned
import Verif.Spec.Unified
import Verif.Spec.UnifiedBase
import Verif.Spec.Visualize
import Verif.Spec.Warps
import Verif.Lemmas.AamBase
import Verif.Lemmas.AamSolvers
import Verif.Lemmas.Alignment
import Verif.Lemmas.Aps
import Verif.Lemmas.Bystander
import Verif.Lemmas.Channels
import Verif.Lemmas.ChannelsLk
import Verif.Lemmas.ChannelsRest
import Verif.Lemmas.Checks
import Verif.Lemmas.Clm
import Verif.Lemmas.ClmRest
import Verif.Lemmas.Coarser
import Verif.Lemmas.CoarserTraining
import Verif.Lemmas.Constructors
import Verif.Lemmas.ConvLinear
import Verif.Lemmas.Convolution
import Verif.Lemmas.Copies
import Verif.Lemmas.CorrelationEnsemble
import Verif.Lemmas.CorrelationFilter
import Verif.Lemmas.Deformation
import Verif.Lemmas.DeformationTree
import Verif.Lemmas.Descent
import Verif.Lemmas.Dft
import Verif.Lemmas.Dlib
import Verif.Lemmas.DlibTraining
import Verif.Lemmas.Downhill
import Verif.Lemmas.Ensemble
import Verif.Lemmas.Error
import Verif.Lemmas.Expression
import Verif.Lemmas.Face
import Verif.Lemmas.FailedTraining
import Verif.Lemmas.FftUtils
import Verif.Lemmas.Fitter
import Verif.Lemmas.FixedPoint
import Verif.Lemmas.GaussNewton
import Verif.Lemmas.Homogeneous
import Verif.Lemmas.InUse
import Verif.Lemmas.Io
import Verif.Lemmas.Lighting
import Verif.Lemmas.LinearTraining
import Verif.Lemmas.LinearTransform
import Verif.Lemmas.LinearWitness
import Verif.Lemmas.LkKernel
import Verif.Lemmas.LkResidual
import Verif.Lemmas.Mirror
import Verif.Lemmas.MirrorFits
import Verif.Lemmas.MirrorMaps
import Verif.Lemmas.ModelDriven
import Verif.Lemmas.ModelInstance
import Verif.Lemmas.ModelInstanceState
import Verif.Lemmas.Noise
import Verif.Lemmas.Optim
import Verif.Lemmas.Order
import Verif.Lemmas.OrderRegression
import Verif.Lemmas.OrderSdm
import Verif.Lemmas.PatchNorm
import Verif.Lemmas.PdmJacobian
import Verif.Lemmas.Perturb
import Verif.Lemmas.Placement
import Verif.Lemmas.PlacementRuns
import Verif.Lemmas.Plane
import Verif.Lemmas.PlaneFits
import Verif.Lemmas.Printing
import Verif.Lemmas.PrintingModels
import Verif.Lemmas.Quadratic
import Verif.Lemmas.Recount
import Verif.Lemmas.Regression
import Verif.Lemmas.Renumber
import Verif.Lemmas.Reorder
import Verif.Lemmas.Reparametrised
import Verif.Lemmas.ReparametrisedLk
import Verif.Lemmas.Resolution
import Verif.Lemmas.Result
import Verif.Lemmas.ResultView
import Verif.Lemmas.Resume
import Verif.Lemmas.ResumeForward
import Verif.Lemmas.ResumeShared
import Verif.Lemmas.SameSpace
import Verif.Lemmas.Sampling
import Verif.Lemmas.ScaleTraining
import Verif.Lemmas.SdClasses
import Verif.Lemmas.Sdm
import Verif.Lemmas.SdmReorder
import Verif.Lemmas.SdmStart
import Verif.Lemmas.SdmState
import Verif.Lemmas.SharedModel
import Verif.Lemmas.SharedRuns
import Verif.Lemmas.SharedWitness
import Verif.Lemmas.Signs
import Verif.Lemmas.Simps
import Verif.Lemmas.Spectral
import Verif.Lemmas.SpectralExist
import Verif.Lemmas.StatOrder
import Verif.Lemmas.StatTable
import Verif.Lemmas.Stats
import Verif.Lemmas.TpsLandmarks
import Verif.Lemmas.TpsWitness
import Verif.Lemmas.TrainFit
import Verif.Lemmas.TrainPlacement
import Verif.Lemmas.Training
import Verif.Lemmas.Transpose
import Verif.Lemmas.TransposeFits
import Verif.Lemmas.TransposeMaps
import Verif.Lemmas.Turned
import Verif.Lemmas.TurnedSdm
import Verif.Lemmas.Unified
import Verif.Lemmas.UnifiedBase
import Verif.Lemmas.Visualize
import Verif.Lemmas.Warps
import Verif.Props.AamBase
import Verif.Props.AamSolvers
import Verif.Props.Alignment
import Verif.Props.Aps
import Verif.Props.Base
import Verif.Props.Builder
import Verif.Props.Bystander
import Verif.Props.Channels
import Verif.Props.ChannelsSdm
import Verif.Props.Checks
import Verif.Props.Clm
import Verif.Props.ClmRest
import Verif.Props.Coarser
import Verif.Props.CoarserTraining
import Verif.Props.Constructors
import Verif.Props.ConvLinear
import Verif.Props.Convolution
import Verif.Props.Copies
import Verif.Props.CorrelationEnsemble
import Verif.Props.CorrelationFilter
import Verif.Props.Deformation
import Verif.Props.DeformationTree
import Verif.Props.Descent
import Verif.Props.DescentLimits
import Verif.Props.DescentReport
import Verif.Props.Diagonal
import Verif.Props.Dlib
import Verif.Props.DlibTraining
import Verif.Props.Downhill
import Verif.Props.Ensemble
import Verif.Props.Error
import Verif.Props.Expression
import Verif.Props.Face
import Verif.Props.FailedTraining
import Verif.Props.FftUtils
import Verif.Props.Fitter
import Verif.Props.FixedPoint
import Verif.Props.GaussNewton
import Verif.Props.Homogeneous
import Verif.Props.InUse
import Verif.Props.Instances
import Verif.Props.Io
import Verif.Props.Lighting
import Verif.Props.LinearTraining
import Verif.Props.LinearTransform
import Verif.Props.LkForward
import Verif.Props.LkKernel
import Verif.Props.LkKernelCosts
import Verif.Props.LkResidual
import Verif.Props.LkStart
import Verif.Props.LkSteps
import Verif.Props.Mirror
import Verif.Props.MirrorFits
import Verif.Props.ModelDriven
import Verif.Props.ModelDrivenJp
import Verif.Props.ModelInstance
import Verif.Props.Noise
import Verif.Props.Offset
import Verif.Props.Optim
import Verif.Props.Order
import Verif.Props.OrderLimits
import Verif.Props.OrderSdm
import Verif.Props.OrthoDriven
import Verif.Props.PadContent
import Verif.Props.PatchNorm
import Verif.Props.PdmHistories
import Verif.Props.Perturb
import Verif.Props.Placement
import Verif.Props.Plane
import Verif.Props.PlaneAlgorithms
import Verif.Props.PlaneRoundTrip
import Verif.Props.Printing
import Verif.Props.PrintingLines
import Verif.Props.ProcrustesCascade
import Verif.Props.Regression
import Verif.Props.Renumber
import Verif.Props.RenumberAlternating
import Verif.Props.RenumberFits
import Verif.Props.RenumberSdm
import Verif.Props.Reparametrised
import Verif.Props.Resolution
import Verif.Props.Result
import Verif.Props.ResultShow
import Verif.Props.Resume
import Verif.Props.ResumeLost
import Verif.Props.SameSpace
import Verif.Props.Sampling
import Verif.Props.ScaleTraining
import Verif.Props.SdClasses
import Verif.Props.SdFeatures
import Verif.Props.Sdm
import Verif.Props.SdmState
import Verif.Props.SharedModel
import Verif.Props.SharedRuns
import Verif.Props.Signs
import Verif.Props.SignsAlternating
import Verif.Props.Spectral
import Verif.Props.StatOrder
import Verif.Props.StatTable
import Verif.Props.Stats
import Verif.Props.TpsLandmarks
import Verif.Props.TrainFit
import Verif.Props.TrainPlacement
import Verif.Props.Training
import Verif.Props.Transpose
import Verif.Props.TransposeFits
import Verif.Props.Unified
import Verif.Props.UnifiedBase
import Verif.Props.Visualize
import Verif.Props.Warps
