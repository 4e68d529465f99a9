import Verif.Base.Dbl
import Verif.Base.Flat
import Verif.Base.Loop
import Verif.Base.Omp
import Verif.Base.Scalar
import Verif.Lemmas.Backward
import Verif.Lemmas.BackwardExact
import Verif.Lemmas.BackwardLive
import Verif.Lemmas.BoxQP
import Verif.Lemmas.CSQPCalls
import Verif.Lemmas.CSQPHist
import Verif.Lemmas.CSQPLoop
import Verif.Lemmas.CSQPReach
import Verif.Lemmas.CSQPSplit
import Verif.Lemmas.CSQPTry
import Verif.Lemmas.ConstrainedLQ
import Verif.Lemmas.ConvexLQ
import Verif.Lemmas.Curvature
import Verif.Lemmas.DDPFull
import Verif.Lemmas.DDPHead
import Verif.Lemmas.DDPHist
import Verif.Lemmas.DDPLaws
import Verif.Lemmas.DDPLine
import Verif.Lemmas.DDPLoop
import Verif.Lemmas.DDPMult
import Verif.Lemmas.DDPRoll
import Verif.Lemmas.DDPSplit
import Verif.Lemmas.Descent
import Verif.Lemmas.DescentAlong
import Verif.Lemmas.DescentCon
import Verif.Lemmas.FDDPMult
import Verif.Lemmas.Fejer
import Verif.Lemmas.Filter
import Verif.Lemmas.Hpipm
import Verif.Lemmas.KKTInv
import Verif.Lemmas.KKTStop
import Verif.Lemmas.KKTSystem
import Verif.Lemmas.MtRefine
import Verif.Lemmas.MtRefineQP
import Verif.Lemmas.MtScratch
import Verif.Lemmas.Newton
import Verif.Lemmas.ParallelLag
import Verif.Lemmas.ParallelTry
import Verif.Lemmas.Policy
import Verif.Lemmas.ProxHist
import Verif.Lemmas.ProxLoop
import Verif.Lemmas.ProxQuad
import Verif.Lemmas.ProxReach
import Verif.Lemmas.ProxRows
import Verif.Lemmas.ProxSplit
import Verif.Lemmas.ProxSystem
import Verif.Lemmas.ProxTry
import Verif.Lemmas.PyBoyd
import Verif.Lemmas.PyCSQP
import Verif.Lemmas.PyCSQPHist
import Verif.Lemmas.PyCppSQP
import Verif.Lemmas.PyDense
import Verif.Lemmas.PyDenseQP
import Verif.Lemmas.PyFull
import Verif.Lemmas.PyOsqp
import Verif.Lemmas.PyQP
import Verif.Lemmas.PyQPHist
import Verif.Lemmas.PyQPLoop
import Verif.Lemmas.PyQPSim
import Verif.Lemmas.PySQP
import Verif.Lemmas.PySQPHist
import Verif.Lemmas.PySQPLoop
import Verif.Lemmas.QPAug
import Verif.Lemmas.QPFast
import Verif.Lemmas.QPFixed
import Verif.Lemmas.QPHist
import Verif.Lemmas.QPIter
import Verif.Lemmas.QPLag
import Verif.Lemmas.QPLive
import Verif.Lemmas.QPMt
import Verif.Lemmas.QPOpt
import Verif.Lemmas.QPPass
import Verif.Lemmas.QPStop
import Verif.Lemmas.Reg
import Verif.Lemmas.Riccati
import Verif.Lemmas.RiccatiExist
import Verif.Lemmas.SQPDir
import Verif.Lemmas.SQPFrame
import Verif.Lemmas.SQPHist
import Verif.Lemmas.SQPLoop
import Verif.Lemmas.SQPSearch
import Verif.Lemmas.SQPSplit
import Verif.Lemmas.SQPTry
import Verif.Lemmas.SQPUnits
import Verif.Lemmas.SQPUnits2
import Verif.Lemmas.Shapes
import Verif.Lemmas.ShapesCSQP
import Verif.Lemmas.ShapesFlow
import Verif.Lemmas.ShapesHist
import Verif.Lemmas.Suboptimal
import Verif.Model.Attributes
import Verif.Model.CSQP
import Verif.Model.CSQPQP
import Verif.Model.Callbacks
import Verif.Model.Construct
import Verif.Model.Crocoddyl
import Verif.Model.DDP
import Verif.Model.DDPSolve
import Verif.Model.KKT
import Verif.Model.Logger
import Verif.Model.Parallel
import Verif.Model.ParallelSolve
import Verif.Model.ProxQP
import Verif.Model.PyCSQP
import Verif.Model.PyCppSQP
import Verif.Model.PyDense
import Verif.Model.PySQP
import Verif.Model.SQP
import Verif.Model.Setters
import Verif.Model.Shapes
import Verif.Model.ShapesCSQP
import Verif.Props.CSQPCallbacks
import Verif.Props.CSQPConvex
import Verif.Props.CSQPDescent
import Verif.Props.CSQPDescentEx
import Verif.Props.CSQPFilter
import Verif.Props.CSQPHistory
import Verif.Props.CSQPLine
import Verif.Props.CSQPNoCon
import Verif.Props.CSQPPenalty
import Verif.Props.CSQPRecognise
import Verif.Props.CSQPReg
import Verif.Props.CSQPReturn
import Verif.Props.CSQPSplit
import Verif.Props.CSQPTime
import Verif.Props.CSQPWarm
import Verif.Props.Callbacks
import Verif.Props.Construct
import Verif.Props.DDPConvex
import Verif.Props.DDPDescent
import Verif.Props.DDPDescentEx
import Verif.Props.DDPHistory
import Verif.Props.DDPLine
import Verif.Props.DDPReturn
import Verif.Props.DDPSplit
import Verif.Props.DDPStop
import Verif.Props.DirectionExists
import Verif.Props.FDDPConvex
import Verif.Props.FDDPConvexLQ
import Verif.Props.FDDPFilter
import Verif.Props.FDDPStall
import Verif.Props.Fuel
import Verif.Props.Hpipm
import Verif.Props.HpipmEx
import Verif.Props.KKTHistory
import Verif.Props.KKTSearch
import Verif.Props.KKTSolver
import Verif.Props.Logger
import Verif.Props.LoggerCSQP
import Verif.Props.LoggerSQP
import Verif.Props.ParallelHistory
import Verif.Props.ParallelLag
import Verif.Props.ParallelSolve
import Verif.Props.ParallelTry
import Verif.Props.ParallelTryEx
import Verif.Props.Policy
import Verif.Props.ProxConvex
import Verif.Props.ProxDescent
import Verif.Props.ProxDescentEx
import Verif.Props.ProxFilter
import Verif.Props.ProxHistory
import Verif.Props.ProxQP
import Verif.Props.ProxRecognise
import Verif.Props.ProxReg
import Verif.Props.ProxReturn
import Verif.Props.ProxSplit
import Verif.Props.PyBoyd
import Verif.Props.PyCSQP
import Verif.Props.PyCSQPAgree
import Verif.Props.PyCSQPEx
import Verif.Props.PyCSQPHistory
import Verif.Props.PyCSQPLine
import Verif.Props.PyCSQPLock
import Verif.Props.PyCppEx
import Verif.Props.PyCppInfeasible
import Verif.Props.PyCppLine
import Verif.Props.PyCppMirror
import Verif.Props.PyCppSQP
import Verif.Props.PyDense
import Verif.Props.PyFull
import Verif.Props.PyFullEx
import Verif.Props.PyFullHistory
import Verif.Props.PyFullLQ
import Verif.Props.PyOsqp
import Verif.Props.PyOsqpDescent
import Verif.Props.PyOsqpEx
import Verif.Props.PyPenalty
import Verif.Props.PyQPStop
import Verif.Props.PyQPStopEx
import Verif.Props.PySQP
import Verif.Props.PySQPAgree
import Verif.Props.PySQPAgreeEx
import Verif.Props.PySQPEx
import Verif.Props.PySQPStall
import Verif.Props.QPFejer
import Verif.Props.QPLoop
import Verif.Props.QPPasses
import Verif.Props.QPResidual
import Verif.Props.QPStep
import Verif.Props.QPStop
import Verif.Props.QPStopEx
import Verif.Props.SQPAffine
import Verif.Props.SQPConvex
import Verif.Props.SQPDescent
import Verif.Props.SQPDirection
import Verif.Props.SQPFilter
import Verif.Props.SQPHistory
import Verif.Props.SQPLine
import Verif.Props.SQPReg
import Verif.Props.SQPReturn
import Verif.Props.SQPSplit
import Verif.Props.Setters
import Verif.Props.Settings
import Verif.Props.Shapes
import Verif.Props.ShapesCSQP
import Verif.Props.Suboptimal
import Verif.Props.Units
import Verif.Props.WhyFalse
import Verif.Spec.AdmmDist
import Verif.Spec.Affine
import Verif.Spec.AugCurv
import Verif.Spec.BoxQP
import Verif.Spec.Constrained
import Verif.Spec.ConvexCost
import Verif.Spec.Curvature
import Verif.Spec.Descent
import Verif.Spec.DescentCon
import Verif.Spec.Examples
import Verif.Spec.ExamplesC
import Verif.Spec.Hpipm
import Verif.Spec.LQ
import Verif.Spec.Newton
import Verif.Spec.OCP
import Verif.Spec.Policy
import Verif.Spec.QP
import Verif.Spec.Rollout
import Verif.Spec.Shapes
import Verif.Spec.ShapesCSQP
import Verif.Spec.Stacked
import Verif.Spec.Units
