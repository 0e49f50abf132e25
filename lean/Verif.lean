import Verif.Props.Mem
import Verif.Props.Funnel
import Verif.Props.Merit
import Verif.Props.Sqp
import Verif.Props.Bgh
import Verif.Props.NlpParam
import Verif.Props.NlpStep
import Verif.Props.NlpRes
import Verif.Props.QpScaling
import Verif.Props.Reg
import Verif.Props.Convexify
import Verif.Props.LinSolve
import Verif.Props.Expm
import Verif.Props.Erk
import Verif.Props.Butcher
import Verif.Props.Cost
import Verif.Props.Casadi
import Verif.Props.Params
import Verif.Props.Dims
import Verif.Props.Flat
import Verif.Props.Soc
import Verif.Props.Clarabel
import Verif.Props.Osqp
import Verif.Props.Ddp
import Verif.Props.Rti
import Verif.Props.Wfqp
import Verif.Props.WfqpLoop
import Verif.Props.DenseQp
import Verif.Props.QpCall
import Verif.Props.Pcond
import Verif.Model.MemLoop
import Verif.Model.MemModules
import Verif.Model.MemSim
import Verif.Lemmas.MemAuto
import Verif.Props.MemModules
import Verif.Props.MemSim
import Verif.Model.MemQp
import Verif.Model.MemNlp
import Verif.Model.MemNest
import Verif.Props.MemQp
import Verif.Props.MemNlp
import Verif.Props.MemNest
import Verif.Model.Gnsf
import Verif.Model.GnsfSens
import Verif.Spec.Gnsf
import Verif.Lemmas.Gnsf
import Verif.Lemmas.GnsfSens
import Verif.Props.Gnsf
import Verif.Props.GnsfSens
import Verif.Model.Irk
import Verif.Spec.Irk
import Verif.Lemmas.Irk
import Verif.Lemmas.IrkSens
import Verif.Lemmas.IrkHess
import Verif.Props.Irk
import Verif.Props.IrkHess
import Verif.Model.IrkAlg
import Verif.Spec.IrkAlg
import Verif.Props.IrkAlg
import Verif.Model.IrkCost
import Verif.Spec.IrkCost
import Verif.Props.IrkCost
import Verif.Model.Hess
import Verif.Spec.Hess
import Verif.Props.Hess
import Verif.Model.Dynamics
import Verif.Spec.Dynamics
import Verif.Props.Dynamics
import Verif.Model.Daqp
import Verif.Spec.Daqp
import Verif.Lemmas.Daqp
import Verif.Lemmas.DaqpKkt
import Verif.Props.Daqp
import Verif.Model.ParamSens
import Verif.Spec.ParamSens
import Verif.Lemmas.ParamSens
import Verif.Props.ParamSens
import Verif.Model.LiftedIrk
import Verif.Spec.LiftedIrk
import Verif.Props.LiftedIrk
import Verif.Model.ReducHess
import Verif.Spec.ReducHess
import Verif.Lemmas.ReducHess
import Verif.Props.ReducHess
import Verif.Model.Zoro
import Verif.Spec.Zoro
import Verif.Lemmas.Zoro
import Verif.Lemmas.ZoroRun
import Verif.Lemmas.ZoroLoop
import Verif.Lemmas.ZoroAll
import Verif.Lemmas.ZoroReach
import Verif.Props.Zoro
import Verif.Model.ZoroRiccati
import Verif.Spec.ZoroRiccati
import Verif.Lemmas.ZoroRiccati
import Verif.Lemmas.ZoroRows
import Verif.Lemmas.ZoroGains
import Verif.Props.ZoroRiccati
import Verif.Spec.GenSolver
import Verif.Model.GenSolver
import Verif.Lemmas.GenSolver
import Verif.Lemmas.GenLife
import Verif.Props.GenSolver
import Verif.Spec.Batch
import Verif.Model.Batch
import Verif.Lemmas.Batch
import Verif.Props.Batch
import Verif.Spec.Dunes
import Verif.Model.Dunes
import Verif.Lemmas.Dunes
import Verif.Lemmas.Dunes2
import Verif.Props.Dunes
import Verif.Spec.CostForm
import Verif.Model.CostForm
import Verif.Lemmas.CostForm
import Verif.Props.CostForm
import Verif.Spec.Penalty
import Verif.Model.Penalty
import Verif.Lemmas.Penalty
import Verif.Lemmas.Penalty2
import Verif.Props.Penalty
import Verif.Spec.AutoCost
import Verif.Model.AutoCost
import Verif.Lemmas.AutoCost
import Verif.Props.AutoCost
import Verif.Spec.IterFile
import Verif.Model.IterFile
import Verif.Lemmas.IterFile
import Verif.Props.IterFile
import Verif.Spec.MultiPhase
import Verif.Model.MultiPhase
import Verif.Lemmas.MultiPhase
import Verif.Props.MultiPhase
import Verif.Spec.ParamManager
import Verif.Model.ParamManager
import Verif.Lemmas.ParamManager
import Verif.Props.ParamManager
import Verif.Spec.DetectCon
import Verif.Model.DetectCon
import Verif.Lemmas.DetectCon
import Verif.Props.DetectCon
import Verif.Spec.ControlHorizon
import Verif.Model.ControlHorizon
import Verif.Lemmas.ControlHorizon
import Verif.Props.ControlHorizon
import Verif.Spec.Evaluator
import Verif.Model.Evaluator
import Verif.Lemmas.Evaluator
import Verif.Props.Evaluator
import Verif.Spec.QpSlack
import Verif.Model.QpSlack
import Verif.Lemmas.QpSlack
import Verif.Props.QpSlack
import Verif.Spec.CasadiQp
import Verif.Model.CasadiQp
import Verif.Lemmas.CasadiQp
import Verif.Lemmas.CasadiQpMap
import Verif.Lemmas.CasadiQpLam
import Verif.Lemmas.CasadiQpSet
import Verif.Props.CasadiQp
import Verif.Spec.QpDump
import Verif.Model.QpDump
import Verif.Lemmas.QpDump
import Verif.Props.QpDump
import Verif.Spec.AsRti
import Verif.Model.AsRti
import Verif.Lemmas.AsRti
import Verif.Props.AsRti
import Verif.Spec.CasadiNlp
import Verif.Model.CasadiNlp
import Verif.Lemmas.CasadiNlp
import Verif.Lemmas.CasadiNlpBuild
import Verif.Lemmas.CasadiNlpFeas
import Verif.Lemmas.CasadiNlpLam
import Verif.Lemmas.CasadiNlpIter
import Verif.Props.CasadiNlp
import Verif.Spec.TimeGrid
import Verif.Model.TimeGrid
import Verif.Lemmas.TimeGrid
import Verif.Props.TimeGrid
import Verif.Spec.OcpDims
import Verif.Model.OcpDims
import Verif.Lemmas.OcpDims
import Verif.Props.OcpDims
import Verif.Spec.QpOpts
import Verif.Model.QpOpts
import Verif.Lemmas.QpOpts
import Verif.Props.QpOpts
import Verif.Spec.OcpCost
import Verif.Model.OcpCost
import Verif.Lemmas.OcpCost
import Verif.Props.OcpCost
import Verif.Spec.OptSet
import Verif.Model.OptSet
import Verif.Lemmas.OptSet
import Verif.Props.OptSet
import Verif.Spec.PyArr
import Verif.Model.PyArr
import Verif.Props.PyArr
import Verif.Spec.Regularity
import Verif.Spec.RegularityOcp
import Verif.Model.Regularity
import Verif.Model.RegularityOcp
import Verif.Lemmas.Regularity
import Verif.Lemmas.RegularityLicq
import Verif.Lemmas.RegularityOcp
import Verif.Props.Regularity
import Verif.Props.RegularityOcp
import Verif.Spec.QpDesc
import Verif.Model.QpDesc
import Verif.Props.QpDesc
import Verif.Spec.QpLicq
import Verif.Model.QpLicq
import Verif.Lemmas.QpLicq
import Verif.Props.QpLicq
import Verif.Spec.IterObj
import Verif.Model.IterObj
import Verif.Props.IterObj
import Verif.Spec.SimDesc
import Verif.Model.SimDesc
import Verif.Props.SimDesc
import Verif.Spec.StepNorm
import Verif.Spec.SensOpts
import Verif.Model.StepNorm
import Verif.Model.SensOpts
import Verif.Props.StepNorm
import Verif.Props.SensOpts
