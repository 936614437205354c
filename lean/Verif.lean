import Verif.KDTree
import Verif.KDTreeLemmas
import Verif.KDTreeProps
import Verif.RootFind
import Verif.RootFindProps
import Verif.LineSearch
import Verif.LineSearchProps
import Verif.InexactNewton
import Verif.InexactNewtonProps
import Verif.TimeLoop
import Verif.TimeLoopProps
import Verif.StateFiles
import Verif.StateFilesProps
import Verif.AsciiFiles
import Verif.AsciiFilesProps
import Verif.Inputs
import Verif.InputsProps
import Verif.Options
import Verif.OptionsProps
import Verif.Boundary
import Verif.BoundaryProps
import Verif.Registry
import Verif.RegistryProps
import Verif.Quotient
import Verif.QuotientProps
import Verif.Operators
import Verif.OperatorsProps
import Verif.Ode
import Verif.OdeProps
import Verif.NonlinearForm
import Verif.NonlinearFormProps
import Verif.BlockJacobi
import Verif.BlockJacobiProps
import Verif.Control
import Verif.ControlProps
import Verif.Loads
import Verif.LoadsLemmas
import Verif.LoadsProps
import Verif.Thermal
import Verif.ThermalProps
import Verif.Warper
import Verif.WarperProps
import Verif.Projector
import Verif.ProjectorProps
import Verif.Pcu
import Verif.PcuProps
import Verif.SurfaceMesh
import Verif.SurfaceMeshProps
import Verif.SurfaceDist
import Verif.SurfaceDistProps
import Verif.OrthoPoly
import Verif.OrthoPolyProps
import Verif.EulerFluxes
import Verif.EulerFluxesLemmas
import Verif.EulerFluxesProps
import Verif.EulerEntropyProps
import Verif.EulerBoundaryProps
import Verif.EulerStabilityProps
import Verif.EulerVortexProps
import Verif.Coefficients
import Verif.CoefficientsProps
import Verif.CoefficientsDerivProps
import Verif.CoefficientsMaterialProps
import Verif.LpError
import Verif.LpErrorProps
import Verif.OrthoPolyIntProps
import Verif.OrthoPolyDegProps
import Verif.EulerMoreProps
import Verif.Sbp
import Verif.SbpLemmas
import Verif.SbpProps
import Verif.SbpShape
import Verif.SbpShapeProps
import Verif.SbpData
import Verif.SbpDataCheck
import Verif.SbpDataProps
import Verif.InviscidInteg
import Verif.InviscidIntegLemmas
import Verif.InviscidIntegProps
import Verif.InviscidStabProps
import Verif.EulerInteg
import Verif.EulerIntegProps
import Verif.EulerStableProps
import Verif.EulerGlobalProps
import Verif.Viscous
import Verif.ViscousProps
import Verif.ViscousWallProps
import Verif.ViscousInteg
import Verif.ViscousIntegLemmas
import Verif.ViscousIntegProps
import Verif.NavierStokesInteg
import Verif.NavierStokesIntegProps
import Verif.FlowSetup
import Verif.FlowSetupProps
import Verif.FlowReportProps
import Verif.Dense
import Verif.DenseLemmas
import Verif.Diffusion
import Verif.DiffusionProps
import Verif.MeshMotion
import Verif.DiffusionSensProps
import Verif.DGDiffusion
import Verif.DGDiffusionProps
import Verif.DGDiffusionSensProps
import Verif.Losses
import Verif.LossesProps
import Verif.LossesIntegProps
import Verif.Force
import Verif.ForceLemmas
import Verif.ForceProps
import Verif.ForceMeshProps
import Verif.CurlCurl
import Verif.IsoMotion3
import Verif.CurlCurlProps
import Verif.MagSource
import Verif.MagSourceProps
import Verif.MatCoeffs
import Verif.MatCoeffProps
import Verif.CoreLoss
import Verif.CoreLossProps
import Verif.OutputForms
import Verif.OutputFormProps
import Verif.ThermalFaces
import Verif.ThermalFaceProps
import Verif.CommonInteg
import Verif.CurlMagProps
import Verif.CommonIntegProps
import Verif.L2Transfer
import Verif.L2TransferProps
import Verif.L2TransferRevProps
import Verif.SteadySolve
import Verif.SteadySolveProps
import Verif.SourceFields
import Verif.SourceFieldProps
import Verif.SourceStatorProps
import Verif.SourceAssemblyProps
import Verif.PyLayer
import Verif.PyLayerProps
import Verif.Unsteady
import Verif.UnsteadyProps
import Verif.Evolver
import Verif.EvolverProps
import Verif.ProjInteg
import Verif.ProjIntegProps
import Verif.ProjChainProps
import Verif.PdeSetup
import Verif.PdeSetupProps
import Verif.SolverSetup
import Verif.SolverSetupProps
import Verif.Mms
import Verif.MmsLemmas
import Verif.MmsProps
import Verif.MmsMoreProps
import Verif.MultiState
import Verif.MultiStateProps
import Verif.HeatSession
import Verif.HeatSessionProps
import Verif.EMOutputs
import Verif.EMOutputProps
import Verif.ThermalAssembly
import Verif.ThermalAssemblyProps
import Verif.SbpCollection
import Verif.SbpCollectionProps
import Verif.BSpline
import Verif.BhData
import Verif.BSplineProps
import Verif.AdJacobian
import Verif.AdJacobianLemmas
import Verif.AdJacobianProps
import Verif.AdViscous
import Verif.AdViscousProps
import Verif.TextLogs
import Verif.TextLogsProps
import Verif.FluxNorm
import Verif.FluxNormProps
import Verif.Steinmetz
import Verif.SteinmetzProps
import Verif.FlowControl
import Verif.FlowControlProps
import Verif.MeshSens
import Verif.MeshSensProps
import Verif.QuarterAnnulus
import Verif.QuarterAnnulusProps
import Verif.Reconstruct
import Verif.ReconstructProps
import Verif.LibData
import Verif.LibDataProps
import Verif.OutputCaps
import Verif.OutputCapsProps
import Verif.CurrentField
import Verif.CurrentFieldProps
import Verif.OptLoop
import Verif.OptLoopProps
import Verif.PyJson
import Verif.PyJsonProps
import Verif.PyFunctions
import Verif.PyFunctionsProps
import Verif.ProjectionInteg
import Verif.ProjectionIntegProps
import Verif.DemagAgg
import Verif.DemagAggProps
import Verif.NuBuildProps
import Verif.FuncComp
import Verif.FuncCompProps
import Verif.FlowMass
import Verif.FlowMassProps
import Verif.Mphys
import Verif.MphysProps
import Verif.LegacyForce
import Verif.LegacyForceProps
import Verif.LegacyMesh
import Verif.LegacyMeshProps
import Verif.JFPrint
import Verif.JFPrintProps
import Verif.LegacyForceMesh
import Verif.LegacyForceMeshProps
import Verif.FaceTest
import Verif.FaceTestProps
import Verif.ForceZero
import Verif.ForceZeroProps
import Verif.SbpBasisProps
import Verif.TransferMap
import Verif.TransferMapProps
import Verif.Advection
import Verif.AdvectionProps
import Verif.SolverFields
import Verif.SolverFieldsProps
import Verif.PyLayerRevProps
import Verif.AdJacDir
import Verif.AdJacDirProps
