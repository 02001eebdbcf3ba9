import Verif.Stream.Args
import Verif.Stream.ArgsProps
import Verif.Stream.Flash
import Verif.Stream.Reconcile
import Verif.Stream.MoleBalance
import Verif.Stream.MoleBalanceProps
import Verif.Stream.EnergyBalance
import Verif.Stream.EnergyBalanceProps
import Verif.Serialize.Traverse
import Verif.Serialize.Json
import Verif.Data.InteractionDB
import Verif.TDep.Model
import Verif.TDep.Props
import Verif.TDep.Pressure
import Verif.Util.Loops
import Verif.Activity.RedlichKister
import Verif.TDep.MixMethods
import Verif.TDep.Derivatives
import Verif.TDep.Mixture
import Verif.TDep.AutoName
import Verif.TDep.Extrapolate
import Verif.TDep.Integrals
import Verif.TDep.Offered
import Verif.TDep.PhaseChange
import Verif.TDep.VolumeObj
import Verif.Groups.GroupString
import Verif.Groups.Fragment
import Verif.Util.Partial
import Verif.Activity.InteractionExp
import Verif.Activity.GibbsExcess
import Verif.Activity.Wilson
import Verif.Activity.NRTL
import Verif.Activity.Uniquac
import Verif.Activity.RegularSolution
import Verif.Activity.Unifac
import Verif.Activity.UnifacComp
import Verif.Eos.CubicRoots
import Verif.Eos.RootSelect
import Verif.Eos.Departure
import Verif.Eos.DerivProps
import Verif.Util.Deriv
import Verif.Eos.Alpha
import Verif.Eos.AlphaFns
import Verif.Eos.Twu
import Verif.Eos.SolveT
import Verif.Eos.Discriminant
import Verif.Eos.Translation
import Verif.Eos.Saturation
import Verif.Eos.MixRule
import Verif.Eos.MixDerivs
import Verif.Eos.LnPhi
import Verif.Chem.IonBalance
import Verif.Phases.Phase
import Verif.Phases.IdealGas
import Verif.Phases.CeosPhase
import Verif.Phases.Fugacity
import Verif.Phases.Virial
import Verif.Phases.Helmholtz
import Verif.Phases.Gibbs
import Verif.Phases.Special
import Verif.Phases.ExcessLiquid
import Verif.Phases.ExcessState
import Verif.Equilibrium.Bulk
import Verif.Equilibrium.State
import Verif.Equilibrium.Mixing
import Verif.Equilibrium.Reports
import Verif.Equilibrium.PhaseId
import Verif.Flash.Dispatch
import Verif.Flash.Substitution
import Verif.Flash.Newton
import Verif.Flash.Stability
import Verif.Flash.SatPoints
import Verif.Flash.Pure
import Verif.Flash.MultiPhase
import Verif.Flash.Mixing
import Verif.Flash.OnePhase
import Verif.Util.Identity
import Verif.Groups.Estimates
import Verif.Groups.PPR78
import Verif.Functional.Checks
import Verif.Flash.Trials
import Verif.Package.Ideal
import Verif.Package.Caloric
import Verif.Eos.ObjectState
import Verif.Eos.PSRK
import Verif.Eos.MixState
import Verif.Eos.MixEquil
import Verif.Chem.Formation
import Verif.Chem.RefState
import Verif.Chem.Electrolyte
import Verif.Chem.MixtureObj
import Verif.Eos.MixSecond
import Verif.Eos.MixDeparture
import Verif.Eos.MixClosed
import Verif.Eos.MixConstruct
import Verif.Phases.VirialMix
import Verif.Phases.MassFlows
import Verif.Chem.ConstantsPackage
import Verif.Chem.CorrelationsPackage
import Verif.TDep.Fits
import Verif.TDep.Construct
import Verif.Activity.ModelObjects
import Verif.Stream.Flows
import Verif.Stream.Legacy
import Verif.Flash.GibbsMin
import Verif.Package.CaloricFlash
import Verif.Activity.UnifacObject
import Verif.Equilibrium.Getters
import Verif.TDep.HelmholtzGas
import Verif.Phases.States
import Verif.Eos.SatDrivers
import Verif.Phases.Direct
import Verif.Flash.MixDrivers
import Verif.Chem.Derived
import Verif.Flash.Setup
import Verif.Groups.Counts
import Verif.TDep.Fitting
import Verif.TDep.FitModel
import Verif.Eos.SolveTRK
import Verif.Eos.VolumeResult
import Verif.TDep.CpPieces
import Verif.Activity.Regress
import Verif.Serialize.Arrays
import Verif.Chem.Sheets
import Verif.TDep.Exports
import Verif.Groups.Priority
import Verif.Util.Repr
import Verif.Equilibrium.Ownership
import Verif.Phases.HenryLaw
import Verif.TDep.Tables
import Verif.Eos.Containers
import Verif.Flash.VaporFraction
import Verif.Phases.CriticalPoint
import Verif.Eos.Transitions
import Verif.Phases.Transport
import Verif.Data.Databases
import Verif.TDep.Allotropes
