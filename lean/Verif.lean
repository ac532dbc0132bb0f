import Verif.Num
import Verif.Model.Shipped
import Verif.Model.ShippedFormulas
import Verif.Model.Parameters
import Verif.Model.HardSphere
import Verif.Model.Dispersion
import Verif.Model.Polar
import Verif.Model.Association
import Verif.Model.Eos
import Verif.Model.EntropyScaling
import Verif.Model.DftWeights
import Verif.Model.Dft
import Verif.Model.DftPure
import Verif.Model.TextIO
import Verif.Model.Dual
import Verif.Model.XReal
import Verif.Model.Rounding
import Verif.Tests
import Verif.Lemmas.Segments
import Verif.Lemmas.RealForms
import Verif.Lemmas.Admissible
import Verif.Lemmas.Sums
import Verif.Lemmas.PolarForms
import Verif.Lemmas.MergeInv
import Verif.Lemmas.MassAction
import Verif.Lemmas.Newton
import Verif.Lemmas.SiteFraction
import Verif.Lemmas.Rows
import Verif.Lemmas.Rep
import Verif.Lemmas.RepModel
import Verif.Lemmas.RepPolar
import Verif.Lemmas.RepAssociation
import Verif.Lemmas.RepAdmissible
import Verif.Lemmas.RepEos
import Verif.Spec.Basic
import Verif.Spec.MassAction
import Verif.Props.Parameters
import Verif.Props.Construction
import Verif.Props.HardSphere
import Verif.Props.Mixture
import Verif.Props.Association
import Verif.Props.CrossAssociation
import Verif.Props.CrossAssociationRoot
import Verif.Props.CrossAssociationExamples
import Verif.Props.DftRows
import Verif.Props.DftAssociation
import Verif.Props.DftChain
import Verif.Props.DftAttractive
import Verif.Props.DftPolar
import Verif.Props.DftViolations
import Verif.Props.DftPureFmt
import Verif.Props.DftTotal
import Verif.Props.PairPotential
import Verif.Props.Transport
import Verif.Props.IdealGas
import Verif.Props.TextIO
import Verif.Props.Derivatives
import Verif.Props.Finite
import Verif.Lemmas.Second
import Verif.Props.Virial
import Verif.Spec.Theory
import Verif.Spec.Perturbation
import Verif.Spec.Rounding
import Verif.Props.Theory
import Verif.Props.VirialPolar
import Verif.Lemmas.Tower
import Verif.Lemmas.SiteBranch
import Verif.Lemmas.NewtonTower
import Verif.Lemmas.NewtonLift
import Verif.Lemmas.NewtonWeak
import Verif.Props.CrossDerivatives
import Verif.Props.CrossDerivativesExamples
import Verif.Lemmas.RepSmooth
import Verif.Props.Thermodynamics
import Verif.Props.CrossResidual
import Verif.Lemmas.NewtonPerm
import Verif.Props.CrossMixture
import Verif.Props.CrossConsistency
import Verif.Props.CrossConvergence
import Verif.Props.CrossConvergenceDual
import Verif.Props.CrossDilute
import Verif.Lemmas.DiluteCalculus
import Verif.Lemmas.Dilute
import Verif.Props.DiluteLimit
import Verif.Props.CrossFinite
import Verif.Props.DftCrossGrid
import Verif.Model.Interface
import Verif.Props.DftMixtureTotal
import Verif.Props.Interface
import Verif.Props.Examples
import Verif.Axioms
import Verif.Lemmas.RepDft
import Verif.Lemmas.RepDftPure
import Verif.Lemmas.RepDftEmpty
import Verif.Lemmas.DftRegular
import Verif.Props.DftDerivatives
import Verif.Props.DftFinite
import Verif.Props.DftProfileExamples
import Verif.Lemmas.RepDftBulk
import Verif.Lemmas.RepComplete
import Verif.Props.DftBulkDerivatives
import Verif.Lemmas.RepDftPureBulk
import Verif.Props.DftPureBulkDerivatives
import Verif.Props.DftInhomogeneous
import Verif.Props.DftInhomogeneousExamples
import Verif.Lemmas.Units
import Verif.Lemmas.Transfer
import Verif.Lemmas.MergeRegular
import Verif.Props.Units
import Verif.Props.Symmetry
import Verif.Lemmas.Bonding
import Verif.Lemmas.DispersionSign
import Verif.Props.Bonding
import Verif.Props.Attraction
import Verif.Lemmas.Dense
import Verif.Lemmas.DenseAssociation
import Verif.Lemmas.ChainPressure
import Verif.Props.Pressure
import Verif.Props.Reference
import Verif.Lemmas.Hom
import Verif.Lemmas.RepRounding
import Verif.Lemmas.RoundingNest
import Verif.Lemmas.RoundingEos
import Verif.Props.Rounding
import Verif.Props.Heating
import Verif.Lemmas.Coexistence
import Verif.Lemmas.Cold
import Verif.Props.Condensation
import Verif.Lemmas.Supercritical
import Verif.Lemmas.CriticalPoint
import Verif.Props.Critical
import Verif.Props.Loops
import Verif.Lemmas.PolarSign
import Verif.Props.PolarAttraction
import Verif.Props.ShippedData
import Verif.Lemmas.VirialLimit
import Verif.Lemmas.Boyle
import Verif.Props.VirialPressure
import Verif.Props.Boyle
import Verif.Props.TransportSign
import Verif.Props.VirialMixing
import Verif.Props.MolarWeights
import Verif.Props.Viscosity
import Verif.Lemmas.EntropySign
import Verif.Props.ResidualEntropy
import Verif.Lemmas.AssociationEntropy
import Verif.Props.AssociatingEntropy
import Verif.Props.MoreExamples
import Verif.Lemmas.Perturbation
import Verif.Props.Continuity
import Verif.Props.Fading
import Verif.Props.DftSymmetry
import Verif.Props.HotLimit
import Verif.Lemmas.DiluteSecond
import Verif.Props.DiluteStability
import Verif.Lemmas.Boundary
import Verif.Props.InfiniteDilution
import Verif.Props.DilutionJump
import Verif.Lemmas.ThirdOrder
import Verif.Props.ThirdVirial
import Verif.Props.VirialTemperature
import Verif.Lemmas.BoylePolar
import Verif.Props.BoylePolar
import Verif.Lemmas.RelativeRounding
import Verif.Lemmas.RoundingBounds
import Verif.Lemmas.RoundingTerms
import Verif.Lemmas.RoundingInputs
import Verif.Props.RoundingBounds
import Verif.Lemmas.Throttling
import Verif.Lemmas.ThrottlingPolar
import Verif.Props.Throttling
import Verif.Props.ThrottlingPolar
import Verif.Lemmas.HeatCapacity
import Verif.Props.HeatCapacity
import Verif.Lemmas.RoundingAssociation
import Verif.Props.RoundingAssociation
import Verif.Lemmas.RoundingPolar
import Verif.Props.RoundingPolar
import Verif.Lemmas.RoundingSites
import Verif.Props.RoundingSites
import Verif.Lemmas.NewtonBalanced
import Verif.Props.CrossBalanced
import Verif.Lemmas.InexactEnergy
import Verif.Lemmas.RelativeDerivative
import Verif.Props.CrossPressure
import Verif.Props.DftBalancedGrid
import Verif.Props.DftCrossDerivatives
import Verif.Lemmas.DftRescale
import Verif.Props.DftUnits
import Verif.Props.DftPureUnits
import Verif.Props.DftUnitsLimits
