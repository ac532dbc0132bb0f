import Lean.Util.CollectAxioms
import Lean.Elab.Command
import Verif.Props.Parameters
import Verif.Props.Construction
import Verif.Props.HardSphere
import Verif.Props.Mixture
import Verif.Props.CrossAssociationExamples
import Verif.Props.DftRows
import Verif.Props.DftAssociation
import Verif.Props.DftChain
import Verif.Props.DftAttractive
import Verif.Props.DftPolar
import Verif.Props.DftViolations
import Verif.Props.DftPureFmt
import Verif.Props.DftTotal
import Verif.Props.PairPotential
import Verif.Props.Transport
import Verif.Props.IdealGas
import Verif.Props.TextIO
import Verif.Props.Derivatives
import Verif.Props.Finite
import Verif.Props.Virial
import Verif.Props.Theory
import Verif.Props.VirialPolar
import Verif.Props.CrossDerivativesExamples
import Verif.Props.Thermodynamics
import Verif.Props.CrossResidual
import Verif.Props.CrossConsistency
import Verif.Props.DftMixtureTotal
import Verif.Props.Interface
import Verif.Props.Examples
import Verif.Props.DftDerivatives
import Verif.Props.DftFinite
import Verif.Props.DftProfileExamples
import Verif.Props.DftBulkDerivatives
import Verif.Props.DftPureBulkDerivatives
import Verif.Props.CrossConvergence
import Verif.Props.CrossConvergenceDual
import Verif.Props.CrossDilute
import Verif.Props.DiluteLimit
import Verif.Props.CrossFinite
import Verif.Props.DftCrossGrid
import Verif.Props.Units
import Verif.Props.Symmetry
import Verif.Props.DftUnits
import Verif.Props.DftPureUnits
import Verif.Props.DftCrossDerivatives
import Verif.Props.DftBalancedGrid
import Verif.Props.CrossPressure
import Verif.Props.CrossBalanced
import Verif.Props.RoundingSites
import Verif.Props.RoundingPolar
import Verif.Props.RoundingAssociation
import Verif.Props.HeatCapacity
import Verif.Props.Throttling
import Verif.Props.ThrottlingPolar
import Verif.Props.RoundingBounds
import Verif.Props.BoylePolar
import Verif.Props.VirialTemperature
import Verif.Props.ThirdVirial
import Verif.Props.InfiniteDilution
import Verif.Props.DilutionJump
import Verif.Props.DiluteStability
import Verif.Props.HotLimit
import Verif.Props.DftSymmetry
import Verif.Props.Continuity
import Verif.Props.Fading
import Verif.Props.AssociatingEntropy
import Verif.Props.ResidualEntropy
import Verif.Props.Viscosity
import Verif.Props.MolarWeights
import Verif.Props.VirialMixing
import Verif.Props.TransportSign
import Verif.Props.VirialPressure
import Verif.Props.Boyle
import Verif.Props.ShippedData
import Verif.Props.PolarAttraction
import Verif.Props.Loops
import Verif.Props.Critical
import Verif.Props.Condensation
import Verif.Props.Heating
import Verif.Props.Rounding
import Verif.Props.Pressure
import Verif.Props.Reference
import Verif.Props.Bonding
import Verif.Props.Attraction
import Verif.Props.DftInhomogeneousExamples

/-!
# Axiom check

Goes through every theorem in `PcSaft.Props` and stops the build if one of them depends on an axiom
other than `propext`, `Classical.choice` and `Quot.sound`.
-/

open Lean Elab Command in
elab "#check_axioms" : command => do
  let env ← getEnv
  let allowed : List Name := [``propext, ``Classical.choice, ``Quot.sound]
  let mut count := 0
  for (name, info) in env.constants.map₁.toList do
    if (`PcSaft.Props).isPrefixOf name && info matches .thmInfo _ then
      let used ← liftCoreM (collectAxioms name)
      for a in used do
        unless allowed.contains a do
          throwError "{name} depends on the axiom {a}"
      count := count + 1
  if count = 0 then throwError "no theorems found"
  logInfo m!"{count} theorems checked; axioms used at most: {allowed}"

#check_axioms
