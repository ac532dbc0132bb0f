import Verif.Spec.Rounding

/-!
# Parameters and states that are slightly off
-/

namespace PcSaft.Spec

/-- a number is off by at most `u`, relative to numbers larger than one -/
def OffBy (u x x' : ℝ) : Prop := |x' - x| ≤ u * (1 + |x|)

/-- a number is off by at most `u` and vanishes if the intended number does -/
def OffByKeepingZero (u x x' : ℝ) : Prop := OffBy u x x' ∧ (x = 0 → x' = 0)

/-- The numbers of a pure component record are off by at most `u`. The same optional numbers are present, and
a component without dipole moment, quadrupole moment, association volume or sites stays without. -/
structure RecordOffBy (u : ℝ) (r r' : PureRecord ℝ) : Prop where
  m : OffByKeepingZero u r.model_record.m r'.model_record.m
  sigma : OffByKeepingZero u r.model_record.sigma r'.model_record.sigma
  epsilon_k : OffByKeepingZero u r.model_record.epsilon_k r'.model_record.epsilon_k
  mu : Option.Rel (OffByKeepingZero u) r.model_record.mu r'.model_record.mu
  q : Option.Rel (OffByKeepingZero u) r.model_record.q r'.model_record.q
  kappa_ab : Option.Rel (OffByKeepingZero u) r.model_record.kappa_ab r'.model_record.kappa_ab
  epsilon_k_ab : Option.Rel (OffByKeepingZero u) r.model_record.epsilon_k_ab r'.model_record.epsilon_k_ab
  na : Option.Rel (OffByKeepingZero u) r.model_record.na r'.model_record.na
  nb : Option.Rel (OffByKeepingZero u) r.model_record.nb r'.model_record.nb

end PcSaft.Spec
