import Verif.Model.Rounding
import Verif.Model.Dual
import Verif.Model.Parameters

/-!
# Inputs and results of a computation with rounding
-/

namespace PcSaft

/-- dual numbers nested `k` times: values with derivatives up to order `k` -/
def Nest (D : Type) : ℕ → Type
  | 0 => D
  | k + 1 => Dual (Nest D k)

instance Nest.instDualNum {F D : Type} [F64 F] [DualNum F D] : (k : ℕ) → DualNum F (Nest D k)
  | 0 => inferInstanceAs (DualNum F D)
  | k + 1 =>
    letI := Nest.instDualNum (F := F) (D := D) k
    inferInstanceAs (DualNum F (Dual (Nest D k)))

namespace Spec

/-- two nested dual numbers are related in every component -/
def Componentwise {D E : Type} (P : D → E → Prop) : (k : ℕ) → Nest D k → Nest E k → Prop
  | 0 => P
  | k + 1 => fun x y => Componentwise P k x.re y.re ∧ Componentwise P k x.eps y.eps

/-- A number handed to a computation is the intended one up to rounding, and zero is handed over as zero. -/
structure Input (a : Arithmetic) (x : ℝ) (x' : Rd a) : Prop where
  near : |x'.val - x| ≤ a.u * (1 + |x|)
  zero : x = 0 → x'.val = 0

/-- The numbers of a pure component record are the intended ones up to rounding; the same optional numbers are
present. -/
structure RecordInput (a : Arithmetic) (r : PureRecord ℝ) (r' : PureRecord (Rd a)) : Prop where
  m : Input a r.model_record.m r'.model_record.m
  sigma : Input a r.model_record.sigma r'.model_record.sigma
  epsilon_k : Input a r.model_record.epsilon_k r'.model_record.epsilon_k
  mu : Option.Rel (Input a) r.model_record.mu r'.model_record.mu
  q : Option.Rel (Input a) r.model_record.q r'.model_record.q
  kappa_ab : Option.Rel (Input a) r.model_record.kappa_ab r'.model_record.kappa_ab
  epsilon_k_ab : Option.Rel (Input a) r.model_record.epsilon_k_ab r'.model_record.epsilon_k_ab
  na : Option.Rel (Input a) r.model_record.na r'.model_record.na
  nb : Option.Rel (Input a) r.model_record.nb r'.model_record.nb

end Spec
end PcSaft
