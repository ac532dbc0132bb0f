import Verif.Spec.Rounding
import Verif.Spec.Theory

/-!
# Arithmetic with a relative error in every operation

`Arithmetic` in `Model/Rounding.lean` allows absolute errors as they occur with gradual underflow.  Explicit bounds are
stated for an arithmetic in which every result has a relative error of at most `u`; this is `f64` arithmetic as long as no
result overflows or underflows.
-/

namespace PcSaft.Spec

/-- `(1 - u)⁻¹`: the factor by which one operation changes a result at most -/
noncomputable def Growth (a : Arithmetic) : ℝ := (1 - a.u)⁻¹

/-- every operation returns a result with a relative error of at most `u`; small integers are represented exactly -/
structure Relative (a : Arithmetic) : Prop where
  unit : a.u < 1
  add : ∀ x y, |a.add x y - (x + y)| ≤ a.u * |x + y|
  sub : ∀ x y, |a.sub x y - (x - y)| ≤ a.u * |x - y|
  mul : ∀ x y, |a.mul x y - x * y| ≤ a.u * |x * y|
  div : ∀ x y, y ≠ 0 → |a.div x y - x / y| ≤ a.u * |x / y|
  lit : ∀ m s e, |a.lit m s e - OfScientific.ofScientific m s e| ≤ a.u * |(OfScientific.ofScientific m s e : ℝ)|
  int : ∀ m s e (j : ℕ), j < 2 ^ 53 → (OfScientific.ofScientific m s e : ℝ) = j → a.lit m s e = j
  /-- `k - 1` multiplications -/
  powi : ∀ (x : ℝ) (k : ℕ), ∃ f, a.powi x k = x ^ k * f ∧ 1 ≤ f * Growth a ^ k ∧ f ≤ Growth a ^ k
  powf : ∀ x y, 0 < x → |a.powf x y - x ^ y| ≤ a.u * |x ^ y|
  sqrt : ∀ x, 0 ≤ x → |a.sqrt x - Real.sqrt x| ≤ a.u * |Real.sqrt x|
  cbrt : ∀ x : ℝ, |a.cbrt x - F64.cbrt x| ≤ a.u * |F64.cbrt x|
  ln : ∀ x, 0 < x → |a.ln x - Real.log x| ≤ a.u * |Real.log x|
  exp : ∀ x, |a.exp x - Real.exp x| ≤ a.u * |Real.exp x|
  expm1 : ∀ x, |a.expm1 x - (Real.exp x - 1)| ≤ a.u * |Real.exp x - 1|
  ln1p : ∀ x, 0 < 1 + x → |a.ln1p x - Real.log (1 + x)| ≤ a.u * |Real.log (1 + x)|
  pi : |a.pi - Real.pi| ≤ a.u * |Real.pi|

/-- `x'` agrees with `x ≥ 0` up to the factor of `k` operations -/
structure Agrees (a : Arithmetic) (k : ℕ) (x : ℝ) (x' : Rd a) : Prop where
  nonneg : 0 ≤ x
  lower : x ≤ x'.val * Growth a ^ k
  upper : x'.val ≤ x * Growth a ^ k

/-- `x'` differs from `x` by at most the effect of `k` operations on a quantity of size `s` -/
structure Differs (a : Arithmetic) (k : ℕ) (s x : ℝ) (x' : Rd a) : Prop where
  size : |x| ≤ s
  error : |x'.val - x| ≤ (Growth a ^ k - 1) * s

/-! ### Sizes of the terms

Rounding errors of a sum are proportional to the sizes of its terms, not to the sum.  The following are the contributions of
`Spec/Theory.lean` with every difference replaced by a sum of absolute values. -/

namespace Fluid
variable {n : ℕ} (f : Fluid n) (T : ℝ) (rho : Fin n → ℝ)

/-- size of the terms of the hard sphere contribution -/
noncomputable def hardSphereSize : ℝ :=
  let z := f.zeta T rho
  6 / Real.pi * (3 * z 1 * z 2 / (1 - z 3) + z 2 ^ 3 / (z 3 * (1 - z 3) ^ 2)
    + (z 2 ^ 3 / z 3 ^ 2 + z 0) * |Real.log (1 - z 3)|)

/-- size of the terms of the chain contribution; the one accounts for the error of the contact value -/
noncomputable def chainSize : ℝ := ∑ i, rho i * |f.m i - 1| * (1 + Real.log (f.contact T rho i))

/-- size of the terms of a perturbation integral -/
noncomputable def integralSize (a : Fin 3 → Fin 7 → ℝ) (m eta : ℝ) : ℝ :=
  ∑ i, (|a 0 i| + (m + 1) / m * |a 1 i| + (m + 1) / m * ((m + 2) / m) * |a 2 i|) * eta ^ (i : ℕ)

/-- size of the terms of the dispersion contribution -/
noncomputable def dispersionSize (a b : Fin 3 → Fin 7 → ℝ) : ℝ :=
  let eta := f.zeta T rho 3;
  2 * Real.pi * f.pairSum T rho 1 * integralSize a (f.mBar rho) eta
    + Real.pi * f.mBar rho * c1 (f.mBar rho) eta * f.pairSum T rho 2 * integralSize b (f.mBar rho) eta

/-- size of the terms of a coefficient -/
noncomputable def coeffSize (a0 a1 a2 m : ℝ) : ℝ := |a0| + (m + 1) / m * |a1| + (m + 1) / m * ((m + 2) / m) * |a2|

/-- size of the terms of a pair correlation integral -/
noncomputable def j2Size {q : ℕ} (a b : Fin q → Fin 3 → ℝ) (eta : ℝ) (i j : Fin n) : ℝ :=
  ∑ r : Fin q, (coeffSize (a r 0) (a r 1) (a r 2) (f.mPair i j)
    + coeffSize (b r 0) (b r 1) (b r 2) (f.mPair i j) * (f.energyIJ i j / T)) * eta ^ (r : ℕ)

/-- size of the terms of a triplet correlation integral -/
noncomputable def j3Size {q : ℕ} (a : Fin q → Fin 3 → ℝ) (eta : ℝ) (i j k : Fin n) : ℝ :=
  ∑ r : Fin q, coeffSize (a r 0) (a r 1) (a r 2) (f.mTriplet i j k) * eta ^ (r : ℕ)

/-- size of the terms of the second order of the dipoles -/
noncomputable def dipole2Size (a b : Fin 5 → Fin 3 → ℝ) : ℝ :=
  Real.pi * ∑ i, ∑ j, rho i * rho j * f.dipoleStrength T i * f.dipoleStrength T j / f.sigmaIJ i j ^ 3
    * f.j2Size T a b (f.zeta T rho 3) i j

/-- size of the terms of the third order of the dipoles -/
noncomputable def dipole3Size (a : Fin 4 → Fin 3 → ℝ) : ℝ :=
  4 / 3 * Real.pi ^ 2 * ∑ i, ∑ j, ∑ k, rho i * rho j * rho k
    * f.dipoleStrength T i * f.dipoleStrength T j * f.dipoleStrength T k
    / (f.sigmaIJ i j * f.sigmaIJ i k * f.sigmaIJ j k) * f.j3Size a (f.zeta T rho 3) i j k

/-- size of the terms of the second order of the quadrupoles -/
noncomputable def quadrupole2Size (a b : Fin 5 → Fin 3 → ℝ) : ℝ :=
  9 / 16 * Real.pi * ∑ i, ∑ j, rho i * rho j * f.quadrupoleStrength T i * f.quadrupoleStrength T j
    / f.sigmaIJ i j ^ 7 * f.j2Size T a b (f.zeta T rho 3) i j

/-- size of the terms of the third order of the quadrupoles -/
noncomputable def quadrupole3Size (a : Fin 4 → Fin 3 → ℝ) : ℝ :=
  9 / 16 * Real.pi ^ 2 * ∑ i, ∑ j, ∑ k, rho i * rho j * rho k
    * f.quadrupoleStrength T i * f.quadrupoleStrength T j * f.quadrupoleStrength T k
    / (f.sigmaIJ i j ^ 3 * f.sigmaIJ i k ^ 3 * f.sigmaIJ j k ^ 3) * f.j3Size a (f.zeta T rho 3) i j k

/-- size of the terms of the second order of dipoles with quadrupoles -/
noncomputable def dipoleQuadrupole2Size (a b : Fin 4 → Fin 3 → ℝ) : ℝ :=
  9 / 4 * Real.pi * ∑ i, ∑ j, rho i * rho j * f.dipoleStrength T i * f.quadrupoleStrength T j
    / f.sigmaIJ i j ^ 5 * f.j2Size T a b (f.zeta T rho 3) i j

/-- the same with both strengths scaled with the diameter to the fourth power -/
noncomputable def dipoleQuadrupole2Size' (a b : Fin 4 → Fin 3 → ℝ) : ℝ :=
  9 / 4 * Real.pi * ∑ i, ∑ j, rho i * rho j * (f.dipoleStrength T i * f.sigma i)
    * (f.quadrupoleStrength T j / f.sigma j) / f.sigmaIJ i j ^ 5 * f.j2Size T a b (f.zeta T rho 3) i j

/-- size of the terms of the third order of dipoles with quadrupoles -/
noncomputable def dipoleQuadrupole3Size (alpha : ℝ) (a : Fin 3 → Fin 2 → ℝ) : ℝ :=
  Real.pi ^ 2 * ∑ i, ∑ j, ∑ k, rho i * rho j * rho k
    * (f.dipoleStrength T i * f.sigma i) * (f.quadrupoleStrength T j / f.sigma j)
    * (f.dipoleStrength T k * f.sigma k + alpha * (f.quadrupoleStrength T k / f.sigma k))
    / (f.sigmaIJ i j * f.sigmaIJ i k * f.sigmaIJ j k) ^ 2
    * f.j3Size (fun r => ![a r 0, a r 1, 0]) (f.zeta T rho 3) i j k

/-- size of a Padé approximation -/
noncomputable def padeSize (s2 a2 a3 : ℝ) : ℝ := s2 ^ 2 / |a2 - a3|

/-- the denominator of a Padé approximation is not much smaller than the terms of which it is the sum -/
def PadeRegular (κ : ℕ) (s2 s3 a2 a3 : ℝ) : Prop := a2 ≠ a3 ∧ s2 + s3 ≤ κ * |a2 - a3|

end Fluid

/-- constants of the theory: dispersion, dipoles, quadrupoles, dipoles with quadrupoles -/
structure Tables where
  a : Fin 3 → Fin 7 → ℝ
  b : Fin 3 → Fin 7 → ℝ
  aD : Fin 5 → Fin 3 → ℝ
  bD : Fin 5 → Fin 3 → ℝ
  cD : Fin 4 → Fin 3 → ℝ
  aQ : Fin 5 → Fin 3 → ℝ
  bQ : Fin 5 → Fin 3 → ℝ
  cQ : Fin 4 → Fin 3 → ℝ
  alpha : ℝ
  aM : Fin 4 → Fin 3 → ℝ
  bM : Fin 4 → Fin 3 → ℝ
  cM : Fin 3 → Fin 2 → ℝ

/-- the constants are those of the publications up to their last digits -/
structure Tables.Published (t : Tables) : Prop where
  a : ∀ i j, |t.a i j - publishedA i j| ≤ 5e-9
  b : ∀ i j, |t.b i j - publishedB i j| ≤ 5e-9
  aD : ∀ i j, |t.aD i j - publishedAD i j| ≤ 5e-7
  bD : ∀ i j, |t.bD i j - publishedBD i j| ≤ 5e-7
  cD : ∀ i j, |t.cD i j - publishedCD i j| ≤ 5e-7
  aQ : ∀ i j, |t.aQ i j - publishedAQ i j| ≤ 5e-7
  bQ : ∀ i j, |t.bQ i j - publishedBQ i j| ≤ 5e-7
  cQ : ∀ i j, |t.cQ i j - publishedCQ i j| ≤ 5e-7
  alpha : |t.alpha - publishedAlpha| ≤ 5e-6
  aM : ∀ i j, |t.aM i j - publishedADQ i j| ≤ 5e-7
  bM : ∀ i j, |t.bM i j - publishedBDQ i j| ≤ 5e-7
  cM : ∀ i j, |t.cM i j - publishedCDQ i j| ≤ 5e-7

/-- a record without dipole, quadrupole and association sites -/
structure PlainRecord (r : PureRecord ℝ) : Prop where
  mu : r.model_record.mu = none
  q : r.model_record.q = none
  kappa : r.model_record.kappa_ab = none

end PcSaft.Spec
