import Verif.Spec.Basic
import Mathlib.Analysis.SpecialFunctions.Pow.Real
import Mathlib.Data.Fin.VecNotation

/-!
# The theory the contributions are meant to implement

Boublik–Mansoori–Carnahan–Starling–Leland hard spheres, the dispersion term of Gross and Sadowski (2001) and
the polar terms of Gross (2005), Gross and Vrabec (2006) and Vrabec and Gross (2008), written for mixtures in
terms of the pure-component parameters and with plain sums over all components. Nothing here refers to the
model of the code.

All quantities are Helmholtz energies divided by `k_B T` and by the volume; lengths in Å, energies in K,
dipole moments in D, quadrupole moments in DÅ.
-/

namespace PcSaft.Spec
variable {n : ℕ}

/-- pure-component parameters and binary interaction parameters -/
structure Fluid (n : ℕ) where
  m : Fin n → ℝ
  sigma : Fin n → ℝ
  epsilon : Fin n → ℝ
  mu : Fin n → ℝ
  q : Fin n → ℝ
  k : Fin n → Fin n → ℝ

namespace Fluid
variable (f : Fluid n) (T : ℝ) (rho : Fin n → ℝ)

/-- segment diameter -/
noncomputable def d (i : Fin n) : ℝ := diameter (f.sigma i) (f.epsilon i) T

/-- moments of the segment size distribution -/
noncomputable def zeta (k : ℕ) : ℝ := Real.pi / 6 * ∑ i, rho i * f.m i * f.d T i ^ k

/-- hard spheres -/
noncomputable def hardSphere : ℝ :=
  let z := f.zeta T rho
  6 / Real.pi * (3 * z 1 * z 2 / (1 - z 3) + z 2 ^ 3 / (z 3 * (1 - z 3) ^ 2)
    + (z 2 ^ 3 / z 3 ^ 2 - z 0) * Real.log (1 - z 3))

/-- contact value of the hard sphere mixture for two segments of kind `i` -/
noncomputable def contact (i : Fin n) : ℝ :=
  let z := f.zeta T rho
  1 / (1 - z 3) + f.d T i / 2 * (3 * z 2) / (1 - z 3) ^ 2
    + (f.d T i / 2) ^ 2 * (2 * z 2 ^ 2) / (1 - z 3) ^ 3

/-- chain formation -/
noncomputable def chain : ℝ := -∑ i, rho i * (f.m i - 1) * Real.log (f.contact T rho i)

/-- arithmetic mean of the diameters -/
noncomputable def sigmaIJ (i j : Fin n) : ℝ := (f.sigma i + f.sigma j) / 2

/-- geometric mean of the energies -/
noncomputable def energyIJ (i j : Fin n) : ℝ := Real.sqrt (f.epsilon i * f.epsilon j)

/-- a coefficient that depends on the chain length -/
noncomputable def coeff (a0 a1 a2 m : ℝ) : ℝ := a0 + (m - 1) / m * a1 + (m - 1) / m * ((m - 2) / m) * a2

/-- mean segment number -/
noncomputable def mBar : ℝ := (∑ i, rho i * f.m i) / ∑ i, rho i

/-- perturbation integral -/
noncomputable def integral (a : Fin 3 → Fin 7 → ℝ) (m eta : ℝ) : ℝ :=
  ∑ i, coeff (a 0 i) (a 1 i) (a 2 i) m * eta ^ (i : ℕ)

/-- compressibility expression -/
noncomputable def c1 (m eta : ℝ) : ℝ :=
  1 / (1 + m * ((8 * eta - 2 * eta ^ 2) / (1 - eta) ^ 4)
    + (1 - m) * ((20 * eta - 27 * eta ^ 2 + 12 * eta ^ 3 - 2 * eta ^ 4) / ((1 - eta) * (2 - eta)) ^ 2))

/-- `ρ² \overline{m²ε^kσ³}` -/
noncomputable def pairSum (k : ℕ) : ℝ :=
  ∑ i, ∑ j, rho i * rho j * (f.m i * f.m j)
    * ((1 - f.k i j) * f.energyIJ i j / T) ^ k * f.sigmaIJ i j ^ 3

/-- dispersion with universal constants `a` and `b` -/
noncomputable def dispersion (a b : Fin 3 → Fin 7 → ℝ) : ℝ :=
  let eta := f.zeta T rho 3;
  -2 * Real.pi * f.pairSum T rho 1 * integral a (f.mBar rho) eta
    - Real.pi * f.mBar rho * c1 (f.mBar rho) eta * f.pairSum T rho 2 * integral b (f.mBar rho) eta

/-! ### Polar terms -/

/-- Boltzmann constant in J/K -/
noncomputable def kB : ℝ := 1.380649e-23

/-- one squared debye in J Å³ (`1 D = 10⁻¹⁸ esu cm`, so `1 D² = 10⁻³⁶ erg cm³`) -/
noncomputable def debyeSq : ℝ := 1e-19

/-- `μ² / (m k_B T)` in Å³ -/
noncomputable def dipoleStrength (i : Fin n) : ℝ := f.mu i ^ 2 * debyeSq / (f.m i * kB * T)

/-- `Q² / (m k_B T)` in Å⁵ -/
noncomputable def quadrupoleStrength (i : Fin n) : ℝ := f.q i ^ 2 * debyeSq / (f.m i * kB * T)

/-- segment number in the polar terms, at most two -/
noncomputable def mP (i : Fin n) : ℝ := min (f.m i) 2

/-- segment number of a pair -/
noncomputable def mPair (i j : Fin n) : ℝ := Real.sqrt (f.mP i * f.mP j)

/-- segment number of a triplet -/
noncomputable def mTriplet (i j k : Fin n) : ℝ := (f.mP i * f.mP j * f.mP k) ^ (1 / 3 : ℝ)

/-- pair correlation integral -/
noncomputable def j2 {q : ℕ} (a b : Fin q → Fin 3 → ℝ) (eta : ℝ) (i j : Fin n) : ℝ :=
  ∑ r : Fin q, (coeff (a r 0) (a r 1) (a r 2) (f.mPair i j)
    + coeff (b r 0) (b r 1) (b r 2) (f.mPair i j) * (f.energyIJ i j / T)) * eta ^ (r : ℕ)

/-- triplet correlation integral -/
noncomputable def j3 {q : ℕ} (a : Fin q → Fin 3 → ℝ) (eta : ℝ) (i j k : Fin n) : ℝ :=
  ∑ r : Fin q, coeff (a r 0) (a r 1) (a r 2) (f.mTriplet i j k) * eta ^ (r : ℕ)

/-- Padé approximation of the perturbation series -/
noncomputable def pade (a2 a3 : ℝ) : ℝ := a2 / (1 - a3 / a2)

/-- dipoles, second order -/
noncomputable def dipole2 (a b : Fin 5 → Fin 3 → ℝ) : ℝ :=
  -Real.pi * ∑ i, ∑ j, rho i * rho j * f.dipoleStrength T i * f.dipoleStrength T j / f.sigmaIJ i j ^ 3
    * f.j2 T a b (f.zeta T rho 3) i j

/-- dipoles, third order -/
noncomputable def dipole3 (a : Fin 4 → Fin 3 → ℝ) : ℝ :=
  -(4 / 3 * Real.pi ^ 2) * ∑ i, ∑ j, ∑ k, rho i * rho j * rho k
    * f.dipoleStrength T i * f.dipoleStrength T j * f.dipoleStrength T k
    / (f.sigmaIJ i j * f.sigmaIJ i k * f.sigmaIJ j k) * f.j3 a (f.zeta T rho 3) i j k

/-- quadrupoles, second order -/
noncomputable def quadrupole2 (a b : Fin 5 → Fin 3 → ℝ) : ℝ :=
  -(9 / 16 * Real.pi) * ∑ i, ∑ j, rho i * rho j * f.quadrupoleStrength T i * f.quadrupoleStrength T j
    / f.sigmaIJ i j ^ 7 * f.j2 T a b (f.zeta T rho 3) i j

/-- quadrupoles, third order -/
noncomputable def quadrupole3 (a : Fin 4 → Fin 3 → ℝ) : ℝ :=
  9 / 16 * Real.pi ^ 2 * ∑ i, ∑ j, ∑ k, rho i * rho j * rho k
    * f.quadrupoleStrength T i * f.quadrupoleStrength T j * f.quadrupoleStrength T k
    / (f.sigmaIJ i j ^ 3 * f.sigmaIJ i k ^ 3 * f.sigmaIJ j k ^ 3) * f.j3 a (f.zeta T rho 3) i j k

/-- dipole-quadrupole, second order -/
noncomputable def dipoleQuadrupole2 (a b : Fin 4 → Fin 3 → ℝ) : ℝ :=
  -(9 / 4 * Real.pi) * ∑ i, ∑ j, rho i * rho j * f.dipoleStrength T i * f.quadrupoleStrength T j
    / f.sigmaIJ i j ^ 5 * f.j2 T a b (f.zeta T rho 3) i j

/-- dipole-quadrupole, second order, with both strengths scaled with the diameter to the fourth power -/
noncomputable def dipoleQuadrupole2' (a b : Fin 4 → Fin 3 → ℝ) : ℝ :=
  -(9 / 4 * Real.pi) * ∑ i, ∑ j, rho i * rho j * (f.dipoleStrength T i * f.sigma i)
    * (f.quadrupoleStrength T j / f.sigma j) / f.sigmaIJ i j ^ 5 * f.j2 T a b (f.zeta T rho 3) i j

/-- dipole-quadrupole, third order: two dipoles and a quadrupole, or (with the factor `alpha`) a dipole and two
quadrupoles; the strengths are scaled with the diameter to the fourth power each -/
noncomputable def dipoleQuadrupole3 (alpha : ℝ) (a : Fin 3 → Fin 2 → ℝ) : ℝ :=
  Real.pi ^ 2 * ∑ i, ∑ j, ∑ k, rho i * rho j * rho k
    * (f.dipoleStrength T i * f.sigma i) * (f.quadrupoleStrength T j / f.sigma j)
    * (f.dipoleStrength T k * f.sigma k + alpha * (f.quadrupoleStrength T k / f.sigma k))
    / (f.sigmaIJ i j * f.sigmaIJ i k * f.sigmaIJ j k) ^ 2
    * f.j3 (fun r => ![a r 0, a r 1, 0]) (f.zeta T rho 3) i j k

end Fluid

/-! ### Published constants -/

/-- Gross and Sadowski (2001), table 1: first order -/
noncomputable def publishedA : Fin 3 → Fin 7 → ℝ := ![
  ![0.9105631445, 0.6361281449, 2.6861347891, -26.547362491, 97.759208784, -159.59154087, 91.297774084],
  ![-0.3084016918, 0.1860531159, -2.5030047259, 21.419793629, -65.255885330, 83.318680481, -33.746922930],
  ![-0.0906148351, 0.4527842806, 0.5962700728, -1.7241829131, -4.1302112531, 13.776631870, -8.6728470368]]

/-- Gross and Sadowski (2001), table 1: second order -/
noncomputable def publishedB : Fin 3 → Fin 7 → ℝ := ![
  ![0.7240946941, 2.2382791861, -4.0025849485, -21.003576815, 26.855641363, 206.55133841, -355.60235612],
  ![-0.5755498075, 0.6995095521, 3.8925673390, -17.215471648, 192.67226447, -161.82646165, -165.20769346],
  ![0.0976883116, -0.2557574982, -9.1558561530, 20.642075974, -38.804430052, 93.626774077, -29.666905585]]

/-- Gross and Vrabec (2006): dipoles -/
noncomputable def publishedAD : Fin 5 → Fin 3 → ℝ := ![
  ![0.3043504, 0.9534641, -1.1610080], ![-0.1358588, -1.8396383, 4.5258607], ![1.4493329, 2.0131180, 0.9751222],
  ![0.3556977, -7.3724958, -12.281038], ![-2.0653308, 8.2374135, 5.9397575]]

/-- Gross and Vrabec (2006): dipoles -/
noncomputable def publishedBD : Fin 5 → Fin 3 → ℝ := ![
  ![0.2187939, -0.5873164, 3.4869576], ![-1.1896431, 1.2489132, -14.915974], ![1.1626889, -0.5085280, 15.372022],
  ![0, 0, 0], ![0, 0, 0]]

/-- Gross and Vrabec (2006): dipoles -/
noncomputable def publishedCD : Fin 4 → Fin 3 → ℝ := ![
  ![-0.0646774, -0.9520876, -0.6260979], ![0.1975882, 2.9924258, 1.2924686], ![-0.8087562, -2.3802636, 1.6542783],
  ![0.6902849, -0.2701261, -3.4396744]]

/-- Gross (2005): quadrupoles -/
noncomputable def publishedAQ : Fin 5 → Fin 3 → ℝ := ![
  ![1.2378308, 1.2854109, 1.7942954], ![2.4355031, -11.465615, 0.7695103], ![1.6330905, 22.086893, 7.2647923],
  ![-1.6118152, 7.4691383, 94.486699], ![6.9771185, -17.197772, -77.148458]]

/-- Gross (2005): quadrupoles -/
noncomputable def publishedBQ : Fin 5 → Fin 3 → ℝ := ![
  ![0.4542718, -0.8137340, 6.8682675], ![-4.5016264, 10.064030, -5.1732238], ![3.5858868, -10.876631, -17.240207],
  ![0, 0, 0], ![0, 0, 0]]

/-- Gross (2005): quadrupoles -/
noncomputable def publishedCQ : Fin 4 → Fin 3 → ℝ := ![
  ![-0.5000437, 2.0002094, 3.1358271], ![6.5318692, -6.7838658, 7.2475888], ![-16.014780, 20.383246, 3.0759478],
  ![14.425970, -10.895984, 0]]

/-- Vrabec and Gross (2008): dipole-quadrupole -/
noncomputable def publishedADQ : Fin 4 → Fin 3 → ℝ := ![
  ![0.6970950, -0.6734593, 0.6703408], ![-0.6335541, -1.4258991, -4.3384718], ![2.9455090, 4.1944139, 7.2341684],
  ![-1.4670273, 1.0266216, 0]]

/-- Vrabec and Gross (2008): dipole-quadrupole -/
noncomputable def publishedBDQ : Fin 4 → Fin 3 → ℝ := ![
  ![-0.4840383, 0.6765101, -1.1675601], ![1.9704055, -3.0138675, 2.1348843], ![-2.1185727, 0.4674266, 0],
  ![0, 0, 0]]

/-- Vrabec and Gross (2008): dipole-quadrupole -/
noncomputable def publishedCDQ : Fin 3 → Fin 2 → ℝ := ![
  ![0.7950097, -2.0995794], ![3.3868634, -5.9413764], ![0.4751063, -0.1788204]]

/-- Vrabec and Gross (2008): factor of the triplets with two quadrupoles -/
noncomputable def publishedAlpha : ℝ := 1.19374

end PcSaft.Spec
