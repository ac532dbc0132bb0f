import Verif.Props.Derivatives
import Verif.Model.XReal

/-!
# No NaN and no infinity at admissible states (C21)

The model is evaluated a second time with `XReal`, the exact reals extended by infinities and NaN (a division
by zero, a logarithm of zero, a square root of a negative number give the special values of IEEE arithmetic).
At admissible states the result is the finite number which the evaluation with reals gives.
-/

open Filter Topology

namespace PcSaft

/-- the record with all numbers embedded -/
def PcSaftRecord.map {F G : Type} (f : F → G) (r : PcSaftRecord F) : PcSaftRecord G where
  m := f r.m
  sigma := f r.sigma
  epsilon_k := f r.epsilon_k
  mu := r.mu.map f
  q := r.q.map f
  kappa_ab := r.kappa_ab.map f
  epsilon_k_ab := r.epsilon_k_ab.map f
  na := r.na.map f
  nb := r.nb.map f
  viscosity := r.viscosity.map fun v i => f (v i)
  diffusion := r.diffusion.map fun v i => f (v i)
  thermal_conductivity := r.thermal_conductivity.map fun v i => f (v i)

/-- the record with all numbers embedded -/
def PureRecord.map {F G : Type} (f : F → G) (r : PureRecord F) : PureRecord G where
  identifier := r.identifier
  molarweight := f r.molarweight
  model_record := r.model_record.map f
  ideal_gas_record := r.ideal_gas_record.map fun j => ⟨f j.a, f j.b, f j.c, f j.d, f j.e⟩

namespace Props
open Spec
variable {n : ℕ}

/-- the parameters read from the same records with `XReal` numbers -/
noncomputable def xParameters (pr : Fin n → PureRecord ℝ) (k : Fin n → Fin n → ℝ) : PcSaftParameters n XReal :=
  fromRecords (fun i => (pr i).map XReal.fin) (fun i j => XReal.fin (k i j))

theorem fin_getD (o : Option ℝ) (a : ℕ) (b : Bool) (e : ℕ) :
    (o.map XReal.fin).getD (OfScientific.ofScientific a b e)
      = XReal.fin (o.getD (OfScientific.ofScientific a b e)) := by
  cases o <;> rfl

theorem fin_nonzeroComp (v : Fin n → ℝ) : nonzeroComp (fun i => XReal.fin (v i)) = nonzeroComp v := by
  unfold nonzeroComp
  congr 1

theorem fin_jouleKelvinKB : (jouleKelvinKB : XReal) = XReal.fin jouleKelvinKB := by
  have le := XReal.equations
  unfold jouleKelvinKB
  rw [le.div _ _ (by norm_num), le.sci, le.sci]

section records
variable (pr : Fin n → PureRecord ℝ) (k : Fin n → Fin n → ℝ)

/-- With positive segment numbers, diameters and energies (and non-negative association volumes) every
parameter computed from the records is finite. -/
theorem xParameters_rel (hm : ∀ i, 0 < (pr i).model_record.m) (hs : ∀ i, 0 < (pr i).model_record.sigma)
    (he : ∀ i, 0 < (pr i).model_record.epsilon_k)
    (hk : ∀ i, 0 ≤ (fromRecords pr k).kappa_ab i) :
    ParamRel XReal.IsFin (fromRecords pr k) (xParameters pr k) := by
  have le := XReal.equations
  have hmu : (xParameters pr k).mu2 = fun i => XReal.fin ((fromRecords pr k).mu2 i) := by
    funext i
    have hne : (pr i).model_record.m * (pr i).model_record.sigma * (pr i).model_record.sigma
        * (pr i).model_record.sigma * (pr i).model_record.epsilon_k ≠ 0 := by
      have := hm i; have := hs i; have := he i
      positivity
    simp only [xParameters, fromRecords, PureRecord.map, PcSaftRecord.map, fin_getD]
    rw [le.mul, le.mul, le.div _ _ hne, le.mul, le.mul, le.mul, le.mul, le.mul, le.sci, fin_jouleKelvinKB]
  have hq : (xParameters pr k).q2 = fun i => XReal.fin ((fromRecords pr k).q2 i) := by
    funext i
    have hne : (pr i).model_record.m * (pr i).model_record.sigma ^ 5 * (pr i).model_record.epsilon_k ≠ 0 := by
      have := hm i; have := hs i; have := he i
      positivity
    simp only [xParameters, fromRecords, PureRecord.map, PcSaftRecord.map, fin_getD]
    rw [powi_real, le.mul, le.mul, le.div _ _ hne, le.mul, le.mul, le.mul, le.powi, le.sci, fin_jouleKelvinKB]
  have hka : (xParameters pr k).kappa_ab = fun i => XReal.fin ((fromRecords pr k).kappa_ab i) := by
    funext i
    exact fin_getD _ _ _ _
  have hass : (xParameters pr k).assoc_comp = (fromRecords pr k).assoc_comp :=
    (congrArg nonzeroComp hka).trans (fin_nonzeroComp _)
  refine
  { m := fun _ => rfl
    sigma := fun _ => rfl
    epsilon_k := fun _ => rfl
    mu2 := fun i => congrFun hmu i
    q2 := fun i => congrFun hq i
    na := fun i => fin_getD _ _ _ _
    nb := fun i => fin_getD _ _ _ _
    sigma_ij := fun i j => by
      change _ = XReal.fin (_ * (_ + _))
      rw [le.mul, le.add, le.sci]
      rfl
    epsilon_k_ij := fun i j => by
      change _ = XReal.fin ((_ - _) * Real.sqrt (_ * _))
      rw [le.mul, le.sub, le.sci, le.sqrt _ (mul_pos (he i) (he j)).le, le.mul]
      rfl
    e_k_ij := fun i j => by
      change _ = XReal.fin (Real.sqrt (_ * _))
      rw [le.sqrt _ (mul_pos (he i) (he j)).le, le.mul]
      rfl
    kappa_aibj := fun i j => ?_
    epsilon_k_aibj := fun i j => ?_
    dipole_comp := (congrArg nonzeroComp hmu).trans (fin_nonzeroComp _)
    quadpole_comp := (congrArg nonzeroComp hq).trans (fin_nonzeroComp _)
    assoc_comp := hass
    nb_pos := fun i => by
      have e0 : (0.0 : ℝ) = 0 := by norm_num
      have e : (xParameters pr k).nb i = XReal.fin ((fromRecords pr k).nb i) := fin_getD _ _ _ _
      rw [e]
      exact (XReal.fin_lt _ _).trans (by rw [e0]) }
  · have e1 : (xParameters pr k).kappa_aibj i j
        = if i ∈ (xParameters pr k).assoc_comp ∧ j ∈ (xParameters pr k).assoc_comp then
          F64.sqrt ((xParameters pr k).kappa_ab i * (xParameters pr k).kappa_ab j)
          * F64.powf (2.0 * F64.sqrt (XReal.fin (pr i).model_record.sigma * XReal.fin (pr j).model_record.sigma)
            / (XReal.fin (pr i).model_record.sigma + XReal.fin (pr j).model_record.sigma)) 3.0 else 0.0 := rfl
    have e2 : (fromRecords pr k).kappa_aibj i j
        = if i ∈ (fromRecords pr k).assoc_comp ∧ j ∈ (fromRecords pr k).assoc_comp then
          Real.sqrt ((fromRecords pr k).kappa_ab i * (fromRecords pr k).kappa_ab j)
          * (2.0 * Real.sqrt ((pr i).model_record.sigma * (pr j).model_record.sigma)
            / ((pr i).model_record.sigma + (pr j).model_record.sigma)) ^ (3.0 : ℝ) else 0.0 := rfl
    have hi := hs i
    have hj := hs j
    rw [e1, e2, hass, hka]
    split_ifs
    · have hpos : 0 < 2.0 * Real.sqrt ((pr i).model_record.sigma * (pr j).model_record.sigma)
            / ((pr i).model_record.sigma + (pr j).model_record.sigma) := by positivity
      have hpow : XReal.fin ((2.0 * Real.sqrt ((pr i).model_record.sigma * (pr j).model_record.sigma)
            / ((pr i).model_record.sigma + (pr j).model_record.sigma)) ^ (3.0 : ℝ))
          = F64.powf (XReal.fin (2.0 * Real.sqrt ((pr i).model_record.sigma * (pr j).model_record.sigma)
            / ((pr i).model_record.sigma + (pr j).model_record.sigma))) (XReal.fin 3.0) := by
        change _ = if _ then _ else _
        rw [if_pos hpos]
      rw [XReal.IsFin, le.mul, hpow, le.sqrt _ (mul_nonneg (hk i) (hk j)), le.mul, le.div _ _ (by positivity), le.mul,
        le.add, le.sqrt _ (by positivity), le.mul, le.sci, le.sci]
    · exact (le.sci _ _ _).symm
  · have e1 : (xParameters pr k).epsilon_k_aibj i j
        = if i ∈ (xParameters pr k).assoc_comp ∧ j ∈ (xParameters pr k).assoc_comp then
          0.5 * ((xParameters pr k).epsilon_k_ab i + (xParameters pr k).epsilon_k_ab j) else 0.0 := rfl
    have e2 : (fromRecords pr k).epsilon_k_aibj i j
        = if i ∈ (fromRecords pr k).assoc_comp ∧ j ∈ (fromRecords pr k).assoc_comp then
          0.5 * ((fromRecords pr k).epsilon_k_ab i + (fromRecords pr k).epsilon_k_ab j) else 0.0 := rfl
    have h3 : ∀ i, (xParameters pr k).epsilon_k_ab i = XReal.fin ((fromRecords pr k).epsilon_k_ab i) :=
      fun i => fin_getD _ _ _ _
    rw [e1, e2, hass, h3, h3]
    split_ifs
    · rw [XReal.IsFin, le.mul, le.add, le.sci]
    · exact (le.sci _ _ _).symm

end records

/-- The parameters of the three basic contributions only, every other field as with real numbers; used for
records with a vanishing dispersion energy, for which the reduced dipole moment is NaN. -/
noncomputable def finParameters (p : PcSaftParameters n ℝ) : PcSaftParameters n XReal where
  molarweight i := XReal.fin (p.molarweight i)
  m i := XReal.fin (p.m i)
  sigma i := XReal.fin (p.sigma i)
  epsilon_k i := XReal.fin (p.epsilon_k i)
  mu i := XReal.fin (p.mu i)
  q i := XReal.fin (p.q i)
  mu2 i := XReal.fin (p.mu2 i)
  q2 i := XReal.fin (p.q2 i)
  kappa_ab i := XReal.fin (p.kappa_ab i)
  epsilon_k_ab i := XReal.fin (p.epsilon_k_ab i)
  na i := XReal.fin (p.na i)
  nb i := XReal.fin (p.nb i)
  kappa_aibj i j := XReal.fin (p.kappa_aibj i j)
  epsilon_k_aibj i j := XReal.fin (p.epsilon_k_aibj i j)
  k_ij i j := XReal.fin (p.k_ij i j)
  sigma_ij i j := XReal.fin (p.sigma_ij i j)
  epsilon_k_ij i j := XReal.fin (p.epsilon_k_ij i j)
  e_k_ij i j := XReal.fin (p.e_k_ij i j)
  dipole_comp := p.dipole_comp
  quadpole_comp := p.quadpole_comp
  assoc_comp := p.assoc_comp
  viscosity := none
  diffusion := none
  thermal_conductivity := none
  pure_records i := (p.pure_records i).map XReal.fin
  binary_records i j := XReal.fin (p.binary_records i j)
  joback_records := none

theorem finParameters_rel (p : PcSaftParameters n ℝ) : ParamRel XReal.IsFin p (finParameters p) where
  m _ := rfl
  sigma _ := rfl
  epsilon_k _ := rfl
  mu2 _ := rfl
  q2 _ := rfl
  na _ := rfl
  nb _ := rfl
  sigma_ij _ _ := rfl
  epsilon_k_ij _ _ := rfl
  e_k_ij _ _ := rfl
  kappa_aibj _ _ := rfl
  epsilon_k_aibj _ _ := rfl
  dipole_comp := rfl
  quadpole_comp := rfl
  assoc_comp := rfl
  nb_pos i := (XReal.fin_lt _ _).trans (by norm_num)

section finite
variable {pr : Fin n → PureRecord ℝ} {k : Fin n → Fin n → ℝ} {T V : ℝ} {N : Fin n → ℝ}

noncomputable abbrev rhoX : Rep () XReal.IsFin XReal := XReal.rep ()

theorem rhoX_const (a : ℝ) : rhoX.R (fun _ => a) (XReal.fin a) := rhoX.constRel rfl

/-- the pair parameters of the dispersion term for records with non-negative dispersion energies -/
theorem xParameters_pairs (he : ∀ i, 0 ≤ (pr i).model_record.epsilon_k) :
    (xParameters pr k).sigma_ij = (finParameters (fromRecords pr k)).sigma_ij
    ∧ (xParameters pr k).epsilon_k_ij = (finParameters (fromRecords pr k)).epsilon_k_ij := by
  have le := XReal.equations
  constructor
  · funext i j
    change _ = XReal.fin (_ * (_ + _))
    rw [le.mul, le.add, le.sci]
    rfl
  · funext i j
    change _ = XReal.fin ((_ - _) * Real.sqrt (_ * _))
    rw [le.mul, le.sub, le.sci, le.sqrt _ (mul_nonneg (he i) (he j)), le.mul]
    rfl

/-- C21 for the hard-sphere contribution: the value is finite, and it is the value computed with reals. -/
theorem C21_hard_sphere (h : Admissible (fromRecords pr k) T V N) :
    hardSphere (xParameters pr k) (StateHD.new (XReal.fin T) (XReal.fin V) (fun i => XReal.fin (N i)))
      = XReal.fin (hardSphere (fromRecords pr k) (StateHD.new T V N)) :=
  (rep_hardSphere_admissible XReal.lawfulEmb (finParameters_rel _) (rhoX_const T) (rhoX_const V)
    (fun i => rhoX_const (N i)) h).2

/-- C21 for the hard-chain contribution -/
theorem C21_hard_chain (h : Admissible (fromRecords pr k) T V N) :
    hardChain (xParameters pr k) (StateHD.new (XReal.fin T) (XReal.fin V) (fun i => XReal.fin (N i)))
      = XReal.fin (hardChain (fromRecords pr k) (StateHD.new T V N)) :=
  (rep_hardChain_admissible XReal.lawfulEmb (finParameters_rel _) (rhoX_const T) (rhoX_const V)
    (fun i => rhoX_const (N i)) h).2

/-- C21 for the dispersion contribution -/
theorem C21_dispersion (h : Admissible (fromRecords pr k) T V N) :
    dispersion (xParameters pr k) (StateHD.new (XReal.fin T) (XReal.fin V) (fun i => XReal.fin (N i)))
      = XReal.fin (dispersion (fromRecords pr k) (StateHD.new T V N)) := by
  have h1 := (rep_dispersion_admissible XReal.lawfulEmb (finParameters_rel _) (rhoX_const T) (rhoX_const V)
    (fun i => rhoX_const (N i)) h).2
  have h2 := xParameters_pairs (k := k) h.epsilon_nonneg
  rw [← h1]
  unfold dispersion rho1mix rho2mix
  rw [h2.1, h2.2]
  rfl

/-- States at which every contribution is finite: as for smoothness, but at compositions without polar
molecules (both terms of the polar expansion vanish) the polar terms count as finite too, and so does
association at the strength at which the code switches between two formulas. -/
def FiniteAt (p : PcSaftParameters n ℝ) (T V : ℝ) (N : Fin n → ℝ) : Contribution ℝ → Prop
  | .dipole => Regular p T V N .dipole ∨ dipolePhis p (StateHD.new T V N) = (0, 0)
  | .quadrupole => Regular p T V N .quadrupole ∨ quadrupolePhis p (StateHD.new T V N) = (0, 0)
  | .dipoleQuadrupole v =>
    Regular p T V N (.dipoleQuadrupole v) ∨ dipoleQuadrupolePhis v p (StateHD.new T V N) = (0, 0)
  | .association => ∃ a, p.assoc_comp = [a] ∧ 0 ≤ p.epsilon_k_ab a ∧ 0 < p.na a ∧ 0 < p.nb a
    ∧ p.na a + p.nb a < 2 ^ 26
  | ct => Regular p T V N ct

theorem finiteAt_association {p : PcSaftParameters n ℝ} (h : Regular p T V N .association) :
    FiniteAt p T V N .association := by
  obtain ⟨a, h1, h2, h3, h4, h5, -⟩ := h
  exact ⟨a, h1, h2, h3, h4, h5⟩

/-- The quotient 0/0 of the Padé approximation is NaN, which the code replaces by the second-order term. -/
theorem pade_zero {phi2 phi3 V : ℝ} {p2 p3 v : XReal} (h2 : rhoX.R (fun _ => phi2) p2) (h3 : rhoX.R (fun _ => phi3) p3)
    (hV : rhoX.R (fun _ => V) v) (e : (phi2, phi3) = (0, 0)) :
    rhoX.R (fun _ => padeVolume phi2 phi3 V) (padeVolume p2 p3 v) := by
  obtain ⟨rfl, rfl⟩ := Prod.mk.inj e
  obtain ⟨_, rfl⟩ := h2
  obtain ⟨_, rfl⟩ := h3
  obtain ⟨_, rfl⟩ := hV
  have e1 : XReal.fin 0 * XReal.fin 0 / (XReal.fin 0 - XReal.fin 0) * XReal.fin V = XReal.nan := by
    have h1 : XReal.fin 0 - XReal.fin 0 = XReal.fin 0 := by rw [← XReal.equations.sub, sub_zero]
    have h2 : XReal.fin 0 * XReal.fin 0 = XReal.fin 0 := by rw [← XReal.equations.mul, zero_mul]
    have h3 : XReal.fin 0 / XReal.fin 0 = XReal.nan := by
      change (if (0 : ℝ) = 0 then XReal.infSign 0 else _) = _
      simp [XReal.infSign]
    rw [h1, h2, h3]
    rfl
  have e2 : padeVolume (XReal.fin 0) (XReal.fin 0) (XReal.fin V) = XReal.fin 0 * XReal.fin V := by
    unfold padeVolume
    dsimp only
    rw [e1]
    rfl
  have e3 : padeVolume (0 : ℝ) 0 V = 0 * V := by simp [padeVolume]
  rw [e2, e3]
  exact rhoX.mul (rhoX_const 0) (rhoX_const V)

theorem finite_contribution (la : LinAlg ℝ ℝ) (laX : LinAlg XReal XReal) (h : Admissible (fromRecords pr k) T V N)
    (he : ∀ i, 0 < (pr i).model_record.epsilon_k) (hk : ∀ i, 0 ≤ (fromRecords pr k).kappa_ab i)
    (ct : Contribution ℝ) (hr : FiniteAt (fromRecords pr k) T V N ct) :
    ContributionRel rhoX XReal.fin la laX (fromRecords pr k) (xParameters pr k) (fun _ => StateHD.new T V N)
      (StateHD.new (XReal.fin T) (XReal.fin V) (fun i => XReal.fin (N i))) ct := by
  have le := XReal.lawfulEmb
  have hp := xParameters_rel pr k h.m_pos h.sigma_pos he hk
  have hs := rep_state le (rhoX_const T) (rhoX_const V) (fun i => rhoX_const (N i)) h
  have heta := rep_eta le hp hs h.temperature.ne'
  have hsig : ∀ i, (fromRecords pr k).sigma i ≠ 0 := fun i => (h.sigma_pos i).ne'
  have hsij : ∀ i j, (fromRecords pr k).sigma_ij i j ≠ 0 := by
    intro i j
    have : (fromRecords pr k).sigma_ij i j = 0.5 * ((fromRecords pr k).sigma i + (fromRecords pr k).sigma j) := rfl
    rw [this]
    have h1 := h.sigma_pos i
    have h2 := h.sigma_pos j
    norm_num
    linarith
  have reg := fun hr => rep_contribution (g := XReal.fin) le hp (rhoX_const T) (rhoX_const V) (fun i => rhoX_const (N i)) h la laX ct hr
  cases ct with
  | hardSphere => exact reg hr
  | hardChain => exact reg hr
  | dispersion => exact reg hr
  | association =>
    obtain ⟨a, hl, h1, h2, h3, h4⟩ := hr
    exact rep_contribution_association le hp (rhoX_const T) (rhoX_const V) (fun i => rhoX_const (N i)) h la laX hl
      h1 h2 h3 h4 (Or.inr (by rw [nhds_discrete]))
  | crossAssociation _ _ => exact reg hr
  | dipole =>
    rcases hr with hr | hr
    · exact reg hr
    · exact ⟨_, _, fun _ => rfl, rfl, pade_zero
        (rhoX.mul (rep_dipolePhi2 le hp h.m_pos hsij hs.temperature h.temperature.ne' heta hs.partial_density)
          (rhoX.constOf (CR.pi le)))
        (rhoX.mul (rep_dipolePhi3 le hp h.m_pos hsij hs.temperature h.temperature.ne' heta hs.partial_density)
          (rhoX.constOf (CR.piSq le))) hs.volume hr⟩
  | quadrupole =>
    rcases hr with hr | hr
    · exact reg hr
    · exact ⟨_, _, fun _ => rfl, rfl, pade_zero
        (rhoX.mul (rep_quadrupolePhi2 le hp h.m_pos hsij hs.temperature h.temperature.ne' heta hs.partial_density)
          (rhoX.constOf (CR.mul le (CR.pi le) (CR.sci le _ _ _))))
        (rhoX.mul (rep_quadrupolePhi3 le hp h.m_pos hsij hs.temperature h.temperature.ne' heta hs.partial_density)
          (rhoX.constOf (CR.mul le (CR.mul le (CR.pi le) (CR.pi le)) (CR.sci le _ _ _)))) hs.volume hr⟩
  | dipoleQuadrupole v =>
    rcases hr with hr | hr
    · exact reg hr
    · exact ⟨_, _, fun _ => rfl, rfl, pade_zero
        (rhoX.mul (rep_dipoleQuadrupolePhi2 le hp v h.m_pos hsij hsig hs.temperature h.temperature.ne' heta
          hs.partial_density) (rhoX.constOf (CR.mul le (CR.pi le) (CR.sci le _ _ _))))
        (rhoX.mul (rep_dipoleQuadrupolePhi3 le hp h.m_pos hsij hs.temperature h.temperature.ne' heta
          hs.partial_density) (rhoX.constOf (CR.mul le (CR.pi le) (CR.pi le)))) hs.volume hr⟩

/-- C21 for the whole residual Helmholtz energy, polar and one-component association terms included. -/
theorem C21_residual (o : PcSaftOptions ℝ) (la : LinAlg ℝ ℝ) (laX : LinAlg XReal XReal)
    (h : Admissible (fromRecords pr k) T V N) (he : ∀ i, 0 < (pr i).model_record.epsilon_k)
    (hk : ∀ i, 0 ≤ (fromRecords pr k).kappa_ab i)
    (hr : ∀ ct ∈ buildContributions (fromRecords pr k) o, FiniteAt (fromRecords pr k) T V N ct) :
    ∃ A : ℝ, (Eos.withOptions (fromRecords pr k) o).residualHelmholtz la (StateHD.new T V N) = .ok A
      ∧ (Eos.withOptions (xParameters pr k) (o.map XReal.fin)).residualHelmholtz laX
        (StateHD.new (XReal.fin T) (XReal.fin V) (fun i => XReal.fin (N i))) = .ok (XReal.fin A) := by
  obtain ⟨A, d, h1, h2, h3⟩ := rep_residual_of (g := XReal.fin) XReal.lawfulEmb (xParameters_rel pr k h.m_pos h.sigma_pos he hk)
    o la laX fun ct hct => finite_contribution la laX h he hk ct (hr ct hct)
  exact ⟨A (), h1 (), by rw [h2, h3.2]⟩

/-- The derivatives are finite as well: pressure, entropy and chemical potentials evaluated with dual numbers
over `XReal` in any direction. -/
theorem C21_derivatives (o : PcSaftOptions ℝ) (la : LinAlg ℝ ℝ) (laX : LinAlg XReal (Dual XReal))
    (h : Admissible (fromRecords pr k) T V N) (he : ∀ i, 0 < (pr i).model_record.epsilon_k)
    (hk : ∀ i, 0 ≤ (fromRecords pr k).kappa_ab i)
    (hr : ∀ ct ∈ buildContributions (fromRecords pr k) o, Regular (fromRecords pr k) T V N ct)
    (T' V' : ℝ) (N' : Fin n → ℝ) :
    ∃ (A : ℝ → ℝ) (A' : ℝ), (∀ t, (Eos.withOptions (fromRecords pr k) o).residualHelmholtz la
        (StateHD.new (T + t * T') (V + t * V') (fun i => N i + t * N' i)) = .ok (A t))
      ∧ HasDerivAt A A' 0
      ∧ (Eos.withOptions (xParameters pr k) (o.map XReal.fin)).residualHelmholtz laX
        (StateHD.new ⟨XReal.fin T, XReal.fin T'⟩ ⟨XReal.fin V, XReal.fin V'⟩
          (fun i => ⟨XReal.fin (N i), XReal.fin (N' i)⟩)) = .ok ⟨XReal.fin (A 0), XReal.fin A'⟩ := by
  have seed : ∀ a b : ℝ, (repDual XReal.lawfulEmb rhoX 0).R (fun x => a + x.2 * b) ⟨XReal.fin a, XReal.fin b⟩ :=
    fun a b => dualR_seed rhoX (rhoX_const a) (rhoX_const b)
  obtain ⟨A, d, h1, h2, h3⟩ := rep_residual (g := XReal.fin) XReal.lawfulEmb (xParameters_rel pr k h.m_pos h.sigma_pos he hk)
    (seed T T') (seed V V') (fun i => seed (N i) (N' i)) (by simpa using h) o la laX (by simpa using hr)
  obtain ⟨_, hre, A', hd, heps⟩ := h3
  refine ⟨fun t => A ((), t), A' (), fun t => h1 ((), t), hd.self_of_nhds, ?_⟩
  rw [h2]
  congr 1
  exact Dual.ext hre.2 heps.2

theorem foldl_stay (q : ℕ) (g : ℝ → Fin q → ℝ) (hg : ∀ i, g 0 i = 0) : Fin.foldl q g 0 = 0 := by
  induction q with
  | zero => simp
  | succ q ih =>
    rw [Fin.foldl_succ, hg]
    exact ih _ (fun i => hg i.succ)

theorem foldU_stay (q : ℕ) (i : Fin q) (g : ℝ → Fin q → ℝ) (hg : ∀ j, g 0 j = 0) : foldUpper i g 0 = 0 := by
  unfold foldUpper
  apply foldl_stay
  intro j
  split
  · exact hg j
  · rfl

/-- At a composition without dipolar molecules both terms of the dipole expansion vanish, whatever the other
components are. -/
theorem dipolePhis_absent (p : PcSaftParameters n ℝ) (habs : ∀ i ∈ p.dipole_comp, N i = 0) :
    dipolePhis p (StateHD.new T V N) = (0, 0) := by
  have h0 : (0.0 : ℝ) = 0 := by norm_num
  have hrho : ∀ i, (StateHD.new T V N).partial_density (p.dipole_comp.get i) = 0 := by
    intro i
    change N _ / V = 0
    rw [habs _ (List.get_mem _ _), zero_div]
  have e2 : ∀ eta, dipolePhi2 p T (StateHD.new T V N).partial_density eta = 0 := by
    intro eta
    unfold dipolePhi2
    simp only [hrho, c, ofF_real, h0]
    apply foldl_stay
    intro i
    simp only [zero_mul, zero_div, sub_zero]
    exact foldU_stay _ _ _ (fun _ => rfl)
  have e3 : ∀ eta, dipolePhi3 p T (StateHD.new T V N).partial_density eta = 0 := by
    intro eta
    unfold dipolePhi3
    simp only [hrho, c, ofF_real, h0]
    apply foldl_stay
    intro i
    simp only [zero_mul, zero_div, sub_zero]
    exact foldU_stay _ _ _ (fun j => foldU_stay _ _ _ (fun _ => rfl))
  unfold dipolePhis
  change (dipolePhi2 p T _ _ * _, dipolePhi3 p T _ _ * _) = _
  rw [e2, e3, zero_mul, zero_mul]

theorem quadrupolePhis_absent (p : PcSaftParameters n ℝ) (habs : ∀ i ∈ p.quadpole_comp, N i = 0) :
    quadrupolePhis p (StateHD.new T V N) = (0, 0) := by
  have h0 : (0.0 : ℝ) = 0 := by norm_num
  have hrho : ∀ i, (StateHD.new T V N).partial_density (p.quadpole_comp.get i) = 0 := by
    intro i
    change N _ / V = 0
    rw [habs _ (List.get_mem _ _), zero_div]
  have e2 : ∀ eta, quadrupolePhi2 p T (StateHD.new T V N).partial_density eta = 0 := by
    intro eta
    unfold quadrupolePhi2
    simp only [hrho, c, ofF_real, h0]
    apply foldl_stay
    intro i
    simp only [zero_mul, zero_div, sub_zero]
    exact foldU_stay _ _ _ (fun _ => rfl)
  have e3 : ∀ eta, quadrupolePhi3 p T (StateHD.new T V N).partial_density eta = 0 := by
    intro eta
    unfold quadrupolePhi3
    simp only [hrho, c, ofF_real, h0]
    apply foldl_stay
    intro i
    simp only [zero_mul, zero_div, add_zero]
    exact foldU_stay _ _ _ (fun j => foldU_stay _ _ _ (fun _ => rfl))
  unfold quadrupolePhis
  change (quadrupolePhi2 p T _ _ * _, quadrupolePhi3 p T _ _ * _) = _
  rw [e2, e3, zero_mul, zero_mul]

theorem dipoleQuadrupolePhis_absent (v : DQVariants) (p : PcSaftParameters n ℝ)
    (habs : ∀ i ∈ p.dipole_comp, N i = 0) :
    dipoleQuadrupolePhis v p (StateHD.new T V N) = (0, 0) := by
  have h0 : (0.0 : ℝ) = 0 := by norm_num
  have hrho : ∀ i, (StateHD.new T V N).partial_density (p.dipole_comp.get i) = 0 := by
    intro i
    change N _ / V = 0
    rw [habs _ (List.get_mem _ _), zero_div]
  have e2 : ∀ eta, dipoleQuadrupolePhi2 v p T (StateHD.new T V N).partial_density eta = 0 := by
    intro eta
    unfold dipoleQuadrupolePhi2
    simp only [hrho, c, ofF_real, h0]
    apply foldl_stay
    intro i
    simp only [zero_mul, zero_div, sub_zero]
    exact foldl_stay _ _ (fun _ => rfl)
  have e3 : ∀ eta, dipoleQuadrupolePhi3 p T (StateHD.new T V N).partial_density eta = 0 := by
    intro eta
    unfold dipoleQuadrupolePhi3
    simp only [hrho, c, ofF_real, h0]
    apply foldl_stay
    intro i
    apply foldl_stay
    intro j
    simp only [zero_mul, zero_div, add_zero]
    rw [foldl_stay _ _ (fun _ => rfl), foldl_stay _ _ (fun _ => rfl)]
  unfold dipoleQuadrupolePhis
  change (dipoleQuadrupolePhi2 v p T _ _ * _, dipoleQuadrupolePhi3 p T _ _ * _) = _
  rw [e2, e3, zero_mul, zero_mul]

/-- C21 at the edge of the composition range: with polar components in the parameter set but none of them
present (and no association), the residual Helmholtz energy is finite. -/
theorem C21_polar_components_absent (o : PcSaftOptions ℝ) (la : LinAlg ℝ ℝ) (laX : LinAlg XReal XReal)
    (h : Admissible (fromRecords pr k) T V N) (he : ∀ i, 0 < (pr i).model_record.epsilon_k)
    (hassoc : (fromRecords pr k).assoc_comp = [])
    (hd : ∀ i ∈ (fromRecords pr k).dipole_comp, N i = 0)
    (hq : ∀ i ∈ (fromRecords pr k).quadpole_comp, N i = 0) :
    ∃ A : ℝ, (Eos.withOptions (fromRecords pr k) o).residualHelmholtz la (StateHD.new T V N) = .ok A
      ∧ (Eos.withOptions (xParameters pr k) (o.map XReal.fin)).residualHelmholtz laX
        (StateHD.new (XReal.fin T) (XReal.fin V) (fun i => XReal.fin (N i))) = .ok (XReal.fin A) := by
  refine C21_residual o la laX h he (fun i => ?_) fun ct hct => ?_
  · by_contra hne
    have : i ∈ (fromRecords pr k).assoc_comp := (mem_assoc_iff pr k i).2 (by intro e; exact hne e.ge)
    simp [hassoc] at this
  · cases ct with
    | hardSphere => trivial
    | hardChain => trivial
    | dispersion => trivial
    | dipole => exact Or.inr (dipolePhis_absent _ hd)
    | quadrupole => exact Or.inr (quadrupolePhis_absent _ hq)
    | dipoleQuadrupole v => exact Or.inr (dipoleQuadrupolePhis_absent v _ hd)
    | association => simp [buildContributions, PcSaftParameters.nassoc, hassoc] at hct
    | crossAssociation _ _ => simp [buildContributions, PcSaftParameters.nassoc, hassoc] at hct

/-! ## Non-vacuity -/

/-- an associating mixture -/
example (o : PcSaftOptions ℝ) (la : LinAlg ℝ ℝ) (laX : LinAlg XReal XReal) :
    ∃ A : ℝ, (Eos.withOptions (xParameters assocRecords (fun _ _ => 0)) (o.map XReal.fin)).residualHelmholtz laX
        (StateHD.new (XReal.fin 300) (XReal.fin 1000) (fun _ => XReal.fin 1)) = .ok (XReal.fin A) := by
  obtain ⟨A, _, h⟩ := C21_residual o la laX assocRecords_admissible
    (fun i => by fin_cases i <;> norm_num [assocRecords])
    (fun i => by fin_cases i <;> norm_num [assocRecords, fromRecords])
    (fun ct hct => by
      have := assocRecords_regular o ct hct
      cases ct <;> first | exact this | exact Or.inl this | exact finiteAt_association this)
  exact ⟨A, h⟩

/-- the special values are not excluded by the number type: equal expansion terms give an infinity -/
example : padeVolume (XReal.fin 1) (XReal.fin 1) (XReal.fin 1) = XReal.pinf := by
  have h1 : XReal.fin 1 - XReal.fin 1 = XReal.fin 0 := by rw [← XReal.equations.sub, sub_self]
  have h2 : XReal.fin 1 * XReal.fin 1 = XReal.fin 1 := by rw [← XReal.equations.mul, one_mul]
  have h3 : XReal.fin 1 / XReal.fin 0 = XReal.pinf := by
    change (if (0 : ℝ) = 0 then XReal.infSign 1 else _) = _
    simp [XReal.infSign]
  have h4 : XReal.pinf * XReal.fin 1 = XReal.pinf := by
    change XReal.infSign (1 * 1) = _
    simp [XReal.infSign]
  unfold padeVolume
  dsimp only
  rw [h1, h2, h3, h4]
  rfl

/-- a dipolar and a non-polar component -/
noncomputable def polarAbsentRecords (i : Fin 2) : PureRecord ℝ :=
  if i = 0 then ⟨⟨none, ""⟩, 18, ⟨1, 3, 200, some 2, none, none, none, none, none, none, none, none⟩, none⟩
  else ⟨⟨none, ""⟩, 44, ⟨2, 3, 200, none, none, none, none, none, none, none, none, none⟩, none⟩

/-- the dipolar component belongs to the parameter set but is not present in the mixture -/
example (o : PcSaftOptions ℝ) (la : LinAlg ℝ ℝ) (laX : LinAlg XReal XReal) :
    (0 : Fin 2) ∈ (fromRecords polarAbsentRecords (fun _ _ => 0)).dipole_comp
    ∧ ∃ A : ℝ, (Eos.withOptions (xParameters polarAbsentRecords (fun _ _ => 0)) (o.map XReal.fin)).residualHelmholtz
        laX (StateHD.new (XReal.fin 300) (XReal.fin 1000) (fun i => XReal.fin (if i = 0 then 0 else 1)))
      = .ok (XReal.fin A) := by
  have hadm : Admissible (fromRecords polarAbsentRecords (fun _ _ => 0)) 300 1000 (fun i => if i = 0 then 0 else 1) :=
    { temperature := by norm_num
      volume := by norm_num
      m_pos := fun i => by fin_cases i <;> norm_num [polarAbsentRecords, fromRecords]
      sigma_pos := fun i => by fin_cases i <;> norm_num [polarAbsentRecords, fromRecords]
      epsilon_nonneg := fun i => by fin_cases i <;> norm_num [polarAbsentRecords, fromRecords]
      moles_nonneg := fun i => by fin_cases i <;> norm_num
      moles_ne_zero := ⟨1, by norm_num⟩
      packing := by
        have hm : (fromRecords polarAbsentRecords (fun _ _ => 0)).m 1 = 2 := rfl
        have hs : (fromRecords polarAbsentRecords (fun _ _ => 0)).sigma 1 = 3 := rfl
        have he : (fromRecords polarAbsentRecords (fun _ _ => 0)).epsilon_k 1 = 200 := rfl
        simp only [Spec.packingFraction, Fin.sum_univ_two, hm, hs, he, if_true, if_neg (one_ne_zero : (1 : Fin 2) ≠ 0)]
        have hd : Spec.diameter 3 200 300 ≤ 3 := by
          unfold Spec.diameter
          have := Real.exp_pos (-3 * 200 / 300)
          linarith
        have hd0 : 0 ≤ Spec.diameter 3 200 300 := by
          unfold Spec.diameter
          have := exp_le_one_of (e := 200) (T := 300) (by norm_num) (by norm_num)
          linarith
        have := pow_le_pow_left₀ hd0 hd 3
        have hpi := Real.pi_lt_d2
        have hpi0 := Real.pi_pos
        nlinarith [mul_le_mul hpi.le this (by positivity) (by norm_num)] }
  have hnil : (fromRecords polarAbsentRecords (fun _ _ => 0)).assoc_comp = [] := by
    refine List.eq_nil_iff_forall_not_mem.2 fun i hi => (mem_assoc_iff _ _ i).1 hi ?_
    fin_cases i <;> norm_num [polarAbsentRecords, fromRecords]
  refine ⟨(mem_nonzeroComp (fromRecords polarAbsentRecords (fun _ _ => 0)).mu2 0).2 ?_, ?_⟩
  · norm_num [polarAbsentRecords, fromRecords, jouleKelvinKB]
  obtain ⟨A, _, hA⟩ := C21_polar_components_absent o la laX hadm
    (fun i => by fin_cases i <;> norm_num [polarAbsentRecords]) hnil
    (fun i hi => by
      have := (mem_nonzeroComp (fromRecords polarAbsentRecords (fun _ _ => 0)).mu2 i).1 hi
      by_contra hne
      apply this
      have : i = 1 := by
        by_contra h1
        apply hne
        rw [if_pos (by omega)]
      subst this
      norm_num [polarAbsentRecords, fromRecords])
    (fun i hi => by
      have := (mem_nonzeroComp (fromRecords polarAbsentRecords (fun _ _ => 0)).q2 i).1 hi
      exfalso
      apply this
      fin_cases i <;> norm_num [polarAbsentRecords, fromRecords])
  exact ⟨A, hA⟩

end finite

end Props
end PcSaft
