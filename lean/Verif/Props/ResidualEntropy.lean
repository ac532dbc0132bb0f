import Verif.Lemmas.EntropySign
import Verif.Props.TransportSign
import Verif.Lemmas.Supercritical
import Verif.Props.ShippedData

/-!
# Property C103: the residual entropy of a pure fluid is negative
-/

open Filter Topology

namespace PcSaft.Props
open PcSaft Spec Shipped
variable {n : ℕ}

section
variable {pr : Fin n → PureRecord ℝ} {k : Fin n → Fin n → ℝ} {T V : ℝ} {N : Fin n → ℝ} {o : PcSaftOptions ℝ}

/-- the dual number at a state seeded in the temperature holds the derivative of the residual energy -/
theorem residual_temperature_derivative (ha : (fromRecords pr k).nassoc ≤ 1)
    (h : Admissible (fromRecords pr k) T V N)
    (hr : ∀ ct ∈ buildContributions (fromRecords pr k) o, Regular (fromRecords pr k) T V N ct) (laD : LinAlg ℝ (Dual ℝ)) :
    (Eos.withOptions (fromRecords pr k) o).residualHelmholtz laD (StateHD.new ⟨T, 1⟩ ⟨V, 0⟩ (fun i => ⟨N i, 0⟩))
        = .ok ⟨residualSum o.dq_variant (fromRecords pr k) (StateHD.new T V N),
          deriv (fun W => residualSum o.dq_variant (fromRecords pr k) (StateHD.new W V N)) T⟩ := by
  obtain ⟨A, hA, han⟩ := C68_residual_analytic (o := o) ⟨fun _ _ _ => none, fun _ _ _ => none, 0⟩ h hr
  have e : ∀ x, A x = residualSum o.dq_variant (fromRecords pr k) (StateHD.new x.1 x.2.1 x.2.2) := fun x => by
    have := hA x
    rw [residual_of_nassoc_le_one _ _ o _ ha] at this
    exact (Except.ok.inj this).symm
  have ef : (fun W => residualSum o.dq_variant (fromRecords pr k) (StateHD.new W V N)) = fun W => A (W, V, N) := by
    funext W
    rw [e]
  rw [ef]
  have hs := residual_seed1 h hr hA han.differentiableAt laD 1 0 0
  have hd : HasDerivAt (fun W : ℝ => A (W, V, N)) (fderiv ℝ A (T, V, N) (1, 0, 0)) T := by
    have hline : HasDerivAt (fun W : ℝ => ((W, V, N) : ℝ × ℝ × (Fin n → ℝ))) (1, 0, 0) T :=
      (hasDerivAt_id T).prodMk ((hasDerivAt_const T V).prodMk (hasDerivAt_const T N))
    exact han.differentiableAt.hasFDerivAt.comp_hasDerivAt T hline
  rw [hd.deriv, ← e (T, V, N)]
  exact hs

end

section
variable {pr : Fin 1 → PureRecord ℝ} {k : Fin 1 → Fin 1 → ℝ} {T V N : ℝ} {o : PcSaftOptions ℝ}

theorem pure_packing (p : PcSaftParameters 1 ℝ) (T V N : ℝ) : Spec.packingFraction p T V (fun _ => N)
    = Real.pi / 6 * N * p.m 0 * p.sigma 0 ^ 3 / V * (1 - 3 / 25 * Real.exp (-(3 * p.epsilon_k 0 / T))) ^ 3 := by
  have e : (0.12 : ℝ) = 3 / 25 := by norm_num
  simp only [Spec.packingFraction, Fin.sum_univ_one, Spec.diameter, e]
  rw [show -3 * p.epsilon_k 0 / T = -(3 * p.epsilon_k 0 / T) by ring]
  ring

/-- hard spheres, chains and dispersion of a pure fluid -/
theorem pure_chains (h00 : k 0 0 = 0) (h : Admissible (fromRecords pr k) T V (fun _ => N)) :
    hardSphere (fromRecords pr k) (StateHD.new T V (fun _ => N)) + hardChain (fromRecords pr k) (StateHD.new T V (fun _ => N))
        + dispersion (fromRecords pr k) (StateHD.new T V (fun _ => N))
      = N * pureForm ((fromRecords pr k).m 0)
        (Real.pi / 6 * N * (fromRecords pr k).m 0 * (fromRecords pr k).sigma 0 ^ 3 / V)
        (3 * (fromRecords pr k).epsilon_k 0 / T) := by
  have hm := h.m_pos 0
  have hσ := h.sigma_pos 0
  have hε := h.epsilon_nonneg 0
  have hN : N ≠ 0 := by
    obtain ⟨i, hi⟩ := h.moles_ne_zero
    exact hi
  have hV := h.volume
  have hT := h.temperature
  rw [C19_carnahan_starling _ _ _ _ h, C20_pure _ _ _ _ h, dispersion_real]
  have ee : (fromRecords pr k).epsilon_k_ij 0 0 = (fromRecords pr k).epsilon_k 0 := by
    change (1.0 - k 0 0) * Real.sqrt ((fromRecords pr k).epsilon_k 0 * (fromRecords pr k).epsilon_k 0) = _
    rw [h00, Real.sqrt_mul_self hε]
    norm_num
  have es : (fromRecords pr k).sigma_ij 0 0 = (fromRecords pr k).sigma 0 := by
    change 0.5 * ((fromRecords pr k).sigma 0 + (fromRecords pr k).sigma 0) = _
    norm_num
    ring
  have ez := zeta3_eq_packing (fromRecords pr k) T V (fun _ => N)
  rw [StateHD.new_temperature, ez, rho1mix_real, rho2mix_real, StateHD.new_density, StateHD.new_volume, dispForm,
    pureForm, ← pure_packing]
  simp only [Fin.sum_univ_one, ee, es]
  have em : ((StateHD.new T V (fun _ => N)).molefracs : Fin 1 → ℝ) 0 * (fromRecords pr k).m 0 = (fromRecords pr k).m 0 := by
    rw [StateHD.new_molefracs, Fin.sum_univ_one, div_self hN, one_mul]
  rw [em]
  generalize Spec.packingFraction (fromRecords pr k) T V (fun _ => N) = x
  generalize (fromRecords pr k).m 0 = m at *
  unfold chainForm
  field_simp
  ring

/-- the residual energy of a pure fluid without moments and sites -/
theorem pure_residual (hp : Plain (fromRecords pr k)) (h00 : k 0 0 = 0)
    (h : Admissible (fromRecords pr k) T V (fun _ => N)) :
    residualSum o.dq_variant (fromRecords pr k) (StateHD.new T V (fun _ => N))
      = N * pureForm ((fromRecords pr k).m 0)
        (Real.pi / 6 * N * (fromRecords pr k).m 0 * (fromRecords pr k).sigma 0 ^ 3 / V)
        (3 * (fromRecords pr k).epsilon_k 0 / T) := by
  rw [hp.residual, pure_chains h00 h]

/-- C103: the residual entropy of a pure fluid without moments and sites is negative, at every temperature and every
density up to a packing fraction of one half. -/
theorem C103_residual_entropy (hp : Plain (fromRecords pr k)) (h00 : k 0 0 = 0)
    (h : Admissible (fromRecords pr k) T V (fun _ => N)) (hm : 4 / 5 ≤ (fromRecords pr k).m 0)
    (hd : Spec.packingFraction (fromRecords pr k) T V (fun _ => N) ≤ 1 / 2) (o : PcSaftOptions ℝ) (laD : LinAlg ℝ (Dual ℝ)) :
    ∃ s, s < 0 ∧ IsResidualEntropy (fromRecords pr k) o laD T V (fun _ => N) s := by
  have hT := h.temperature
  have hV := h.volume
  have hN : 0 < N := by
    obtain ⟨i, hi⟩ := h.moles_ne_zero
    exact lt_of_le_of_ne (h.moles_nonneg 0) (Ne.symm hi)
  have hm0 := h.m_pos 0
  have hσ := h.sigma_pos 0
  have hε := h.epsilon_nonneg 0
  have hpi := Real.pi_pos
  have hnear : ∀ᶠ W in 𝓝 T, residualSum o.dq_variant (fromRecords pr k) (StateHD.new W V (fun _ => N))
      = N * pureForm ((fromRecords pr k).m 0)
        (Real.pi / 6 * N * (fromRecords pr k).m 0 * (fromRecords pr k).sigma 0 ^ 3 / V)
        (3 * (fromRecords pr k).epsilon_k 0 / W) := by
    have hc : ContinuousAt (fun W => Spec.packingFraction (fromRecords pr k) W V (fun _ => N)) T := by
      simp only [pure_packing]
      have : ContinuousAt (fun W => 3 * (fromRecords pr k).epsilon_k 0 / W) T :=
        continuousAt_const.div continuousAt_id hT.ne'
      exact continuousAt_const.mul ((continuousAt_const.sub (continuousAt_const.mul this.neg.rexp)).pow 3)
    filter_upwards [lt_mem_nhds hT, hc.eventually (gt_mem_nhds h.packing)] with W hW hW'
    exact pure_residual hp h00 ⟨hW, hV, h.m_pos, h.sigma_pos, h.epsilon_nonneg, h.moles_nonneg, h.moles_ne_zero, hW'⟩
  rw [pure_packing] at hd
  set m := (fromRecords pr k).m 0 with hmdef
  set S := Real.pi / 6 * N * m * (fromRecords pr k).sigma 0 ^ 3 / V with hSdef
  set ε := (fromRecords pr k).epsilon_k 0 with hεdef
  obtain ⟨d, hd1, hd2⟩ := pureForm_entropy hm (show 0 < S by positivity) (show 0 ≤ 3 * ε / T by positivity) hd
  have hx : HasDerivAt (fun W => 3 * ε / W) (-(3 * ε / T ^ 2)) T := by
    have := (hasDerivAt_inv hT.ne').const_mul (3 * ε)
    simp only [div_eq_mul_inv]
    refine this.congr_deriv ?_
    ring
  have hder : HasDerivAt (fun W => N * pureForm m S (3 * ε / W)) (N * (d * -(3 * ε / T ^ 2))) T :=
    (hd1.comp T hx).const_mul N
  have hder' := (hder.congr_of_eventuallyEq hnear).deriv
  have hdual := residual_temperature_derivative (o := o) (by rw [hp.association]; exact Nat.zero_le _) h
    (fun ct hct => (hp.regular T V _ ct hct).2.1) laD
  rw [hder', hnear.self_of_nhds] at hdual
  refine ⟨_, ?_, _, hdual, rfl⟩
  rw [Fin.sum_univ_one]
  refine div_neg_of_neg_of_pos (neg_neg_of_pos ?_) hN
  have e : N * pureForm m S (3 * ε / T) + T * (N * (d * -(3 * ε / T ^ 2)))
      = N * (pureForm m S (3 * ε / T) - 3 * ε / T * d) := by
    field_simp
    ring
  change 0 < N * pureForm m S (3 * ε / T) + T * (N * (d * -(3 * ε / T ^ 2)))
  rw [e]
  exact mul_pos hN hd2

/-- the substances of gross2001.json have neither moments nor sites -/
theorem gross2001_without_moments (hpr : MixtureOf gross2001 pr) (k : Fin 1 → Fin 1 → ℝ) : Plain (fromRecords pr k) := by
  have hf := gross2001_fields hpr k
  have key : ∀ v : Fin 1 → ℝ, (∀ i, v i = 0) → (nonzeroComp v).length = 0 := fun v hv => by
    by_contra h
    obtain ⟨i, hi⟩ := (nonzeroComp_length_ne_zero v).1 h
    exact hi (hv i)
  refine ⟨key (fromRecords pr k).mu2 fun i => ?_, key (fromRecords pr k).q2 fun i => ?_,
    key (fromRecords pr k).kappa_ab fun i => (hf i).2.2⟩
  · have := (hf i).1
    change (fromRecords pr k).mu i * (fromRecords pr k).mu i / _ * 1e-19 * _ = 0
    simp [this]
  · have := (hf i).2.1
    change (fromRecords pr k).q i * (fromRecords pr k).q i / _ * 1e-19 * _ = 0
    simp [this]

/-- C103: the residual entropy of every pure substance of gross2001.json is negative at every density up to the maximum
density. -/
theorem C103_gross2001 (hpr : MixtureOf gross2001 pr) (h00 : k 0 0 = 0) (hT : 0 < T) (hV : 0 < V)
    (hN : 0 < N) (hd : N / V ≤ (Eos.new (fromRecords pr k)).maxDensity (fun _ => N)) (laD : LinAlg ℝ (Dual ℝ)) :
    ∃ s, s < 0 ∧ IsResidualEntropy (fromRecords pr k) PcSaftOptions.default laD T V (fun _ => N) s := by
  have hs := gross2001_mixture hpr
  obtain ⟨h1, h2⟩ := C96_maximum_density k hs hT hV (N := fun _ => N) (fun _ => hN.le) ⟨0, hN.ne'⟩ (by simpa using hd)
  exact C103_residual_entropy (gross2001_without_moments hpr k) h00 h1 (mixture_pos k hs 0).1 h2 _ laD

theorem eicosane_gross2001 : MixtureOf gross2001 eicosane := fun _ => ⟨gross2001[19]'(by decide),
  List.getElem_mem _, rfl⟩

/-- eicosane at the maximum density -/
example (laD : LinAlg ℝ (Dual ℝ)) : ∃ s, s < 0 ∧ IsResidualEntropy (fromRecords eicosane fun _ _ => 0) PcSaftOptions.default laD
    300 ((Eos.new (fromRecords eicosane fun _ _ => 0)).maxDensity fun _ => 1)⁻¹ (fun _ => 1) s := by
  have hpos := mixture_pos (fun _ _ => 0) eicosane_mixture
  have : 0 < (Eos.new (fromRecords eicosane fun _ _ => 0)).maxDensity fun _ => 1 :=
    (C12_max_density (pr := eicosane) (k := fun _ _ => 0) (fun i => by
      have : 4 / 5 ≤ (eicosane i).model_record.m := (hpos i).1
      linarith) (fun i => (hpos i).2.1)
      PcSaftOptions.default (fun _ => 1) (fun _ => zero_le_one) ⟨0, one_ne_zero⟩).2.1 (by norm_num [PcSaftOptions.default])
  exact C103_gross2001 eicosane_gross2001 rfl (by norm_num) (inv_pos.2 this) one_pos (by
    rw [one_div, inv_inv]) laD

end

end PcSaft.Props
