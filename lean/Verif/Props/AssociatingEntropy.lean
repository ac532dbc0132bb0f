import Verif.Lemmas.AssociationEntropy
import Verif.Props.ResidualEntropy
import Verif.Props.Heating
import Verif.Props.Boyle

/-!
# Property C103: the residual entropy of an associating pure fluid is negative
-/

open Filter Topology

namespace PcSaft.Props
open PcSaft Spec Shipped

/-- contact value of the pair correlation function of hard spheres -/
noncomputable def sphereContact (x : ℝ) : ℝ := (1 - x / 2) / (1 - x) ^ 3

theorem sphereContact_pos {x : ℝ} (h1 : x < 1) : 0 < sphereContact x :=
  div_pos (by linarith) (pow_pos (by linarith) 3)

theorem sphereContact_mono {x y : ℝ} (hxy : x ≤ y) (h1 : y < 1) : sphereContact x ≤ sphereContact y := by
  have e : ∀ t : ℝ, t < 1 → sphereContact t = 1 / (2 * (1 - t) ^ 2) + 1 / (2 * (1 - t) ^ 3) := fun t ht => by
    have : 1 - t ≠ 0 := by linarith
    unfold sphereContact
    field_simp
    ring
  have ha : 0 < 1 - y := by linarith
  have hb : 1 - y ≤ 1 - x := by linarith
  rw [e x (by linarith), e y h1]
  gcongr

theorem sphereContact_le {x : ℝ} (h1 : x ≤ 1 / 2) : sphereContact x ≤ 6 := by
  refine (sphereContact_mono h1 (by norm_num)).trans ?_
  norm_num [sphereContact]

section
variable {pr : Fin 1 → PureRecord ℝ} {k : Fin 1 → Fin 1 → ℝ} {T V N : ℝ} {o : PcSaftOptions ℝ}

theorem pure_packing_nonneg {p : PcSaftParameters 1 ℝ} (h : Admissible p T V (fun _ => N)) :
    0 ≤ Spec.packingFraction p T V (fun _ => N) := by
  have h1 := h.volume
  have h2 := (h.m_pos 0).le
  have h3 := (spec_diameter_pos' h le_rfl 0).le
  have h4 : 0 ≤ N := h.moles_nonneg 0
  have h5 := Real.pi_pos
  rw [Spec.packingFraction, Fin.sum_univ_one]
  positivity

/-- the association strength in a pure fluid -/
theorem pure_strength {p : PcSaftParameters 1 ℝ} (h : Admissible p T V (fun _ => N)) (hκ : 0 ≤ p.kappa_ab 0) :
    specStrength p T V (fun _ => N) 0 0 * (N / V)
      = sphereContact (Spec.packingFraction p T V (fun _ => N)) * (p.kappa_ab 0 * p.sigma 0 ^ 3 * (N / V))
        * (Real.exp (p.epsilon_k_ab 0 / T) - 1) := by
  have hd := spec_diameter_pos' h le_rfl 0
  have hx := h.packing
  have hm2 : moment2 p T V (fun _ => N) * Spec.diameter (p.sigma 0) (p.epsilon_k 0) T
      = Spec.packingFraction p T V (fun _ => N) := by
    simp only [moment2, Spec.packingFraction, Fin.sum_univ_one]
    ring
  set d := Spec.diameter (p.sigma 0) (p.epsilon_k 0) T
  set x := Spec.packingFraction p T V (fun _ => N)
  have hc : contactPair (moment2 p T V (fun _ => N)) x d d = sphereContact x := by
    have h1 : 1 - x ≠ 0 := by linarith
    have e1 : d * d / (d + d) = d / 2 := by
      field_simp
      norm_num
    unfold contactPair sphereContact
    rw [e1, show 3 * (d / 2) * moment2 p T V (fun _ => N) = 3 / 2 * x by rw [← hm2]; ring,
      show 2 * (d / 2) ^ 2 * moment2 p T V (fun _ => N) ^ 2 = 1 / 2 * x ^ 2 by rw [← hm2]; ring]
    field_simp
    ring
  unfold specStrength
  rw [hc, Real.sqrt_mul_self hκ, Real.sqrt_mul_self (h.sigma_pos 0).le]
  ring_nf

/-- C103 for associating fluids: the residual entropy of a pure fluid without moments is negative, at every temperature
and every density up to a packing fraction of one half, if the bonding volume is small compared to the volume per
molecule. -/
theorem C103_associating (hmu : (fromRecords pr k).ndipole = 0) (hq : (fromRecords pr k).nquadpole = 0) (h00 : k 0 0 = 0)
    (h : Admissible (fromRecords pr k) T V (fun _ => N)) (hm : 4 / 5 ≤ (fromRecords pr k).m 0)
    (hd : Spec.packingFraction (fromRecords pr k) T V (fun _ => N) ≤ 1 / 2)
    (hκ : 0 < (fromRecords pr k).kappa_ab 0) (he : 0 ≤ (fromRecords pr k).epsilon_k_ab 0)
    (hna : 0 < (fromRecords pr k).na 0) (hnb : 0 < (fromRecords pr k).nb 0)
    (hs : (fromRecords pr k).na 0 + (fromRecords pr k).nb 0 ≤ 2 ^ 20)
    (ha : 15 * ((fromRecords pr k).kappa_ab 0 * (fromRecords pr k).sigma 0 ^ 3 * (fromRecords pr k).na 0) ≤ V / N)
    (hb : 15 * ((fromRecords pr k).kappa_ab 0 * (fromRecords pr k).sigma 0 ^ 3 * (fromRecords pr k).nb 0) ≤ V / N)
    (hcut : specStrength (fromRecords pr k) T V (fun _ => N) 0 0 * (N / V) ≠ Real.sqrt f64EPSILON)
    (o : PcSaftOptions ℝ) (laD : LinAlg ℝ (Dual ℝ)) :
    ∃ s, s < 0 ∧ IsResidualEntropy (fromRecords pr k) o laD T V (fun _ => N) s := by
  have hT := h.temperature
  have hV := h.volume
  have hN : 0 < N := by
    obtain ⟨i, hi⟩ := h.moles_ne_zero
    exact lt_of_le_of_ne (h.moles_nonneg 0) (Ne.symm hi)
  have hm0 := h.m_pos 0
  have hσ := h.sigma_pos 0
  have hε := h.epsilon_nonneg 0
  have hpi := Real.pi_pos
  have hcomp : (fromRecords pr k).assoc_comp = [0] := by
    have hmem : (0 : Fin 1) ∈ (fromRecords pr k).assoc_comp := (mem_assoc_iff pr k 0).2 hκ.ne'
    have hnd : (fromRecords pr k).assoc_comp.Nodup := assoc_nodup pr k
    rcases list_of_all_eq hnd (i := 0) fun j _ => Subsingleton.elim j 0 with e | e
    · rw [e] at hmem
      simp at hmem
    · exact e
  have hnassoc : (fromRecords pr k).nassoc = 1 := nassoc_of hcomp
  have hcont : ContinuousAt (fun W => Spec.packingFraction (fromRecords pr k) W V (fun _ => N)) T := by
    simp only [pure_packing]
    have : ContinuousAt (fun W => 3 * (fromRecords pr k).epsilon_k 0 / W) T :=
      continuousAt_const.div continuousAt_id hT.ne'
    exact continuousAt_const.mul ((continuousAt_const.sub (continuousAt_const.mul this.neg.rexp)).pow 3)
  have hadm : ∀ᶠ W in 𝓝 T, Admissible (fromRecords pr k) W V (fun _ => N) := by
    filter_upwards [lt_mem_nhds hT, hcont.eventually (gt_mem_nhds h.packing)] with W hW hW'
    exact ⟨hW, hV, h.m_pos, h.sigma_pos, h.epsilon_nonneg, h.moles_nonneg, h.moles_ne_zero, hW'⟩
  set p := fromRecords pr k with hp
  set δ := fun W => sphereContact (Spec.packingFraction p W V (fun _ => N)) * (p.kappa_ab 0 * p.sigma 0 ^ 3 * (N / V))
        * (Real.exp (p.epsilon_k_ab 0 / W) - 1) with hδ
  have hnear : ∀ᶠ W in 𝓝 T, residualSum o.dq_variant p (StateHD.new W V (fun _ => N))
      = N * pureForm (p.m 0) (Real.pi / 6 * N * p.m 0 * p.sigma 0 ^ 3 / V) (3 * p.epsilon_k 0 / W)
        + N * assocSingle (δ W) 1 (p.na 0) (p.nb 0) := by
    filter_upwards [hadm] with W hW
    have e1 : assocEnergy p (StateHD.new W V (fun _ => N)) = N * assocSingle (δ W) 1 (p.na 0) (p.nb 0) := by
      unfold assocEnergy
      rw [hcomp]
      dsimp only
      rw [C58_association_strength pr k W V _ hW 0 0 hκ.ne' hκ.ne']
      have e2 : specStrength p W V (fun _ => N) 0 0 * (N / V) = δ W := pure_strength hW hκ.le
      change assocSingle (specStrength p W V (fun _ => N) 0 0 * (N / V)) N (p.na 0) (p.nb 0) = _
      rw [e2, assocSingle_ab hnb, assocSingle_ab hnb, one_mul]
    rw [residualSum, dipole_eq_zero hmu, quadrupole_eq_zero hq, dipoleQuadrupole_eq_zero (Or.inl hmu), e1,
      pure_chains h00 hW]
    ring
  -- the factor in front of the Boltzmann factor
  set C := fun W => sphereContact (Spec.packingFraction p W V (fun _ => N)) * (p.kappa_ab 0 * p.sigma 0 ^ 3 * (N / V))
    with hCdef
  have hfac : 0 < p.kappa_ab 0 * p.sigma 0 ^ 3 * (N / V) := by positivity
  have hC0 : 0 < C T := mul_pos (sphereContact_pos h.packing) hfac
  have hCd : DifferentiableAt ℝ C T := by
    have h1 : DifferentiableAt ℝ (fun W => 3 * p.epsilon_k 0 / W) T := (differentiableAt_const _).div differentiableAt_id hT.ne'
    have h2 : DifferentiableAt ℝ (fun W => Spec.packingFraction p W V (fun _ => N)) T := by
      simp only [pure_packing]
      exact (((h1.neg.exp).const_mul _).const_sub 1 |>.pow 3).const_mul _
    have h3 : DifferentiableAt ℝ sphereContact (Spec.packingFraction p T V (fun _ => N)) := by
      unfold sphereContact
      have : (1 - Spec.packingFraction p T V (fun _ => N)) ^ 3 ≠ 0 := pow_ne_zero 3 (by linarith [h.packing])
      exact DifferentiableAt.div (by fun_prop) (by fun_prop) this
    exact (h3.comp T h2).mul_const _
  have hC' : deriv C T ≤ 0 := by
    have hsh : HasDerivAt (fun t : ℝ => -C (T + t)) (-deriv C T) 0 := by
      have : HasDerivAt (fun t : ℝ => T + t) 1 0 := (hasDerivAt_id 0).const_add T
      have h1 : HasDerivAt C (deriv C T) (T + 0) := by
        rw [add_zero]
        exact hCd.hasDerivAt
      have := (HasDerivAt.comp (h₂ := C) 0 h1 this).neg
      rw [mul_one] at this
      exact this
    have := deriv_nonneg_of_le hsh fun t ht => by
      rw [add_zero, neg_le_neg_iff]
      have hTt : T ≤ T + t := by linarith
      exact mul_le_mul_of_nonneg_right (sphereContact_mono
        (packing_anti h hTt le_rfl) h.packing) hfac.le
    linarith
  have hbound : ∀ ν : ℝ, 0 < ν → 15 * (p.kappa_ab 0 * p.sigma 0 ^ 3 * ν) ≤ V / N → C T * ν ≤ 2 / 5 := fun ν hν hle => by
    have h1 := sphereContact_le hd
    have h2 : C T * ν = sphereContact (Spec.packingFraction p T V (fun _ => N)) * (p.kappa_ab 0 * p.sigma 0 ^ 3 * ν * (N / V)) := by
      rw [hCdef]
      ring
    have h3 : p.kappa_ab 0 * p.sigma 0 ^ 3 * ν * (N / V) ≤ 1 / 15 := by
      have := mul_le_mul_of_nonneg_right hle (show 0 ≤ N / V by positivity)
      rw [div_mul_div_cancel₀ hN.ne', div_self hV.ne'] at this
      linarith
    rw [h2]
    have := mul_le_mul h1 h3 (by positivity) (by norm_num)
    linarith
  have hexp : HasDerivAt (fun W => Real.exp (p.epsilon_k_ab 0 / W) - 1)
      (Real.exp (p.epsilon_k_ab 0 / T) * (-(p.epsilon_k_ab 0 / T ^ 2))) T := by
    have h1 : HasDerivAt (fun W => p.epsilon_k_ab 0 / W) (-(p.epsilon_k_ab 0 / T ^ 2)) T := by
      have := (hasDerivAt_inv hT.ne').const_mul (p.epsilon_k_ab 0)
      simp only [div_eq_mul_inv]
      refine this.congr_deriv ?_
      ring
    exact h1.exp.sub_const 1
  have hδd : HasDerivAt δ _ T := hCd.hasDerivAt.mul hexp
  have hy0 : 0 ≤ p.epsilon_k_ab 0 / T := by positivity
  have hδ' : T * (deriv C T * (Real.exp (p.epsilon_k_ab 0 / T) - 1)
      + C T * (Real.exp (p.epsilon_k_ab 0 / T) * (-(p.epsilon_k_ab 0 / T ^ 2))))
      ≤ -(C T * (p.epsilon_k_ab 0 / T) * Real.exp (p.epsilon_k_ab 0 / T)) := by
    have h1 : 0 ≤ Real.exp (p.epsilon_k_ab 0 / T) - 1 := by linarith [Real.add_one_le_exp (p.epsilon_k_ab 0 / T)]
    have h2 : T * deriv C T * (Real.exp (p.epsilon_k_ab 0 / T) - 1) ≤ 0 :=
      mul_nonpos_of_nonpos_of_nonneg (mul_nonpos_of_nonneg_of_nonpos hT.le hC') h1
    have e : T * (p.epsilon_k_ab 0 / T ^ 2) = p.epsilon_k_ab 0 / T := by
      field_simp
    have e' : T * (C T * (Real.exp (p.epsilon_k_ab 0 / T) * (-(p.epsilon_k_ab 0 / T ^ 2))))
        = -(C T * (T * (p.epsilon_k_ab 0 / T ^ 2)) * Real.exp (p.epsilon_k_ab 0 / T)) := by ring
    rw [e] at e'
    rw [mul_add, e']
    linarith
  have hδT : specStrength p T V (fun _ => N) 0 0 * (N / V) = δ T := pure_strength h hκ.le
  obtain ⟨a', hA1, hA2⟩ := single_entropy hδd hC0 hy0 rfl hδ' hna hnb hs (hbound _ hna ha) (hbound _ hnb hb)
    (by rw [← hδT]; exact hcut)
  -- the other contributions
  rw [pure_packing] at hd
  set m := p.m 0 with hmdef
  set S := Real.pi / 6 * N * m * p.sigma 0 ^ 3 / V with hSdef
  set ε := p.epsilon_k 0 with hεdef
  obtain ⟨d, hd1, hd2⟩ := pureForm_entropy hm (show 0 < S by positivity) (show 0 ≤ 3 * ε / T by positivity) hd
  have hx : HasDerivAt (fun W => 3 * ε / W) (-(3 * ε / T ^ 2)) T := by
    have := (hasDerivAt_inv hT.ne').const_mul (3 * ε)
    simp only [div_eq_mul_inv]
    refine this.congr_deriv ?_
    ring
  have hder : HasDerivAt (fun W => N * pureForm m S (3 * ε / W) + N * assocSingle (δ W) 1 (p.na 0) (p.nb 0))
      (N * (d * -(3 * ε / T ^ 2)) + N * a') T := ((hd1.comp T hx).const_mul N).add (hA1.const_mul N)
  have hder' := (hder.congr_of_eventuallyEq hnear).deriv
  have hdual := residual_temperature_derivative (o := o) (by rw [← hp, hnassoc]) h
    (fun ct hct => by
      simp [buildContributions, ← hp, hmu, hq, hnassoc] at hct
      rcases hct with rfl | rfl | rfl | rfl
      · trivial
      · trivial
      · trivial
      · exact ⟨0, hcomp, he, hna, hnb, lt_of_le_of_lt hs (by norm_num), hcut⟩) laD
  rw [← hp, hder', hnear.self_of_nhds] at hdual
  refine ⟨_, ?_, _, hdual, rfl⟩
  rw [Fin.sum_univ_one]
  refine div_neg_of_neg_of_pos (neg_neg_of_pos ?_) hN
  have e : N * pureForm m S (3 * ε / T) + N * assocSingle (δ T) 1 (p.na 0) (p.nb 0)
        + T * (N * (d * -(3 * ε / T ^ 2)) + N * a')
      = N * ((pureForm m S (3 * ε / T) - 3 * ε / T * d) + (assocSingle (δ T) 1 (p.na 0) (p.nb 0) + T * a')) := by
    field_simp
    ring
  change 0 < N * pureForm m S (3 * ε / T) + N * assocSingle (δ T) 1 (p.na 0) (p.nb 0)
        + T * (N * (d * -(3 * ε / T ^ 2)) + N * a')
  rw [e]
  exact mul_pos hN (by linarith)

/-! ## The shipped substances -/

/-- a substance without moments and with a bonding volume of at most 5/72 of the number of segments per site -/
def SmallBonds (r : PureRecord ℚ) : Prop :=
  r.model_record.mu.getD 0 = 0 ∧ r.model_record.q.getD 0 = 0
    ∧ 72 * (r.model_record.kappa_ab.getD 0 * r.model_record.na.getD 1) ≤ 5 * r.model_record.m
    ∧ 72 * (r.model_record.kappa_ab.getD 0 * r.model_record.nb.getD 1) ≤ 5 * r.model_record.m

instance : DecidablePred SmallBonds := fun r => by
  unfold SmallBonds
  infer_instance

/-- All substances without moments in the files have small bonding volumes, except 4C water and methanol of
rehner2020.json. -/
theorem smallBonds_except : (substances.filter fun r => ¬ SmallBonds r ∧ r.model_record.mu.getD 0 = 0
      ∧ r.model_record.q.getD 0 = 0).map (fun r => r.identifier.name) = [some "water_4C", some "methanol"]
    ∧ (∀ r ∈ gross2002, SmallBonds r) := by
  decide +kernel

theorem shipped_sites_few : ∀ r ∈ substances, r.model_record.na.getD 1 + r.model_record.nb.getD 1 ≤ 2 ^ 20 := by
  decide +kernel

theorem max_density_pure (hm : 4 / 5 ≤ (fromRecords pr k).m 0) (hσ : 0 < (fromRecords pr k).sigma 0) (hN : 0 < N) :
    (Eos.new (fromRecords pr k)).maxDensity (fun _ => N)
      = 3 / (Real.pi * ((fromRecords pr k).m 0 * (fromRecords pr k).sigma 0 ^ 3)) := by
  have hm0 : 0 < (fromRecords pr k).m 0 := by linarith
  have hpk := (C12_max_density (pr := pr) (k := k) (fun i => by
    rw [Subsingleton.elim i 0]
    exact hm0) (fun i => by
    rw [Subsingleton.elim i 0]
    exact hσ) PcSaftOptions.default (fun _ => N) (fun _ => hN.le) ⟨0, hN.ne'⟩).1
  have hpi := Real.pi_pos
  have e : (PcSaftOptions.default : PcSaftOptions ℝ).max_eta = 1 / 2 := by norm_num [PcSaftOptions.default]
  rw [packing, Fin.sum_univ_one, Fin.sum_univ_one, div_self hN.ne', e] at hpk
  rw [eq_div_iff (by positivity)]
  change (Eos.withOptions (fromRecords pr k) PcSaftOptions.default).maxDensity (fun _ => N) * _ = 3
  linear_combination 6 * hpk

/-- C103: the residual entropy of every shipped pure substance without moments (except 4C water and methanol of
rehner2020.json) is negative at every density up to the maximum density. -/
theorem C103_shipped (hpr : MixtureOf (substances.filter fun r => SmallBonds r) pr) (h00 : k 0 0 = 0) (hT : 0 < T)
    (hV : 0 < V) (hN : 0 < N) (hd : N / V ≤ (Eos.new (fromRecords pr k)).maxDensity (fun _ => N))
    (hcut : specStrength (fromRecords pr k) T V (fun _ => N) 0 0 * (N / V) ≠ Real.sqrt f64EPSILON)
    (laD : LinAlg ℝ (Dual ℝ)) :
    ∃ s, s < 0 ∧ IsResidualEntropy (fromRecords pr k) PcSaftOptions.default laD T V (fun _ => N) s := by
  have hs : MixtureOf substances pr := fun i => by
    obtain ⟨r, hr, e⟩ := hpr i
    exact ⟨r, (List.mem_filter.1 hr).1, e⟩
  obtain ⟨h1, h2⟩ := C96_maximum_density k hs hT hV (N := fun _ => N) (fun _ => hN.le) ⟨0, hN.ne'⟩ (by simpa using hd)
  obtain ⟨r, hr, em, -, -, -, emu, eq, eκ, eε, ena, enb, -⟩ := mixture_entry hpr k 0
  have hm := (mixture_pos k hs 0).1
  have hσ := (mixture_pos k hs 0).2.1
  have hr1 := (List.mem_filter.1 hr).1
  have hr2 : SmallBonds r := of_decide_eq_true (List.mem_filter.1 hr).2
  obtain ⟨b1, b2, b3, b4⟩ := hr2
  obtain ⟨s1, s2, s3, s4, -⟩ := shipped_sites r hr1
  have s5 := shipped_sites_few r hr1
  have key : ∀ v : Fin 1 → ℝ, v 0 = 0 → (nonzeroComp v).length = 0 := fun v hv => by
    by_contra h
    obtain ⟨i, hi⟩ := (nonzeroComp_length_ne_zero v).1 h
    exact hi (by rw [Subsingleton.elim i 0]; exact hv)
  have hmu : (fromRecords pr k).ndipole = 0 := key (fromRecords pr k).mu2 (by
    change (fromRecords pr k).mu 0 * (fromRecords pr k).mu 0 / _ * 1e-19 * _ = 0
    simp [emu, b1])
  have hq : (fromRecords pr k).nquadpole = 0 := key (fromRecords pr k).q2 (by
    change (fromRecords pr k).q 0 * (fromRecords pr k).q 0 / _ * 1e-19 * _ = 0
    simp [eq, b2])
  rcases s1.eq_or_lt with hκ | hκ
  · exact C103_residual_entropy ⟨hmu, hq, key (fromRecords pr k).kappa_ab (by rw [eκ, ← hκ]; simp)⟩ h00 h1 hm h2 _ laD
  · have hκ' : 0 < (fromRecords pr k).kappa_ab 0 := by
      rw [eκ]
      exact_mod_cast hκ
    have hdens : Real.pi * ((fromRecords pr k).m 0 * (fromRecords pr k).sigma 0 ^ 3) ≤ 3 * (V / N) := by
      rw [max_density_pure hm hσ hN] at hd
      have g : 0 < Real.pi * ((fromRecords pr k).m 0 * (fromRecords pr k).sigma 0 ^ 3) :=
        mul_pos Real.pi_pos (mul_pos (by linarith) (pow_pos hσ 3))
      rw [div_le_div_iff₀ hV g] at hd
      rw [← mul_div_assoc, le_div_iff₀ hN]
      linarith
    have hbound : ∀ ν : ℝ, 72 * ((fromRecords pr k).kappa_ab 0 * ν) ≤ 5 * (fromRecords pr k).m 0 →
        15 * ((fromRecords pr k).kappa_ab 0 * (fromRecords pr k).sigma 0 ^ 3 * ν) ≤ V / N := fun ν hν => by
      have g1 := mul_le_mul_of_nonneg_right hν (pow_pos hσ 3).le
      have g2 : 3.14 * ((fromRecords pr k).m 0 * (fromRecords pr k).sigma 0 ^ 3)
          ≤ Real.pi * ((fromRecords pr k).m 0 * (fromRecords pr k).sigma 0 ^ 3) :=
        mul_le_mul_of_nonneg_right Real.pi_gt_d2.le (mul_nonneg (by linarith) (pow_pos hσ 3).le)
      have g3 : 0 ≤ V / N := by positivity
      norm_num at g2
      linarith
    refine C103_associating hmu hq h00 h1 hm h2 hκ' ?_ ?_ ?_ ?_ (hbound _ ?_) (hbound _ ?_) hcut _ laD
    · rw [eε]
      exact_mod_cast s2
    · rw [ena]
      exact_mod_cast s3
    · rw [enb]
      exact_mod_cast s4
    · rw [ena, enb]
      exact_mod_cast s5
    · rw [eκ, ena, em]
      exact_mod_cast b3
    · rw [eκ, enb, em]
      exact_mod_cast b4

theorem ethanol_small : MixtureOf (substances.filter fun r => SmallBonds r) ethanol := fun _ =>
  ⟨gross2002[1]'(by decide), List.mem_filter.2 ⟨by
    have := List.getElem_mem (l := gross2002) (n := 1) (by decide)
    simp only [substances, List.mem_append]
    tauto, by decide +kernel⟩, rfl⟩

/-- ethanol at 300 K and the maximum density -/
example (laD : LinAlg ℝ (Dual ℝ)) : ∃ s, s < 0 ∧ IsResidualEntropy (fromRecords ethanol fun _ _ => 0)
    PcSaftOptions.default laD 300 ((Eos.new (fromRecords ethanol fun _ _ => 0)).maxDensity fun _ => 1)⁻¹ (fun _ => 1) s := by
  obtain ⟨hm, hσ, -⟩ := mixture_pos (fun _ _ => 0) ethanol_mixture 0
  have hmax := max_density_pure hm hσ one_pos
  have hm0 : 0 < (fromRecords ethanol fun _ _ => 0).m 0 := by linarith
  have hpi := Real.pi_pos
  have hpos : 0 < (Eos.new (fromRecords ethanol fun _ _ => 0)).maxDensity fun _ => 1 := by
    rw [hmax]
    positivity
  have hd : 1 / ((Eos.new (fromRecords ethanol fun _ _ => 0)).maxDensity fun _ => 1)⁻¹
      ≤ (Eos.new (fromRecords ethanol fun _ _ => 0)).maxDensity fun _ => 1 := by
    rw [one_div, inv_inv]
  refine C103_shipped ethanol_small rfl (by norm_num) (inv_pos.2 hpos) one_pos hd ?_ laD
  obtain ⟨h1, -⟩ := C96_maximum_density (fun _ _ => 0) ethanol_mixture (T := 300) (by norm_num) (inv_pos.2 hpos)
    (N := fun _ => 1) (fun _ => zero_le_one) ⟨0, one_ne_zero⟩ (by simp)
  have eκ : (fromRecords ethanol fun _ _ => 0).kappa_ab 0 = 0.032384 := by
    change ((0.032384 : ℚ) : ℝ) = _
    norm_num
  have eε : (fromRecords ethanol fun _ _ => 0).epsilon_k_ab 0 = 2653.4 := by
    change ((2653.4 : ℚ) : ℝ) = _
    norm_num
  have em : (fromRecords ethanol fun _ _ => 0).m 0 = 2.3827 := by
    change ((2.3827 : ℚ) : ℝ) = _
    norm_num
  rw [pure_strength h1 (by rw [eκ]; norm_num), one_div, inv_inv, hmax, eκ, eε, sqrt_epsilon]
  have g1 := sphereContact_mono (pure_packing_nonneg h1) h1.packing
  have e0 : sphereContact 0 = 1 := by norm_num [sphereContact]
  rw [e0, hmax] at g1
  have g2 := Real.add_one_le_exp (2653.4 / 300)
  have g3 : 0.032384 * (fromRecords ethanol fun _ _ => 0).sigma 0 ^ 3
      * (3 / (Real.pi * ((fromRecords ethanol fun _ _ => 0).m 0 * (fromRecords ethanol fun _ _ => 0).sigma 0 ^ 3)))
      = 0.032384 * 3 / 2.3827 / Real.pi := by
    rw [em]
    field_simp
  rw [g3]
  have g4 : (1 : ℝ) / 100 ≤ 0.032384 * 3 / 2.3827 / Real.pi := by
    rw [le_div_iff₀ hpi]
    have := Real.pi_lt_d2
    norm_num at this ⊢
    linarith
  have g5 := mul_le_mul g1 g4 (by norm_num) (zero_le_one.trans g1)
  have g6 := mul_le_mul g5 (show (1 : ℝ) ≤ Real.exp (2653.4 / 300) - 1 by norm_num at g2 ⊢; linarith) zero_le_one
    (by positivity)
  refine (lt_of_lt_of_le ?_ g6).ne'
  norm_num

end

end PcSaft.Props
