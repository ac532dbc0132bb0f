import Verif.Props.TransportSign

/-!
# Property C100: the second virial coefficient of a mixture is quadratic in the composition

The second virial coefficient describes pairs of molecules.  Statistical mechanics therefore gives
`B(x) = ∑ᵢ ∑ⱼ xᵢ xⱼ Bᵢⱼ` with coefficients of the pairs that depend on temperature only.  The equation of state has this
form when all molecules have the same number of segments.  In other mixtures the dispersion contribution, which uses the
mean number of segments, does not.
-/

namespace PcSaft

/-- mole fractions -/
def Spec.IsComposition {n : ℕ} (x : Fin n → ℝ) : Prop := (∀ i, 0 ≤ x i) ∧ ∑ i, x i = 1

/-- the second virial coefficients of all compositions at one temperature come from coefficients of pairs -/
def Spec.PairwiseVirial {n : ℕ} (pr : Fin n → PureRecord ℝ) (k : Fin n → Fin n → ℝ) (o : PcSaftOptions ℝ)
    (laX : LinAlg XReal Props.XDual2) (T : ℝ) (B : Fin n → Fin n → ℝ) : Prop :=
  (∀ i j, B i j = B j i)
    ∧ ∀ x, Spec.IsComposition x → Spec.IsSecondVirial pr k o laX T x (∑ i, ∑ j, x i * x j * B i j)

namespace Props
open PcSaft Spec Dual2
variable {n : ℕ} {pr : Fin n → PureRecord ℝ} {k : Fin n → Fin n → ℝ} {T : ℝ} {x : Fin n → ℝ}

/-- the quadratic form of a matrix -/
noncomputable def quad (B : Fin n → Fin n → ℝ) (x : Fin n → ℝ) : ℝ := ∑ i, ∑ j, x i * x j * B i j

theorem quad_add (B C : Fin n → Fin n → ℝ) (x : Fin n → ℝ) : quad (fun i j => B i j + C i j) x = quad B x + quad C x := by
  simp only [quad, mul_add, Finset.sum_add_distrib]

theorem quad_symm (B : Fin n → Fin n → ℝ) (x : Fin n → ℝ) : quad (fun i j => (B i j + B j i) / 2) x = quad B x := by
  have h : quad (fun i j => B j i) x = quad B x := by
    unfold quad
    rw [Finset.sum_comm]
    exact Finset.sum_congr rfl fun i _ => Finset.sum_congr rfl fun j _ => by ring
  have h2 : quad (fun i j => (B i j + B j i) / 2) x = (quad B x + quad (fun i j => B j i) x) / 2 := by
    rw [← quad_add]
    simp only [quad, Finset.sum_div]
    exact Finset.sum_congr rfl fun i _ => Finset.sum_congr rfl fun j _ => by ring
  rw [h2, h]
  ring

/-- the second virial coefficient of dispersion -/
noncomputable def dispersionVirial (pr : Fin n → PureRecord ℝ) (k : Fin n → Fin n → ℝ) (T : ℝ) (x : Fin n → ℝ) : ℝ :=
  -(2 * Real.pi * (∑ i, ∑ j, x i * x j * ((fluidOf pr k).m i * (fluidOf pr k).m j)
          * ((1 - (fluidOf pr k).k i j) * (fluidOf pr k).energyIJ i j / T) * (fluidOf pr k).sigmaIJ i j ^ 3)
        * (0.91056314451539 + ((∑ i, x i * (fluidOf pr k).m i) - 1) / (∑ i, x i * (fluidOf pr k).m i) * (-0.30840169182720)
          + ((∑ i, x i * (fluidOf pr k).m i) - 1) / (∑ i, x i * (fluidOf pr k).m i)
            * (((∑ i, x i * (fluidOf pr k).m i) - 2) / (∑ i, x i * (fluidOf pr k).m i)) * (-0.09061483509767))
      + Real.pi * (∑ i, x i * (fluidOf pr k).m i)
        * (∑ i, ∑ j, x i * x j * ((fluidOf pr k).m i * (fluidOf pr k).m j)
          * ((1 - (fluidOf pr k).k i j) * (fluidOf pr k).energyIJ i j / T) ^ 2 * (fluidOf pr k).sigmaIJ i j ^ 3)
        * (0.72409469413165 + ((∑ i, x i * (fluidOf pr k).m i) - 1) / (∑ i, x i * (fluidOf pr k).m i) * (-0.57554980753450)
          + ((∑ i, x i * (fluidOf pr k).m i) - 1) / (∑ i, x i * (fluidOf pr k).m i)
            * (((∑ i, x i * (fluidOf pr k).m i) - 2) / (∑ i, x i * (fluidOf pr k).m i)) * 0.09768831158356))

/-- one for dispersion, zero for the other contributions -/
noncomputable def dispersionWeight : Contribution ℝ → ℝ
  | .dispersion => 1
  | _ => 0

/-- cross association: the code returns zero below a density of `f64::EPSILON` -/
theorem cross_virial (laX : LinAlg XReal XDual2)
    (T : ℝ) (x : Fin n → ℝ) (it : ℕ) (tol : ℝ) : ∃ d,
      ((Contribution.crossAssociation it tol).map XReal.fin).helmholtzEnergy laX (xParameters pr k) (virialStateX T x) = .ok d
        ∧ VirialCoefficient 0 d := by
  have hs := virialState_rel T x
  have hsX := virialStateX_rel T x
  refine ⟨c (0.0 : XReal) * (virialStateX T x).volume, ?_, ?_⟩
  · have hre : DualNum.re (sumFin (virialStateX T x).partial_density) = XReal.fin 0 := by
      have h1 := rhoX2.re (rhoX2.sumFin XReal.lawfulEmb hsX.partial_density)
      have h2 : sumFin (StateHD.newVirial T (0 + 0) x).partial_density = 0 := by
        simp [sumFin_real, StateHD.newVirial]
      simp only [h2] at h1
      exact h1
    have hlt : F64.lt (DualNum.re (sumFin (virialStateX T x).partial_density)) (f64EPSILON : XReal) = true := by
      rw [hre]
      have e : (f64EPSILON : XReal) = XReal.fin f64EPSILON := CR.sci XReal.lawfulEmb _ _ _
      rw [e]
      change decide ((0 : ℝ) < f64EPSILON) = true
      rw [decide_eq_true_eq]
      norm_num [f64EPSILON]
    simp only [Contribution.map, Contribution.helmholtzEnergy, crossAssociation, crossAssociationDensity, hlt, if_true]
  · have hsec : Second (2 * 0) (c (0.0 : ℝ) * (virialState T x).volume) := by
      rw [mul_zero]
      simpa using second_zero.mul_val _
    exact VirialCoefficient.of hsec (lift2_of
      (rho2.mul (rho2.const (0.0 : ℝ)) hs.volume)
      (rhoX2.mul (rhoX2.constOf (CR.sci XReal.lawfulEmb _ _ _)) hsX.volume))

variable (hr : PositiveRecords pr) (hk : ∀ i, 0 ≤ (fromRecords pr k).kappa_ab i) (hT : 0 < T)

include hr hk hT in
/-- every contribution except dispersion is quadratic in the composition -/
theorem quad_term (laX : LinAlg XReal XDual2) (ct : Contribution ℝ)
    (hs : ct = .association → ∃ a, (fromRecords pr k).assoc_comp = [a] ∧ 0 < (fromRecords pr k).na a
      ∧ 0 < (fromRecords pr k).nb a) :
    ∃ B : Fin n → Fin n → ℝ, ∀ x, IsComposition x → ∃ d,
      (ct.map XReal.fin).helmholtzEnergy laX (xParameters pr k) (virialStateX T x) = .ok d
        ∧ VirialCoefficient (quad B x + dispersionWeight ct * dispersionVirial pr k T x) d := by
  have hok := polarOk_fromRecords pr k (fun i => (hr.m i).le)
  have hdp : ∀ i, 0 < (fluidOf pr k).d T i := fun i => by
    have := virial_diameter_pos (k := k) hr hT i
    rwa [hsDiameter_eq_spec] at this
  cases ct with
  | hardSphere =>
    refine ⟨fun i j => (fluidOf pr k).m i * (fluidOf pr k).m j * (2 / 3 * Real.pi
      * (((fluidOf pr k).d T i + (fluidOf pr k).d T j) / 2) ^ 3), fun x hx => ⟨_, rfl, ?_⟩⟩
    have h := C63_hard_sphere_finite (k := k) hr hT x hk (by
      have := sum_pos_of_composition (f := fun i => (fluidOf pr k).m i * (fluidOf pr k).d T i ^ 3)
        (fun i => mul_pos (hr.m i) (pow_pos (hdp i) 3)) hx.1 hx.2
      simp only [← mul_assoc] at this
      exact this.ne')
    convert h using 1
    simp only [quad, dispersionWeight, zero_mul, add_zero]
    exact Finset.sum_congr rfl fun i _ => Finset.sum_congr rfl fun j _ => by ring
  | hardChain =>
    refine ⟨fun i j => (1 - (fluidOf pr k).m i) * (Real.pi / 6 * ((fluidOf pr k).m j * (fluidOf pr k).d T j ^ 3)
      + 3 / 2 * (fluidOf pr k).d T i * (Real.pi / 6 * ((fluidOf pr k).m j * (fluidOf pr k).d T j ^ 2))),
      fun x hx => ⟨_, rfl, ?_⟩⟩
    convert C63_hard_chain_finite (k := k) hr hT x hk using 1
    simp only [quad, dispersionWeight, zero_mul, add_zero]
    refine Finset.sum_congr rfl fun i _ => ?_
    simp only [Finset.mul_sum, ← Finset.sum_add_distrib]
    exact Finset.sum_congr rfl fun j _ => by ring
  | dispersion =>
    refine ⟨fun _ _ => 0, fun x hx => ⟨_, rfl, ?_⟩⟩
    have h := C63_dispersion_finite (k := k) hr hT x hk
      (sum_pos_of_composition (f := (fluidOf pr k).m) hr.m hx.1 hx.2).ne'
    have e : quad (fun _ _ => 0) x + dispersionWeight .dispersion * dispersionVirial pr k T x = dispersionVirial pr k T x := by
      simp [quad, dispersionWeight]
    rw [e]
    exact h
  | dipole =>
    refine ⟨fun i j => -dipK2 (fromRecords pr k) T 0 i j * c F64.pi, fun x hx => ⟨_, rfl, ?_⟩⟩
    convert dipole_virial hr hk hT x using 1
    rw [dipolePhi2_real hok]
    simp only [quad, dispersionWeight, zero_mul, add_zero, neg_mul, mul_neg, Finset.sum_mul, Finset.sum_neg_distrib, mul_assoc]
  | quadrupole =>
    refine ⟨fun i j => -quadK2 (fromRecords pr k) T 0 i j * c (F64.pi * 0.5625), fun x hx => ⟨_, rfl, ?_⟩⟩
    convert quadrupole_virial hr hk hT x using 1
    rw [quadrupolePhi2_real hok]
    simp only [quad, dispersionWeight, zero_mul, add_zero, neg_mul, mul_neg, Finset.sum_mul, Finset.sum_neg_distrib, mul_assoc]
  | dipoleQuadrupole v =>
    refine ⟨fun i j => -dqK2 v (fromRecords pr k) T 0 i j * c (F64.pi * 2.25), fun x hx => ⟨_, rfl, ?_⟩⟩
    convert dipoleQuadrupole_virial v hr hk hT x using 1
    rw [dipoleQuadrupolePhi2_real hok]
    simp only [quad, dispersionWeight, zero_mul, add_zero, neg_mul, mul_neg, Finset.sum_mul, Finset.sum_neg_distrib, mul_assoc]
  | association =>
    obtain ⟨a, hl, hna, hnb⟩ := hs rfl
    refine ⟨fun i j => if i = a ∧ j = a then
      -((fromRecords pr k).na a * (fromRecords pr k).nb a * strengthZero (fromRecords pr k) T a) else 0, fun x hx => ?_⟩
    let la : LinAlg ℝ ℝ := ⟨fun _ _ _ => none, fun _ _ _ => none, 0⟩
    obtain ⟨⟨d, h1, h2⟩, -⟩ := virialTerm_association (x := x) hr hk hT hx.2 la laX hl hna hnb
    refine ⟨d, h1, ?_⟩
    convert h2 using 1
    simp only [quad, dispersionWeight, zero_mul, add_zero, mul_ite, mul_zero, ite_and, Finset.sum_ite_eq',
      Finset.sum_ite_irrel, Finset.sum_const_zero, Finset.mem_univ, if_true]
    ring
  | crossAssociation it tol =>
    refine ⟨fun _ _ => 0, fun x hx => ?_⟩
    let la : LinAlg ℝ ℝ := ⟨fun _ _ _ => none, fun _ _ _ => none, 0⟩
    obtain ⟨d, h1, h2⟩ := cross_virial (pr := pr) (k := k) laX T x it tol
    refine ⟨d, h1, ?_⟩
    convert h2 using 1
    simp [quad, dispersionWeight]

/-- the sum over a list of contributions -/
theorem quad_sum (laX : LinAlg XReal XDual2) (px : PcSaftParameters n XReal) (G : (Fin n → ℝ) → ℝ) (w : Contribution ℝ → ℝ)
    (cts : List (Contribution ℝ))
    (h : ∀ ct ∈ cts, ∃ B : Fin n → Fin n → ℝ, ∀ x, IsComposition x → ∃ d,
      (ct.map XReal.fin).helmholtzEnergy laX px (virialStateX T x) = .ok d ∧ VirialCoefficient (quad B x + w ct * G x) d)
    (B0 : Fin n → Fin n → ℝ) (w0 : ℝ) :
    ∃ B : Fin n → Fin n → ℝ, ∀ (x : Fin n → ℝ) (d0 : XDual2), IsComposition x →
      VirialCoefficient (quad B0 x + w0 * G x) d0 → ∃ d,
      (cts.map (Contribution.map XReal.fin)).foldlM (fun acc ct =>
        match ct.helmholtzEnergy laX px (virialStateX T x) with
        | .error err => .error err
        | .ok a => .ok (acc + a)) d0 = (.ok d : Except Panic XDual2)
      ∧ VirialCoefficient (quad B x + (w0 + (cts.map w).sum) * G x) d := by
  induction cts generalizing B0 w0 with
  | nil => exact ⟨B0, fun x d0 _ h0 => ⟨d0, rfl, by simpa using h0⟩⟩
  | cons ct cts ih =>
    obtain ⟨B1, h1⟩ := h ct (by simp)
    obtain ⟨B, hB⟩ := ih (fun ct' h' => h ct' (by simp [h'])) (fun i j => B0 i j + B1 i j) (w0 + w ct)
    refine ⟨B, fun x d0 hx h0 => ?_⟩
    obtain ⟨d1, g1, g2⟩ := h1 x hx
    obtain ⟨d, i1, i2⟩ := hB x (d0 + d1) hx (by
      have := h0.add g2
      rw [quad_add]
      convert this using 1
      ring)
    refine ⟨d, ?_, ?_⟩
    · rw [List.map_cons, List.foldlM_cons, g1]
      exact i1
    · rw [List.map_cons, List.sum_cons, ← add_assoc]
      exact i2

theorem dispersion_once (p : PcSaftParameters n ℝ) (o : PcSaftOptions ℝ) :
    ((buildContributions p o).map dispersionWeight).sum = 1 := by
  unfold buildContributions
  simp only [List.map_append, List.sum_append]
  have h1 : ((if 0 < p.ndipole then [Contribution.dipole] else []).map dispersionWeight).sum = 0 := by
    split_ifs <;> simp [dispersionWeight]
  have h2 : ((if 0 < p.nquadpole then [Contribution.quadrupole] else []).map dispersionWeight).sum = 0 := by
    split_ifs <;> simp [dispersionWeight]
  have h3 : ((if 0 < p.ndipole ∧ 0 < p.nquadpole then [Contribution.dipoleQuadrupole o.dq_variant] else []).map
      dispersionWeight).sum = 0 := by
    split_ifs <;> simp [dispersionWeight]
  rw [h1, h2, h3]
  generalize p.nassoc = na
  match na with
  | 0 => simp [dispersionWeight]
  | 1 => simp [dispersionWeight]
  | (_ + 2) => simp [dispersionWeight]

theorem association_single {p : PcSaftParameters n ℝ} {o : PcSaftOptions ℝ}
    (h : Contribution.association ∈ buildContributions p o) : ∃ a, p.assoc_comp = [a] := by
  have h1 : p.nassoc = 1 := by
    unfold buildContributions at h
    simp only [List.mem_append, List.mem_cons, List.not_mem_nil, or_false, reduceCtorEq, false_or] at h
    rcases h with (((h | h) | h)) | h
    · split_ifs at h <;> simp at h
    · split_ifs at h <;> simp at h
    · split_ifs at h <;> simp at h
    · generalize p.nassoc = na at h
      match na with
      | 0 => simp at h
      | 1 => rfl
      | (_ + 2) => simp at h
  exact List.length_eq_one_iff.1 h1

include hr hk hT in
/-- the second virial coefficient of a mixture: coefficients of pairs, and the term of dispersion -/
theorem virial_mixture (hs : ∀ a ∈ (fromRecords pr k).assoc_comp, 0 < (fromRecords pr k).na a ∧ 0 < (fromRecords pr k).nb a)
    (o : PcSaftOptions ℝ) (laX : LinAlg XReal XDual2) :
    ∃ B : Fin n → Fin n → ℝ, ∀ x, IsComposition x →
      IsSecondVirial pr k o laX T x (quad B x + dispersionVirial pr k T x) := by
  obtain ⟨B, hB⟩ := quad_sum (T := T) laX (xParameters pr k) (dispersionVirial pr k T) dispersionWeight
    (buildContributions (fromRecords pr k) o) (fun ct hct => quad_term hr hk hT laX ct (fun e => by
      subst e
      obtain ⟨a, ha⟩ := association_single hct
      exact ⟨a, ha, hs a (by rw [ha]; exact List.mem_singleton.2 rfl)⟩)) (fun _ _ => 0) 0
  refine ⟨B, fun x hx => ?_⟩
  obtain ⟨d, h1, h2⟩ := hB x (c (0.0 : XReal)) hx (by
    have e : quad (fun _ _ => 0) x + 0 * dispersionVirial pr k T x = 0 := by simp [quad]
    rw [e]
    exact virial_zero)
  rw [dispersion_once, zero_add, one_mul] at h2
  refine ⟨d, ?_, h2⟩
  rw [← buildContributions_fin (xParameters_rel' hr hk) o] at h1
  rw [← h1]
  exact congrArg (fun f => List.foldlM f _ _) (by
    funext acc ct
    simp only [Eos.withOptions]
    cases ct.helmholtzEnergy laX (xParameters pr k) (virialStateX T x) <;> rfl)

include hr hk hT in
/-- C100 for mixtures of molecules with the same number of segments, with moments and sites: the second virial
coefficients come from coefficients of pairs.  Missing: different numbers of segments, where it fails. -/
theorem C100_equal_segments_partial (hm : ∀ i j, (pr i).model_record.m = (pr j).model_record.m)
    (hs : ∀ a ∈ (fromRecords pr k).assoc_comp, 0 < (fromRecords pr k).na a ∧ 0 < (fromRecords pr k).nb a)
    (o : PcSaftOptions ℝ) (laX : LinAlg XReal XDual2) : ∃ B, PairwiseVirial pr k o laX T B := by
  obtain ⟨B, hB⟩ := virial_mixture hr hk hT hs o laX
  rcases Nat.eq_zero_or_pos n with h0 | h0
  · subst h0
    refine ⟨fun i => i.elim0, fun i => i.elim0, fun x hx => ?_⟩
    have := hx.2
    simp at this
  obtain ⟨m, hmv⟩ : ∃ m, ∀ i, (fluidOf pr k).m i = m := ⟨(pr ⟨0, h0⟩).model_record.m, fun i => hm i ⟨0, h0⟩⟩
  let D : Fin n → Fin n → ℝ := fun i j =>
    -(2 * Real.pi * (m * m * ((1 - (fluidOf pr k).k i j) * (fluidOf pr k).energyIJ i j / T) * (fluidOf pr k).sigmaIJ i j ^ 3)
        * (0.91056314451539 + (m - 1) / m * (-0.30840169182720) + (m - 1) / m * ((m - 2) / m) * (-0.09061483509767))
      + Real.pi * m * (m * m * ((1 - (fluidOf pr k).k i j) * (fluidOf pr k).energyIJ i j / T) ^ 2
          * (fluidOf pr k).sigmaIJ i j ^ 3)
        * (0.72409469413165 + (m - 1) / m * (-0.57554980753450) + (m - 1) / m * ((m - 2) / m) * 0.09768831158356))
  refine ⟨fun i j => (B i j + D i j + (B j i + D j i)) / 2, fun i j => by ring, fun x hx => ?_⟩
  have e : ∑ i, ∑ j, x i * x j * ((B i j + D i j + (B j i + D j i)) / 2) = quad B x + dispersionVirial pr k T x := by
    have h1 := quad_symm (fun i j => B i j + D i j) x
    rw [quad_add] at h1
    rw [← show quad (fun i j => (B i j + D i j + (B j i + D j i)) / 2) x
      = ∑ i, ∑ j, x i * x j * ((B i j + D i j + (B j i + D j i)) / 2) from rfl, h1]
    congr 1
    have hsum : ∑ i, x i * (fluidOf pr k).m i = m := by
      simp only [hmv, ← Finset.sum_mul, hx.2, one_mul]
    unfold dispersionVirial
    rw [hsum]
    simp only [quad, D, hmv, Finset.mul_sum, Finset.sum_mul, ← Finset.sum_add_distrib, ← Finset.sum_neg_distrib]
    exact Finset.sum_congr rfl fun i _ => Finset.sum_congr rfl fun j _ => by ring
  rw [e]
  exact hB x hx

/-- the mole fractions of a binary mixture -/
noncomputable def binary (t : ℝ) : Fin 2 → ℝ := ![1 - t, t]

theorem binary_composition {t : ℝ} (h0 : 0 ≤ t) (h1 : t ≤ 1) : IsComposition (binary t) := by
  refine ⟨fun i => ?_, ?_⟩
  · fin_cases i
    · exact sub_nonneg.2 h1
    · exact h0
  · simp [binary]

theorem quad_binary (B : Fin 2 → Fin 2 → ℝ) (t : ℝ) : quad B (binary t)
    = (1 - t) ^ 2 * B 0 0 + (1 - t) * t * (B 0 1 + B 1 0) + t ^ 2 * B 1 1 := by
  simp only [quad, binary, Fin.sum_univ_two, Matrix.cons_val_zero, Matrix.cons_val_one]
  ring

/-- dispersion in a mixture of chains of the same segments is a cubic polynomial of the mean number of segments -/
theorem dispersion_binary {pr : Fin 2 → PureRecord ℝ} (hr : PositiveRecords pr)
    (hσ : (pr 0).model_record.sigma = (pr 1).model_record.sigma)
    (hε : (pr 0).model_record.epsilon_k = (pr 1).model_record.epsilon_k) {t : ℝ} (h0 : 0 ≤ t) (h1 : t ≤ 1) :
    let M := (1 - t) * (pr 0).model_record.m + t * (pr 1).model_record.m
    let e := (pr 0).model_record.epsilon_k / T
    dispersionVirial pr (fun _ _ => 0) T (binary t) = -(Real.pi * (pr 0).model_record.sigma ^ 3
      * (2 * e * (0.91056314451539 * M ^ 2 - 0.30840169182720 * (M * (M - 1)) - 0.09061483509767 * ((M - 1) * (M - 2)))
        + e ^ 2 * (M * (0.72409469413165 * M ^ 2 - 0.57554980753450 * (M * (M - 1))
          + 0.09768831158356 * ((M - 1) * (M - 2)))))) := by
  intro M e
  have hM : ∑ i, binary t i * (fluidOf pr fun _ _ => 0).m i = M := by
    simp only [binary, Fin.sum_univ_two, Matrix.cons_val_zero, Matrix.cons_val_one]
    rfl
  have hM0 : M ≠ 0 := by
    rw [← hM]
    exact (sum_pos_of_composition (f := (fluidOf pr fun _ _ => 0).m) hr.m (binary_composition h0 h1).1
      (binary_composition h0 h1).2).ne'
  have hs : ∀ i j, (fluidOf pr fun _ _ => 0).sigmaIJ i j = (pr 0).model_record.sigma := by
    intro i j
    have h : ∀ i, (pr i).model_record.sigma = (pr 0).model_record.sigma := by
      intro i
      fin_cases i
      · rfl
      · exact hσ.symm
    change ((pr i).model_record.sigma + (pr j).model_record.sigma) / 2 = _
    rw [h i, h j]
    ring
  have he : ∀ i j, (fluidOf pr fun _ _ => 0).energyIJ i j = (pr 0).model_record.epsilon_k := by
    intro i j
    have h : ∀ i, (pr i).model_record.epsilon_k = (pr 0).model_record.epsilon_k := by
      intro i
      fin_cases i
      · rfl
      · exact hε.symm
    change Real.sqrt ((pr i).model_record.epsilon_k * (pr j).model_record.epsilon_k) = _
    rw [h i, h j, Real.sqrt_mul_self (hr.epsilon 0).le]
  have hsum : ∀ a : ℝ, ∑ i, ∑ j, binary t i * binary t j
      * ((fluidOf pr fun _ _ => 0).m i * (fluidOf pr fun _ _ => 0).m j) * a * (pr 0).model_record.sigma ^ 3
      = M ^ 2 * (a * (pr 0).model_record.sigma ^ 3) := by
    intro a
    rw [← hM, sq, Finset.sum_mul_sum, Finset.sum_mul]
    refine Finset.sum_congr rfl fun i _ => ?_
    rw [Finset.sum_mul]
    exact Finset.sum_congr rfl fun j _ => by ring
  have hk : ∀ i j, (fluidOf pr fun _ _ => 0).k i j = 0 := fun _ _ => rfl
  unfold dispersionVirial
  simp only [hs, he, hM, hk, sub_zero, one_mul]
  have hq : (pr 0).model_record.epsilon_k / T = e := rfl
  rw [hq, hsum e, hsum (e ^ 2)]
  field_simp
  ring

/-- C100 fails whenever the numbers of segments differ: the second virial coefficients of a binary mixture of molecules
with the same segments but different numbers of them are not quadratic in the composition at any temperature. -/
theorem C100_unequal_segments_counterexample {pr : Fin 2 → PureRecord ℝ} (hr : PositiveRecords pr)
    (hk : ∀ i, 0 ≤ (fromRecords pr fun _ _ => 0).kappa_ab i) (hT : 0 < T)
    (hs : ∀ a ∈ (fromRecords pr fun _ _ => 0).assoc_comp,
      0 < (fromRecords pr fun _ _ => 0).na a ∧ 0 < (fromRecords pr fun _ _ => 0).nb a)
    (hσ : (pr 0).model_record.sigma = (pr 1).model_record.sigma)
    (hε : (pr 0).model_record.epsilon_k = (pr 1).model_record.epsilon_k)
    (hm : (pr 0).model_record.m ≠ (pr 1).model_record.m) (o : PcSaftOptions ℝ) (laX : LinAlg XReal XDual2) :
    ¬ ∃ B, PairwiseVirial pr (fun _ _ => 0) o laX T B := by
  rintro ⟨B, -, hB⟩
  obtain ⟨C, hC⟩ := virial_mixture hr hk hT hs o laX
  have key : ∀ t : ℝ, 0 ≤ t → t ≤ 1 → quad B (binary t) - quad C (binary t)
      = dispersionVirial pr (fun _ _ => 0) T (binary t) := by
    intro t h0 h1
    have := virial_unique (hB _ (binary_composition h0 h1)) (hC _ (binary_composition h0 h1))
    change quad B (binary t) = _ at this
    linarith
  have k0 := key 0 le_rfl zero_le_one
  have k1 := key (1 / 3) (by norm_num) (by norm_num)
  have k2 := key (2 / 3) (by norm_num) (by norm_num)
  have k3 := key 1 zero_le_one le_rfl
  rw [quad_binary, quad_binary, dispersion_binary hr hσ hε le_rfl zero_le_one] at k0
  rw [quad_binary, quad_binary, dispersion_binary hr hσ hε (by norm_num) (by norm_num)] at k1
  rw [quad_binary, quad_binary, dispersion_binary hr hσ hε (by norm_num) (by norm_num)] at k2
  rw [quad_binary, quad_binary, dispersion_binary hr hσ hε zero_le_one le_rfl] at k3
  have he : 0 < (pr 0).model_record.epsilon_k / T := div_pos (hr.epsilon 0) hT
  have hσ0 := hr.sigma 0
  generalize (pr 0).model_record.epsilon_k / T = e at *
  generalize (pr 0).model_record.sigma = σ at *
  generalize (pr 0).model_record.m = m0 at *
  generalize (pr 1).model_record.m = m1 at *
  have hz : Real.pi * σ ^ 3 * e ^ 2 * (m1 - m0) ^ 3
      * ((0.72409469413165 - 0.57554980753450 + 0.09768831158356) * (2 / 9)) = 0 := by
    linear_combination k3 - 3 * k2 + 3 * k1 - k0
  have hne : m1 - m0 ≠ 0 := sub_ne_zero.2 hm.symm
  have : Real.pi * σ ^ 3 * e ^ 2 * (m1 - m0) ^ 3
      * ((0.72409469413165 - 0.57554980753450 + 0.09768831158356) * (2 / 9)) ≠ 0 := by
    have h1 := Real.pi_ne_zero
    have h2 := hσ0.ne'
    have h3 := he.ne'
    have h4 : ((0.72409469413165 - 0.57554980753450 + 0.09768831158356) * (2 / 9) : ℝ) ≠ 0 := by norm_num
    exact mul_ne_zero (mul_ne_zero (mul_ne_zero (mul_ne_zero h1 (pow_ne_zero 3 h2)) (pow_ne_zero 2 h3))
      (pow_ne_zero 3 hne)) h4
  exact this hz

/-! ## Cases that meet the hypotheses -/

/-- an associating dipolar and a quadrupolar substance of two segments each -/
noncomputable def pairOfTwo (i : Fin 2) : PureRecord ℝ :=
  if i = 0 then ⟨⟨none, ""⟩, 46, ⟨2, 3, 200, some 1.5, none, some 0.03, some 2500, some 1, some 1, none, none, none⟩, none⟩
  else ⟨⟨none, ""⟩, 44, ⟨2, 3.5, 160, none, some 4, none, none, none, none, none, none, none⟩, none⟩

theorem pairOfTwo_comp : (fromRecords pairOfTwo (fun _ _ => 0.01)).assoc_comp = [0] := by
  have h : (fromRecords pairOfTwo (fun _ _ => 0.01)).kappa_ab = fun i => if i = 0 then 0.03 else 0.0 := by
    funext i
    fin_cases i <;> rfl
  have e : (fromRecords pairOfTwo (fun _ _ => 0.01)).assoc_comp
      = nonzeroComp (fromRecords pairOfTwo (fun _ _ => 0.01)).kappa_ab := rfl
  rw [e, h]
  simp only [nonzeroComp, List.finRange_succ, List.finRange_zero, List.map_nil, List.map_cons]
  norm_num [lt_real]

example (laX : LinAlg XReal XDual2) :=
  C100_equal_segments_partial (pr := pairOfTwo) (k := fun _ _ => 0.01) (T := 350)
    (by constructor <;> intro i <;> fin_cases i <;> norm_num [pairOfTwo])
    (by intro i; fin_cases i <;> norm_num [fromRecords, pairOfTwo]) (by norm_num)
    (by intro i j; fin_cases i <;> fin_cases j <;> norm_num [pairOfTwo])
    (by
      intro a ha
      rw [pairOfTwo_comp, List.mem_singleton] at ha
      subst ha
      norm_num [fromRecords, pairOfTwo])
    PcSaftOptions.default laX

/-- monomers with sites and dimers of the same segments -/
example (laX : LinAlg XReal XDual2) :=
  C100_unequal_segments_counterexample (pr := assocRecords) (T := 300)
    (by constructor <;> intro i <;> fin_cases i <;> norm_num [assocRecords])
    (by intro i; fin_cases i <;> norm_num [fromRecords, assocRecords]) (by norm_num)
    (by
      intro a ha
      rw [assocRecords_comp, List.mem_singleton] at ha
      subst ha
      norm_num [fromRecords, assocRecords])
    (by norm_num [assocRecords]) (by norm_num [assocRecords]) (by norm_num [assocRecords]) PcSaftOptions.default laX

end Props
end PcSaft
