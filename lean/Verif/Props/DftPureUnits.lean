import Verif.Props.DftUnits

/-!
# Property C124: the functionals for pure components do not depend on the choice of units
-/

namespace PcSaft.Props
open PcSaft Spec

section
variable {l u : ℝ} (hl : 0 < l) (hu : 0 < u) (pr : Fin 1 → PureRecord ℝ) (p : PcSaftParameters 1 ℝ)
include hl hu

/-! ## Attraction -/

theorem pureEta_rescale (T rho : ℝ) : pureEta (p.rescale l u pr) (u * T) (rho / l ^ 3) = pureEta p T rho := by
  simp only [pureEta, hsDiameter_rescale hu, dpowi_real, mul_pow]
  rw [show (p.rescale l u pr).m = p.m from rfl]
  generalize (c (Real.pi / 6.0) : ℝ) = x
  field_simp

omit hl in
theorem pureEnergy_rescale (T : ℝ) :
    DualNum.recip (u * T) * c ((p.rescale l u pr).epsilon_k 0) = DualNum.recip T * c (p.epsilon_k 0) := by
  simp only [recip_real, c, ofF_real]
  exact inv_mul_rescale hu _ _

omit hu in
theorem pure_pair (r m e s x y : ℝ) :
    -(r / l ^ 3 * m) ^ 2 * e * (l * s) ^ 3 * x * y = -(r * m) ^ 2 * e * s ^ 3 * x * y / l ^ 3 := by
  field_simp

theorem pureDispersion_rescale (T rho : ℝ) :
    pureDispersion (p.rescale l u pr) (u * T) (rho / l ^ 3) = pureDispersion p T rho / l ^ 3 := by
  simp only [pureDispersion, pureEta_rescale hl hu, pureEnergy_rescale hu]
  exact pure_pair hl _ _ _ _ _ _

omit hl hu in
theorem pade_units (hl : 0 < l) (a b : ℝ) : dftPade (a / l ^ 3) (b / l ^ 3) = dftPade a b / l ^ 3 := by
  have := dftPade_rescale (l := l) hl a b 1 1
  simpa only [mul_one] using this

omit hu in
theorem pure_dipole2 (r i e s m x : ℝ) :
    -(r / l ^ 3 * (r / l ^ 3)) * i * (e * (l * s) ^ 3 * m * (e * (l * s) ^ 3 * m) / (l * s) ^ 3 * x)
      = -(r * r) * i * (e * s ^ 3 * m * (e * s ^ 3 * m) / s ^ 3 * x) / l ^ 3 := by
  rw [mul_pow l s, div_eq_mul_inv _ (l ^ 3 * s ^ 3), div_eq_mul_inv _ (s ^ 3), mul_inv]
  generalize (s ^ 3)⁻¹ = w
  field_simp

omit hu in
theorem pure_dipole3 (r i e s m x : ℝ) :
    -(r / l ^ 3 * (r / l ^ 3) * (r / l ^ 3)) * i
        * (e * (l * s) ^ 3 * m * (e * (l * s) ^ 3 * m) * (e * (l * s) ^ 3 * m) / (l * s) ^ 3 * x)
      = -(r * r * r) * i * (e * s ^ 3 * m * (e * s ^ 3 * m) * (e * s ^ 3 * m) / s ^ 3 * x) / l ^ 3 := by
  rw [mul_pow l s, div_eq_mul_inv _ (l ^ 3 * s ^ 3), div_eq_mul_inv _ (s ^ 3), mul_inv]
  generalize (s ^ 3)⁻¹ = w
  field_simp

theorem pureDipole_rescale (T rho : ℝ) :
    pureDipole (p.rescale l u pr) (u * T) (rho / l ^ 3) = pureDipole p T rho / l ^ 3 := by
  simp only [pureDipole, pureEta_rescale hl hu, pureEnergy_rescale hu]
  rw [← pade_units hl]
  congr 1
  · exact pure_dipole2 hl _ _ _ _ _ _
  · exact pure_dipole3 hl _ _ _ _ _ _

omit hu in
theorem pure_quadrupole2 (r i e s m x y : ℝ) :
    -(r / l ^ 3 * (r / l ^ 3)) * i * (e * (l * s) ^ 5 * m * (e * (l * s) ^ 5 * m) / (l * s) ^ 7 * x * y)
      = -(r * r) * i * (e * s ^ 5 * m * (e * s ^ 5 * m) / s ^ 7 * x * y) / l ^ 3 := by
  rw [mul_pow l s, mul_pow l s, div_eq_mul_inv _ (l ^ 7 * s ^ 7), div_eq_mul_inv _ (s ^ 7), mul_inv]
  generalize (s ^ 7)⁻¹ = w
  field_simp

omit hu in
theorem pure_quadrupole3 (r i e s m x y z : ℝ) :
    r / l ^ 3 * (r / l ^ 3) * (r / l ^ 3) * i
        * (e * (l * s) ^ 5 * m * (e * (l * s) ^ 5 * m) * (e * (l * s) ^ 5 * m) / ((l * s) ^ 3) ^ 3 * x * y * z)
      = r * r * r * i * (e * s ^ 5 * m * (e * s ^ 5 * m) * (e * s ^ 5 * m) / (s ^ 3) ^ 3 * x * y * z) / l ^ 3 := by
  rw [mul_pow l s, mul_pow l s, mul_pow (l ^ 3), div_eq_mul_inv _ ((l ^ 3) ^ 3 * (s ^ 3) ^ 3), div_eq_mul_inv _ ((s ^ 3) ^ 3),
    mul_inv]
  generalize ((s ^ 3) ^ 3)⁻¹ = w
  field_simp

theorem pureQuadrupole_rescale (T rho : ℝ) :
    pureQuadrupole (p.rescale l u pr) (u * T) (rho / l ^ 3) = pureQuadrupole p T rho / l ^ 3 := by
  simp only [pureQuadrupole, pureEta_rescale hl hu, pureEnergy_rescale hu]
  rw [← pade_units hl]
  congr 1
  · exact pure_quadrupole2 hl _ _ _ _ _ _ _
  · exact pure_quadrupole3 hl _ _ _ _ _ _ _ _

/-! ## Hard spheres and association -/

omit hl hu in
theorem sum_units (v : List ℝ) : (v.map fun d => (d / l) ^ 2).sum = (v.map fun d => d ^ 2).sum / l ^ 2 := by
  induction v with
  | nil => simp
  | cons a v ih =>
    rw [List.map_cons, List.map_cons, List.sum_cons, List.sum_cons, ih, div_pow, add_div]

omit hl hu in
theorem sumSq_units (v : List ℝ) : sumSq (v.map (· / l)) = sumSq v / l ^ 2 := by
  have h := sumSq_map (fun x : ℝ => x / l) v
  have h' := sumSq_map (fun x : ℝ => x) v
  rw [List.map_id'] at h'
  rw [h, h', sum_units]

omit hl hu in
theorem pureN1n2_units (r n2 : ℝ) (v : List ℝ) : pureN1n2 (l * r) (n2 / l) (v.map (· / l)) = pureN1n2 r n2 v / l ^ 3 := by
  have h := pureN1n2_map (fun x : ℝ => x / l) v (l * r) (n2 / l)
  have h' := pureN1n2_map (fun x : ℝ => x) v r n2
  rw [List.map_id'] at h'
  rw [h, h', sum_units, show 4 * Real.pi * (l * r) = l * (4 * Real.pi * r) by ring, div_mul_div_comm, ← pow_two l, ← sub_div, div_div, div_div]
  congr 1
  ring

omit hu in
theorem pureN2n2_units (w : FMTVersion) (n2 : ℝ) (v : List ℝ) :
    pureN2n2 w (n2 / l) (v.map (· / l)) = (pureN2n2 w n2 v).map (· / l ^ 2) := by
  have hxi : sumSq v / l ^ 2 / (n2 / l) ^ 2 = sumSq v / n2 ^ 2 := by
    rw [div_pow, div_div_div_cancel_right₀ (by positivity)]
  cases w
  · simp only [pureN2n2, sumSq_units, Except.map]
    congr 1
    ring
  · rfl
  · simp only [pureN2n2, sumSq_units, Except.map, dpowi_real, hxi]
    congr 1
    ring

theorem pureAssoc_rescale (T r n2 n3 : ℝ) (v : List ℝ)
    (hs : n2 < N0_CUTOFF * 4.0 * F64.pi * p.m 0 * r ^ 2 ↔ n2 / l < N0_CUTOFF * 4.0 * F64.pi * p.m 0 * (l * r) ^ 2) :
    pureAssoc (p.rescale l u pr) (u * T) (l * r) (n2 / l) n3 (v.map (· / l)) = pureAssoc p T r n2 n3 v / l ^ 3 := by
  have hxi : (if n2 / l < N0_CUTOFF * 4.0 * F64.pi * p.m 0 * (l * r) ^ 2 then (c (1.0 : ℝ) : ℝ)
        else -(sumSq v / l ^ 2) / (n2 / l * (n2 / l)) + c (1.0 : ℝ))
      = if n2 < N0_CUTOFF * 4.0 * F64.pi * p.m 0 * r ^ 2 then (c (1.0 : ℝ) : ℝ)
        else -(sumSq v) / (n2 * n2) + c (1.0 : ℝ) := by
    refine if_congr hs.symm rfl ?_
    rw [div_mul_div_comm, ← pow_two l, ← neg_div, div_div_div_cancel_right₀ (by positivity)]
  have hn0 : n2 / l / (l * r * (l * r) * c (4.0 : ℝ) * c (F64.pi : ℝ)) = n2 / (r * r * c (4.0 : ℝ) * c (F64.pi : ℝ)) / l ^ 3 := by
    rw [div_div, div_div]
    congr 1
    ring
  have hk : ∀ x : ℝ, n2 / l * x * (l * r) = n2 * x * r := fun x => by field_simp
  have he : DualNum.recip (u * T) * c ((p.rescale l u pr).epsilon_k_aibj 0 0) = DualNum.recip T * c (p.epsilon_k_aibj 0 0) := by
    simp only [recip_real, c, ofF_real]
    exact inv_mul_rescale hu _ _
  have hd : ∀ a e x : ℝ, a * (e * c ((l * p.sigma 0) ^ 3 * p.kappa_aibj 0 0)) * x / l ^ 3
      = a * (e * c (p.sigma 0 ^ 3 * p.kappa_aibj 0 0)) * x := fun a e x => by
    simp only [c, ofF_real]
    field_simp
  have ek : (p.rescale l u pr).kappa_aibj = p.kappa_aibj := rfl
  have es : (p.rescale l u pr).sigma 0 = l * p.sigma 0 := rfl
  have ea : (p.rescale l u pr).na = p.na := rfl
  have eb : (p.rescale l u pr).nb = p.nb := rfl
  have em : (p.rescale l u pr).m = p.m := rfl
  simp only [pureAssoc, sumSq_units, lt_real, re_real, decide_eq_true_eq, powi_real, em, hxi]
  generalize (if n2 < N0_CUTOFF * 4.0 * F64.pi * p.m 0 * r ^ 2 then (c (1.0 : ℝ) : ℝ)
        else -(sumSq v) / (n2 * n2) + c (1.0 : ℝ)) = xi
  simp only [hn0, hk, he, ek, es, ea, eb]
  have e3 : ∀ n m x : ℝ, n / l ^ 3 / m * x = n / m * x / l ^ 3 := fun n m x => by ring
  simp only [e3, ← mul_div_assoc, hd]
  split_ifs
  · ring
  · ring

theorem pureFmtPoint_rescale (w : FMTVersion) (T n2 n3 : ℝ) (v : List ℝ)
    (hs : p.nassoc = 1 → (n2 < N0_CUTOFF * 4.0 * F64.pi * p.m 0 * (hsDiameter p T 0 * c (0.5 : ℝ)) ^ 2
      ↔ n2 / l < N0_CUTOFF * 4.0 * F64.pi * p.m 0 * (l * (hsDiameter p T 0 * c (0.5 : ℝ))) ^ 2)) :
    pureFmtAssocPoint (p.rescale l u pr) w (u * T) (n2 / l) n3 (v.map (· / l))
      = (pureFmtAssocPoint p w T n2 n3 v).map (· / l ^ 3) := by
  have er : hsDiameter (p.rescale l u pr) (u * T) 0 * c (0.5 : ℝ) = l * (hsDiameter p T 0 * c (0.5 : ℝ)) := by
    rw [hsDiameter_rescale hu, mul_assoc]
  simp only [pureFmtAssocPoint, er, pureN2n2_units hl, pureN1n2_units]
  rw [show (p.rescale l u pr).nassoc = p.nassoc from rfl]
  generalize hsDiameter p T 0 * c (0.5 : ℝ) = r at hs
  have hn0 : n2 / l / (l * r * (l * r) * c (4.0 : ℝ) * c (F64.pi : ℝ)) = n2 / (r * r * c (4.0 : ℝ) * c (F64.pi : ℝ)) / l ^ 3 := by
    rw [div_div, div_div]
    congr 1
    ring
  rw [hn0]
  cases pureN2n2 w n2 v with
  | error e => rfl
  | ok x =>
    simp only [Except.map]
    congr 1
    have e : ∀ a b y z n k : ℝ, -(a / l ^ 3 * b) + n / l ^ 3 * k + x / l ^ 2 * (n2 / l) * y * z
        = (-(a * b) + n * k + x * n2 * y * z) / l ^ 3 := fun a b y z n k => by field_simp
    rw [e]
    split_ifs with h
    · rw [pureAssoc_rescale hl hu pr p T r n2 n3 v (hs h), ← add_div]
    · rfl

omit hl hu in
theorem mapM_units {A : Type} (f f' : A → Except Panic ℝ) (h : ℝ → ℝ) (L : List A) (hf : ∀ a ∈ L, f' a = (f a).map h) :
    L.mapM f' = (L.mapM f).map (List.map h) := by
  induction L with
  | nil => rfl
  | cons a L ih =>
    rw [List.mapM_cons, List.mapM_cons, hf a List.mem_cons_self, ih fun b hb => hf b (List.mem_cons_of_mem _ hb)]
    cases f a with
    | error e => rfl
    | ok x =>
      cases L.mapM f with
      | error e => rfl
      | ok xs => rfl

omit hl hu in
/-- what the hard sphere functional for pure components computes on a grid -/
theorem pureFmt_grid (w : FMTVersion) (T : ℝ) (dim : ℕ) (G : List (ProfileAt 1)) :
    pureFmtAssocFunctional p w T (G.map fun g => (pureFmtWeightFunctions p T).rows dim g.values)
      = if G.any (fun g => F64.lt (1.0 : ℝ) (g.n3 p T)) then .ok (.error (.iterationFailed "PureFMTAssocFunctional"))
        else (G.mapM fun g => pureFmtAssocPoint p w T (g.n2 p T 0) (g.n3 p T)
          ((List.range dim).map fun d => g.n2v p T d 0)).map Except.ok := by
  unfold pureFmtAssocFunctional
  have hdec : (G.map fun g => (pureFmtWeightFunctions p T).rows dim g.values).mapM (fun wd => do
      let n2 ← rowAt wd 0
      let n3 ← rowAt wd 1
      Except.ok (n2, n3, wd.drop 2))
      = (.ok (G.map fun g => (g.n2 p T 0, g.n3 p T, (List.range dim).map fun d => g.n2v p T d 0))
          : Except Panic (List (ℝ × ℝ × List ℝ))) := by
    rw [List.mapM_map]
    apply mapM_total
    intro g _
    simp only [Function.comp, pureFmt_profile_rows]
    rfl
  rw [hdec]
  simp only [Bind.bind, Except.bind, List.any_map, Function.comp_def, re_real]
  split_ifs
  · rfl
  · rw [List.mapM_map]
    simp only [Function.comp_def]
    cases (G.mapM fun g => pureFmtAssocPoint p w T (g.n2 p T 0) (g.n3 p T)
          ((List.range dim).map fun d => g.n2v p T d 0)) <;> rfl

/-- C124, hard spheres and association of pure components: described in other units, this part of the functional has the
same values on every grid of an inhomogeneous fluid, converted as numbers per volume, for every version of fundamental
measure theory (and it fails in the same cases). -/
theorem C124_pure_spheres (k : Fin 1 → Fin 1 → ℝ) (w : FMTVersion) (T : ℝ) (dim : ℕ) (G : List (ProfileAt 1))
    (hm : 0 < (pr 0).model_record.m) (hd : 0 < segmentDiameter (fromRecords pr k) T 0)
    (hs : ∀ g ∈ G, (fromRecords pr k).nassoc = 1 →
      (g.meanOnSphere (segmentDiameter (fromRecords pr k) T 0 / 2) 0 < N0_CUTOFF
        ↔ g.meanOnSphere (segmentDiameter (fromRecords pr k) T 0 / 2) 0 / l ^ 3 < N0_CUTOFF)) :
    let p := fromRecords pr k
    let p' := fromRecords (fun i => inUnits l u (pr i)) k
    pureFmtAssocFunctional p' w (u * T) (G.map fun g => (pureFmtWeightFunctions p' (u * T)).rows dim (g.inUnits l).values)
      = (pureFmtAssocFunctional p w T (G.map fun g => (pureFmtWeightFunctions p T).rows dim g.values)).map
          (Except.map (List.map (· / l ^ 3))) := by
  intro p p'
  have e : p' = p.rescale l u (fun i => inUnits l u (pr i)) := fromRecords_inUnits hl hu pr k
  have h2 : l * segmentDiameter p T 0 / 2 / l = segmentDiameter p T 0 / 2 := by field_simp
  have hg := pureFmt_grid p' w (u * T) dim (G.map (ProfileAt.inUnits l))
  rw [List.map_map] at hg
  refine hg.trans ?_
  rw [pureFmt_grid p w T dim G, List.any_map, List.mapM_map]
  have e3 : ∀ g : ProfileAt 1, (g.inUnits l).n3 p' (u * T) = g.n3 p T := by
    intro g
    simp only [e, ProfileAt.n3, ProfileAt.inUnits, Fin.sum_univ_one, segmentDiameter_rescale hu, h2]
    rfl
  have e2 : ∀ g : ProfileAt 1, (g.inUnits l).n2 p' (u * T) 0 = g.n2 p T 0 / l := by
    intro g
    simp only [e, ProfileAt.n2, ProfileAt.inUnits, segmentDiameter_rescale hu, h2]
    rw [← mul_div_assoc]
    rfl
  have ev : ∀ (g : ProfileAt 1) d, (g.inUnits l).n2v p' (u * T) d 0 = g.n2v p T d 0 / l := by
    intro g d
    simp only [e, ProfileAt.n2v, ProfileAt.inUnits, segmentDiameter_rescale hu, h2]
    rw [← mul_div_assoc]
    rfl
  simp only [Function.comp_def, e3, e2, ev]
  split_ifs
  · rfl
  · rw [mapM_units (fun g : ProfileAt 1 => pureFmtAssocPoint p w T (g.n2 p T 0) (g.n3 p T)
          ((List.range dim).map fun d => g.n2v p T d 0)) _ (· / l ^ 3) G fun g hg => ?_]
    · cases (G.mapM fun g => pureFmtAssocPoint p w T (g.n2 p T 0) (g.n3 p T)
          ((List.range dim).map fun d => g.n2v p T d 0)) <;> rfl
    · have hpt := pureFmtPoint_rescale hl hu (fun i => inUnits l u (pr i)) p w T (g.n2 p T 0) (g.n3 p T)
        ((List.range dim).map fun d => g.n2v p T d 0) (fun ha => by
          have hs := hs g hg ha
          have hpi := Real.pi_pos
          have h4 : (4.0 : ℝ) = 4 := by norm_num
          have hm' : 0 < p.m 0 := hm
          rw [radius_eq p T 0, h4, pi_real]
          have hR : 0 < segmentDiameter p T 0 / 2 := half_pos hd
          change (g.sphere (segmentDiameter p T 0 / 2) 0 / (4 * Real.pi * (segmentDiameter p T 0 / 2) ^ 2) < N0_CUTOFF
            ↔ g.sphere (segmentDiameter p T 0 / 2) 0 / (4 * Real.pi * (segmentDiameter p T 0 / 2) ^ 2) / l ^ 3 < N0_CUTOFF) at hs
          unfold ProfileAt.n2
          generalize g.sphere (segmentDiameter p T 0 / 2) 0 = x at hs ⊢
          generalize segmentDiameter p T 0 / 2 = R at hs hR ⊢
          generalize p.m 0 = m at hm' ⊢
          generalize (N0_CUTOFF : ℝ) = N at hs ⊢
          rw [div_lt_iff₀ (by positivity), div_div, div_lt_iff₀ (by positivity)] at hs
          have a1 : m * x < N * 4 * Real.pi * m * R ^ 2 ↔ x < N * (4 * Real.pi * R ^ 2) := by
            rw [show N * 4 * Real.pi * m * R ^ 2 = m * (N * (4 * Real.pi * R ^ 2)) by ring]
            exact mul_lt_mul_iff_right₀ hm'
          have a2 : m * x / l < N * 4 * Real.pi * m * (l * R) ^ 2 ↔ x < N * (4 * Real.pi * R ^ 2 * l ^ 3) := by
            rw [div_lt_iff₀ hl, show N * 4 * Real.pi * m * (l * R) ^ 2 * l = m * (N * (4 * Real.pi * R ^ 2 * l ^ 3)) by ring]
            exact mul_lt_mul_iff_right₀ hm'
          rw [a1, a2]
          exact hs)
      rw [List.map_map] at hpt
      rw [e]
      exact hpt

omit hl hu in
theorem pureAtt_profile (p : PcSaftParameters 1 ℝ) (psi T : ℝ) (dim : ℕ) (g : ProfileAt 1) :
    (pureAttWeightFunctions p psi T).rows dim g.values
      = [(shapeIntegral .Theta (hsDiameter p T 0 * psi))⁻¹ * g.ball (hsDiameter p T 0 * psi) 0] := by
  simp [pureAttWeightFunctions, WeightFunctionInfo.rows, WeightFunctionInfo.add, WeightFunctionInfo.new,
    WeightFunction.newScaled, ProfileAt.values, ProfileAt.weighted, recip_real, c]

/-- C124, attraction of pure components: described in other units, the dispersion and polar part of the functional has the
same value at every point of an inhomogeneous fluid, converted as a number per volume. -/
theorem C124_pure_attraction (k : Fin 1 → Fin 1 → ℝ) (psi T : ℝ) (dim : ℕ) (g : ProfileAt 1) :
    let p := fromRecords pr k
    let p' := fromRecords (fun i => inUnits l u (pr i)) k
    pureAttFunctional p' (u * T) ((pureAttWeightFunctions p' psi (u * T)).rows dim (g.inUnits l).values)
      = (pureAttFunctional p T ((pureAttWeightFunctions p psi T).rows dim g.values)).map (· / l ^ 3) := by
  intro p p'
  have e : p' = p.rescale l u (fun i => inUnits l u (pr i)) := fromRecords_inUnits hl hu pr k
  rw [pureAtt_profile, pureAtt_profile, e]
  have hw : (shapeIntegral .Theta (hsDiameter (p.rescale l u fun i => inUnits l u (pr i)) (u * T) 0 * psi))⁻¹
        * (g.inUnits l).ball (hsDiameter (p.rescale l u fun i => inUnits l u (pr i)) (u * T) 0 * psi) 0
      = ((shapeIntegral .Theta (hsDiameter p T 0 * psi))⁻¹ * g.ball (hsDiameter p T 0 * psi) 0) / l ^ 3 := by
    rw [hsDiameter_rescale hu]
    simp only [shapeIntegral, dpowi_real, c, ofF_real, ProfileAt.inUnits]
    rw [show l * hsDiameter p T 0 * psi / l = hsDiameter p T 0 * psi by field_simp, mul_assoc l]
    exact inv_units _ _ _ _
  rw [hw]
  simp only [pureAttFunctional, rowAt, List.getElem?_cons_zero, Bind.bind, Except.bind, pureDispersion_rescale hl hu,
    pureDipole_rescale hl hu, pureQuadrupole_rescale hl hu, Except.map]
  rw [show (p.rescale l u fun i => inUnits l u (pr i)).ndipole = p.ndipole from rfl,
    show (p.rescale l u fun i => inUnits l u (pr i)).nquadpole = p.nquadpole from rfl]
  congr 1
  split_ifs <;> simp only [← add_div]

/-- C124, chains of pure components: described in other units, the bonds of an inhomogeneous fluid (the chain part of the
functional and the bonds of ideal chains) have the same Helmholtz energy density, converted as a number per volume, up to
the effect of the regularisation of the logarithm. -/
theorem C124_pure_chains (k : Fin 1 → Fin 1 → ℝ) (hm : Molecules (fromRecords pr k)) (T : ℝ) (hT : 0 < T) (dim : ℕ)
    (g : ProfileAt 1) (hrho : 0 ≤ g.density 0) (hball : 0 ≤ g.ball (segmentDiameter (fromRecords pr k) T 0) 0)
    (hsph : g.density 0 ≠ 0 → 0 < g.sphere (segmentDiameter (fromRecords pr k) T 0) 0)
    (heta : (pr 0).model_record.m / 8 * g.ball (segmentDiameter (fromRecords pr k) T 0) 0 < 1) :
    let p := fromRecords pr k
    let p' := fromRecords (fun i => inUnits l u (pr i)) k
    ∃ phi phi', pureChainFunctional p ((pureChainWeightFunctions p T).rows dim g.values) = .ok phi
      ∧ pureChainFunctional p' ((pureChainWeightFunctions p' (u * T)).rows dim (g.inUnits l).values) = .ok phi'
      ∧ |l ^ 3 * (phi' + idealBonds p'.m (g.inUnits l).density) - (phi + idealBonds p.m g.density)|
        ≤ |p.m 0 - 1| * g.density 0 * (f64EPSILON * |1 - l ^ 3| / g.meanOnSphere (segmentDiameter p T 0) 0) := by
  intro p p'
  have e : p' = p.rescale l u (fun i => inUnits l u (pr i)) := fromRecords_inUnits hl hu pr k
  have hd : 0 < segmentDiameter p T 0 := by
    have := hm.diameter_pos hT 0
    rwa [hsDiameter_eq_spec] at this
  have hm' : Molecules p' := by
    rw [e]
    exact ⟨hm.m_pos, fun i => mul_pos hl (hm.sigma_pos i), fun i => mul_nonneg hu.le (hm.epsilon_nonneg i)⟩
  have h0 : ∀ {P : Fin 1 → Prop}, P 0 → ∀ i, P i := fun h i => by rwa [Subsingleton.elim i 0]
  obtain ⟨phi, phi', h1, h2, h3⟩ := C124_chains hl hu pr k T dim g (h0 (hm.m_pos 0).le) (h0 hd) (h0 hrho) (h0 hball) (h0 hsph)
    (by rw [Fin.sum_univ_one]; exact heta)
  rw [Fin.sum_univ_one] at h3
  refine ⟨phi, phi', ?_, ?_, h3⟩
  · rw [← h1]
    exact C83_chain p hm T hT dim g heta
  · rw [← h2]
    refine C83_chain p' hm' (u * T) (mul_pos hu hT) dim (g.inUnits l) ?_
    rw [e, segmentDiameter_rescale hu]
    change p.m 0 / 8 * g.ball (l * segmentDiameter p T 0 / l) 0 < 1
    rw [mul_div_cancel_left₀ _ hl.ne']
    exact heta

end

/-! ## Examples: a pure component that associates, and one with chains -/

theorem pureUnits_molecules (j : Fin 2) : Molecules (fromRecords (fun _ : Fin 1 => assocRecords j) (fun _ _ => 0)) where
  m_pos := fun _ => by fin_cases j <;> norm_num [assocRecords, fromRecords]
  sigma_pos := fun _ => by fin_cases j <;> norm_num [assocRecords, fromRecords]
  epsilon_nonneg := fun _ => by fin_cases j <;> norm_num [assocRecords, fromRecords]

theorem pureUnits_diameter (j : Fin 2) :
    0 < segmentDiameter (fromRecords (fun _ : Fin 1 => assocRecords j) (fun _ _ => 0)) 300 0 := by
  have := (pureUnits_molecules j).diameter_pos (T := 300) (by norm_num) 0
  rwa [hsDiameter_eq_spec] at this

example (w : FMTVersion) (dim : ℕ) := C124_pure_spheres (l := 1 / 10) (u := 1000) (by norm_num) (by norm_num)
  (fun _ : Fin 1 => assocRecords 0) (fun _ _ => 0) w 300 dim [tiltProfile 1]
  ((pureUnits_molecules 0).m_pos 0) (pureUnits_diameter 0) (fun g hg _ => by
    rw [List.mem_singleton.1 hg, tilt_sphere (half_pos (pureUnits_diameter 0)) 0]
    exact below_both (by positivity) (tilt_cutoff 0))

example (dim : ℕ) (g : ProfileAt 1) := C124_pure_attraction (l := 1 / 10) (u := 1000) (by norm_num) (by norm_num)
  (fun _ : Fin 1 => assocRecords 1) (fun _ _ => 0) PSI_DFT 300 dim g

example (dim : ℕ) := C124_pure_chains (l := 1 / 10) (u := 1000) (by norm_num) (by norm_num)
  (fun _ : Fin 1 => assocRecords 1) (fun _ _ => 0) (pureUnits_molecules 1) 300 (by norm_num) dim (tiltProfile 1)
  (by
    change (0 : ℝ) ≤ (((0 : Fin 1) : ℕ) + 1) / 1000
    positivity)
  (by
    have := pureUnits_diameter 1
    have := Real.pi_pos
    change 0 ≤ 4 / 3 * Real.pi * _ ^ 3 * ((((0 : Fin 1) : ℕ) + 1 : ℝ) / 1000)
    positivity)
  (fun _ => by
    have := pureUnits_diameter 1
    have := Real.pi_pos
    change 0 < 4 * Real.pi * _ ^ 2 * ((((0 : Fin 1) : ℕ) + 1 : ℝ) / 1000)
    positivity)
  (by
    have h := pow_le_pow_left₀ (assocRecords_diameter 1).le (assocRecords_diameter_lt 1) 3
    have hpi := Real.pi_pos
    have k := mul_le_mul Real.pi_le_four h (pow_nonneg (assocRecords_diameter 1).le 3) (by norm_num)
    have e1 : (assocRecords 1).model_record.m = 2 := by norm_num [assocRecords]
    change (assocRecords 1).model_record.m / 8 * (4 / 3 * Real.pi
      * segmentDiameter (fromRecords assocRecords (fun _ _ => 0)) 300 1 ^ 3 * ((((0 : Fin 1) : ℕ) + 1 : ℝ) / 1000)) < 1
    rw [e1]
    norm_num at *
    linarith)

end PcSaft.Props
