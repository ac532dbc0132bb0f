import Verif.Lemmas.RepSmooth
import Verif.Props.Derivatives
import Verif.Props.Mixture

/-!
# Thermodynamic consistency of the automatic derivatives (C68, C69, C70)
-/

open Filter Topology PcSaft.Spec
open scoped ContDiff

namespace PcSaft.Props
variable {n : ℕ} {pr : Fin n → PureRecord ℝ} {k : Fin n → Fin n → ℝ} {o : PcSaftOptions ℝ}

/-! ## C68: smoothness -/

/-- The residual Helmholtz energy, as a function of temperature, volume and mole numbers, is a real analytic
function near every admissible regular state. -/
theorem C68_residual_analytic (la : LinAlg ℝ ℝ) {T V : ℝ} {N : Fin n → ℝ}
    (h : Admissible (fromRecords pr k) T V N)
    (hr : ∀ ct ∈ buildContributions (fromRecords pr k) o, Regular (fromRecords pr k) T V N ct) :
    ∃ A : ℝ × ℝ × (Fin n → ℝ) → ℝ,
      (∀ x, (Eos.withOptions (fromRecords pr k) o).residualHelmholtz la (StateHD.new x.1 x.2.1 x.2.2) = .ok (A x))
      ∧ AnalyticAt ℝ A (T, V, N) := by
  obtain ⟨A, d, h1, h2, h3⟩ := rep_residual (g := fun x => x) lawfulEmb_id (ParamRel.refl (fromRecords pr k))
    (ρ := repSmooth (E := ℝ × ℝ × (Fin n → ℝ)) (T, V, N)) (T := fun x => x.1) (V := fun x => x.2.1)
    (N := fun i x => x.2.2 i) ⟨contDiffAt_fst, rfl⟩ ⟨contDiffAt_fst.comp _ contDiffAt_snd, rfl⟩
    (fun i => ⟨(contDiff_apply ℝ ℝ i).contDiffAt.comp _ (contDiffAt_snd.comp _ contDiffAt_snd), rfl⟩) h o la la hr
  exact ⟨A, h1, h3.1.analyticAt⟩

/-! ## Values of the code as directional derivatives -/

/-- any linear algebra will do for states without cross association -/
noncomputable def noSolver : LinAlg ℝ ℝ := ⟨fun _ _ _ => none, fun _ _ _ => none, 0⟩

/-- a state with the directions of one infinitesimal step -/
noncomputable def seed1 (T Tu V Vu : ℝ) (N Nu : Fin n → ℝ) : StateHD n (Dual ℝ) :=
  StateHD.new ⟨T, Tu⟩ ⟨V, Vu⟩ (fun i => ⟨N i, Nu i⟩)

/-- a state with the directions of two infinitesimal steps -/
noncomputable def seed2 (T Tu Tw V Vu Vw : ℝ) (N Nu Nw : Fin n → ℝ) : StateHD n (Dual (Dual ℝ)) :=
  StateHD.new ⟨⟨T, Tu⟩, ⟨Tw, 0⟩⟩ ⟨⟨V, Vu⟩, ⟨Vw, 0⟩⟩ (fun i => ⟨⟨N i, Nu i⟩, ⟨Nw i, 0⟩⟩)

theorem residual_seed1 {A : ℝ × ℝ × (Fin n → ℝ) → ℝ} {T V : ℝ} {N : Fin n → ℝ}
    (h : Admissible (fromRecords pr k) T V N)
    (hr : ∀ ct ∈ buildContributions (fromRecords pr k) o, Regular (fromRecords pr k) T V N ct)
    {la : LinAlg ℝ ℝ} (hA : ∀ x, (Eos.withOptions (fromRecords pr k) o).residualHelmholtz la
      (StateHD.new x.1 x.2.1 x.2.2) = .ok (A x)) (hd : DifferentiableAt ℝ A (T, V, N)) (laD : LinAlg ℝ (Dual ℝ))
    (Tu Vu : ℝ) (Nu : Fin n → ℝ) :
    (Eos.withOptions (fromRecords pr k) o).residualHelmholtz laD (seed1 T Tu V Vu N Nu)
      = .ok ⟨A (T, V, N), fderiv ℝ A (T, V, N) (Tu, Vu, Nu)⟩ := by
  have key := C53_residual_along_curve la laD (o := o) (T := fun t => T + t * Tu) (V := fun t => V + t * Vu)
    (N := fun i t => N i + t * Nu i) (T' := Tu) (V' := Vu) (N' := Nu) (t0 := 0)
    (by simpa using ((hasDerivAt_id (0 : ℝ)).mul_const Tu).const_add T)
    (by simpa using ((hasDerivAt_id (0 : ℝ)).mul_const Vu).const_add V)
    (fun i => by simpa using ((hasDerivAt_id (0 : ℝ)).mul_const (Nu i)).const_add (N i))
    (by simpa using h) (by simpa using hr)
  obtain ⟨B, d, h1, h2, h3, h4⟩ := key
  have e : B = fun t : ℝ => A ((T, V, N) + t • (Tu, Vu, Nu)) := by
    funext t
    have := (h1 t).symm.trans (hA ((T, V, N) + t • (Tu, Vu, Nu)))
    exact Except.ok.inj this
  rw [e] at h3 h4
  simp only [zero_smul, add_zero] at h3
  have e2 := h4.unique (hasDerivAt_line hd)
  simp only [zero_mul, add_zero] at h2
  unfold seed1
  rw [h2, ← e2, ← h3]

theorem residual_seed2 {A : ℝ × ℝ × (Fin n → ℝ) → ℝ} {T V : ℝ} {N : Fin n → ℝ}
    (h : Admissible (fromRecords pr k) T V N)
    (hr : ∀ ct ∈ buildContributions (fromRecords pr k) o, Regular (fromRecords pr k) T V N ct)
    {la : LinAlg ℝ ℝ} (hA : ∀ x, (Eos.withOptions (fromRecords pr k) o).residualHelmholtz la
      (StateHD.new x.1 x.2.1 x.2.2) = .ok (A x)) (hd : AnalyticAt ℝ A (T, V, N)) (laD : LinAlg ℝ (Dual (Dual ℝ)))
    (Tu Tw Vu Vw : ℝ) (Nu Nw : Fin n → ℝ) :
    (Eos.withOptions (fromRecords pr k) o).residualHelmholtz laD (seed2 T Tu Tw V Vu Vw N Nu Nw)
      = .ok ⟨⟨A (T, V, N), fderiv ℝ A (T, V, N) (Tu, Vu, Nu)⟩, ⟨fderiv ℝ A (T, V, N) (Tw, Vw, Nw),
        fderiv ℝ (fderiv ℝ A) (T, V, N) (Tu, Vu, Nu) (Tw, Vw, Nw)⟩⟩ := by
  obtain ⟨B, d, h1, h2, h3, h4⟩ := C53_second_order la laD (o := o) Tu Tw Vu Vw Nu Nw h hr
  have e : B = fun s t : ℝ => A ((T, V, N) + s • (Tu, Vu, Nu) + t • (Tw, Vw, Nw)) := by
    funext s t
    have := (h1 s t).symm.trans (hA ((T, V, N) + s • (Tu, Vu, Nu) + t • (Tw, Vw, Nw)))
    exact Except.ok.inj this
  rw [e] at h3 h4
  rw [deriv_deriv_line hd.contDiffAt] at h4
  obtain ⟨⟨j1, j2⟩, A', j3, j4, j5⟩ := h3
  simp only [zero_smul, add_zero] at j1 j2
  have e1 := j2.unique (hasDerivAt_line hd.differentiableAt)
  have j6 := j3.self_of_nhds
  simp only [zero_smul, add_zero] at j6
  have e2 := j6.unique (hasDerivAt_line hd.differentiableAt)
  unfold seed2
  rw [h2, ← e1, ← h4, ← e2, ← j4, ← j1]

/-! ## C69: the order of differentiation -/

/-- Maxwell relations: two evaluations with the two directions exchanged give the same value, the same two
first derivatives and the same mixed second derivative. -/
theorem C69_maxwell (laD laD' : LinAlg ℝ (Dual (Dual ℝ))) {T V : ℝ} {N : Fin n → ℝ} (Tu Tw Vu Vw : ℝ)
    (Nu Nw : Fin n → ℝ) (h : Admissible (fromRecords pr k) T V N)
    (hr : ∀ ct ∈ buildContributions (fromRecords pr k) o, Regular (fromRecords pr k) T V N ct) :
    ∃ d d' : Dual (Dual ℝ),
      (Eos.withOptions (fromRecords pr k) o).residualHelmholtz laD (seed2 T Tu Tw V Vu Vw N Nu Nw) = .ok d
      ∧ (Eos.withOptions (fromRecords pr k) o).residualHelmholtz laD' (seed2 T Tw Tu V Vw Vu N Nw Nu) = .ok d'
      ∧ d.re.re = d'.re.re ∧ d.re.eps = d'.eps.re ∧ d.eps.re = d'.re.eps ∧ d.eps.eps = d'.eps.eps := by
  obtain ⟨A, h1, h2⟩ := C68_residual_analytic noSolver h hr
  exact ⟨_, _, residual_seed2 h hr h1 h2 laD Tu Tw Vu Vw Nu Nw, residual_seed2 h hr h1 h2 laD' Tw Tu Vw Vu Nw Nu,
    rfl, rfl, rfl, second_symm h2.contDiffAt _ _⟩

/-! ## C70: linearity, Euler relation, Gibbs-Duhem relation -/

/-- direction of one component -/
noncomputable def unit (j : Fin n) : Fin n → ℝ := fun i => if i = j then 1 else 0

/-- The derivative in any direction is the combination of the derivatives with respect to temperature, volume
and the mole numbers, each from an evaluation of its own. -/
theorem C70_directional (laD : LinAlg ℝ (Dual ℝ)) {T V : ℝ} {N : Fin n → ℝ} (Tu Vu : ℝ) (Nu : Fin n → ℝ)
    (h : Admissible (fromRecords pr k) T V N)
    (hr : ∀ ct ∈ buildContributions (fromRecords pr k) o, Regular (fromRecords pr k) T V N ct) :
    ∃ (d dT dV : Dual ℝ) (dN : Fin n → Dual ℝ),
      (Eos.withOptions (fromRecords pr k) o).residualHelmholtz laD (seed1 T Tu V Vu N Nu) = .ok d
      ∧ (Eos.withOptions (fromRecords pr k) o).residualHelmholtz laD (seed1 T 1 V 0 N 0) = .ok dT
      ∧ (Eos.withOptions (fromRecords pr k) o).residualHelmholtz laD (seed1 T 0 V 1 N 0) = .ok dV
      ∧ (∀ j, (Eos.withOptions (fromRecords pr k) o).residualHelmholtz laD (seed1 T 0 V 0 N (unit j)) = .ok (dN j))
      ∧ d.eps = Tu * dT.eps + Vu * dV.eps + ∑ j, Nu j * (dN j).eps := by
  obtain ⟨A, h1, h2⟩ := C68_residual_analytic noSolver h hr
  have e := fun Tu Vu Nu => residual_seed1 h hr h1 h2.differentiableAt laD Tu Vu Nu
  refine ⟨_, _, _, _, e Tu Vu Nu, e 1 0 0, e 0 1 0, fun j => e 0 0 (unit j), ?_⟩
  have hdir : ((Tu, Vu, Nu) : ℝ × ℝ × (Fin n → ℝ))
      = Tu • (1, 0, 0) + Vu • (0, 1, 0) + ∑ j, Nu j • ((0, 0, unit j) : ℝ × ℝ × (Fin n → ℝ)) := by
    have hs : ∑ j, Nu j • ((0, 0, unit j) : ℝ × ℝ × (Fin n → ℝ)) = (0, 0, Nu) := by
      refine Prod.ext ?_ (Prod.ext ?_ ?_)
      · simp [Prod.fst_sum]
      · simp [Prod.snd_sum, Prod.fst_sum]
      · funext i
        simp [Prod.snd_sum, unit]
    rw [hs]
    simp
  rw [hdir, map_add, map_add, map_sum, map_smul, map_smul]
  simp only [map_smul, smul_eq_mul]

/-- Euler relation: `A = Σ N_i μ_i - p V` holds between the value and the derivatives of the residual
Helmholtz energy (`μ_i` and `-p` from evaluations with dual numbers). -/
theorem C70_euler (la : LinAlg ℝ ℝ) (laD : LinAlg ℝ (Dual ℝ)) {T V : ℝ} {N : Fin n → ℝ}
    (h : Admissible (fromRecords pr k) T V N)
    (hr : ∀ ct ∈ buildContributions (fromRecords pr k) o, Regular (fromRecords pr k) T V N ct) :
    ∃ (a : ℝ) (dV : Dual ℝ) (dN : Fin n → Dual ℝ),
      (Eos.withOptions (fromRecords pr k) o).residualHelmholtz la (StateHD.new T V N) = .ok a
      ∧ (Eos.withOptions (fromRecords pr k) o).residualHelmholtz laD (seed1 T 0 V 1 N 0) = .ok dV
      ∧ (∀ j, (Eos.withOptions (fromRecords pr k) o).residualHelmholtz laD (seed1 T 0 V 0 N (unit j)) = .ok (dN j))
      ∧ a = ∑ j, N j * (dN j).eps - (-dV.eps) * V := by
  obtain ⟨A, h1, h2⟩ := C68_residual_analytic la h hr
  obtain ⟨d, dT, dV, dN, g1, g2, g3, g4, g5⟩ := C70_directional laD (o := o) 0 V N h hr
  refine ⟨A (T, V, N), dV, dN, h1 (T, V, N), g3, g4, ?_⟩
  rw [residual_seed1 h hr h1 h2.differentiableAt laD 0 V N] at g1
  obtain rfl := Except.ok.inj g1
  have hline : ∀ᶠ t : ℝ in 𝓝 0, A ((T, V, N) + t • (0, V, N)) = (1 + t) * A (T, V, N) := by
    filter_upwards [lt_mem_nhds (show (-1 : ℝ) < 0 by norm_num)] with t ht
    have hx : ((T, V, N) + t • (0, V, N) : ℝ × ℝ × (Fin n → ℝ)) = (T, (1 + t) * V, fun i => (1 + t) * N i) := by
      refine Prod.ext ?_ (Prod.ext ?_ ?_)
      · simp
      · simp; ring
      · funext i
        simp
        ring
    rw [hx]
    have := C14_residual_extensive la (Eos.withOptions (fromRecords pr k) o) T V N (1 + t) (by linarith)
    rw [h1 (T, (1 + t) * V, fun i => (1 + t) * N i), h1 (T, V, N)] at this
    exact Except.ok.inj this
  have hd : HasDerivAt (fun t : ℝ => (1 + t) * A (T, V, N)) (A (T, V, N)) 0 := by
    simpa using ((hasDerivAt_id (0 : ℝ)).const_add 1).mul_const (A (T, V, N))
  have := (hasDerivAt_line h2.differentiableAt).unique (hd.congr_of_eventuallyEq hline)
  simp only at g5
  rw [this] at g5
  linarith

/-- Gibbs-Duhem relation: the second derivative with respect to the size of the system (volume and mole
numbers growing in proportion) and any other direction is the temperature part of that direction times
`∂A/∂T`. With the second direction at constant temperature it vanishes: the intensive quantities `p` and `μ_i`
do not depend on the size of the system. -/
theorem C70_gibbs_duhem (laD : LinAlg ℝ (Dual ℝ)) (laD2 : LinAlg ℝ (Dual (Dual ℝ))) {T V : ℝ} {N : Fin n → ℝ}
    (Tw Vw : ℝ) (Nw : Fin n → ℝ) (h : Admissible (fromRecords pr k) T V N)
    (hr : ∀ ct ∈ buildContributions (fromRecords pr k) o, Regular (fromRecords pr k) T V N ct) :
    ∃ (d : Dual (Dual ℝ)) (dT : Dual ℝ),
      (Eos.withOptions (fromRecords pr k) o).residualHelmholtz laD2 (seed2 T 0 Tw V V Vw N N Nw) = .ok d
      ∧ (Eos.withOptions (fromRecords pr k) o).residualHelmholtz laD (seed1 T 1 V 0 N 0) = .ok dT
      ∧ d.eps.eps = Tw * dT.eps := by
  obtain ⟨A, h1, h2⟩ := C68_residual_analytic noSolver h hr
  refine ⟨_, _, residual_seed2 h hr h1 h2 laD2 0 Tw V Vw N Nw, residual_seed1 h hr h1 h2.differentiableAt laD 1 0 0, ?_⟩
  simp only
  rw [← deriv_deriv_line h2.contDiffAt]
  set L := fderiv ℝ A (T, V, N) with hL
  have hscale : ∀ (l : ℝ) (x : ℝ × ℝ × (Fin n → ℝ)), 0 < l →
      A (x.1, l * x.2.1, fun i => l * x.2.2 i) = l * A x := by
    intro l x hl
    have := C14_residual_extensive noSolver (Eos.withOptions (fromRecords pr k) o) x.1 x.2.1 x.2.2 l hl
    rw [h1 (x.1, l * x.2.1, fun i => l * x.2.2 i), h1 x] at this
    exact Except.ok.inj this
  have hinner : ∀ s : ℝ, -1 < s → deriv (fun t : ℝ => A ((T, V, N) + s • (0, V, N) + t • (Tw, Vw, Nw))) 0
      = (1 + s) * L (Tw, 0, 0) + L (0, Vw, Nw) := by
    intro s hs
    have hs' : (1 + s) ≠ 0 := by linarith
    have e : (fun t : ℝ => A ((T, V, N) + s • (0, V, N) + t • (Tw, Vw, Nw)))
        = fun t => (1 + s) * A ((T, V, N) + t • (Tw, (1 + s)⁻¹ * Vw, fun i => (1 + s)⁻¹ * Nw i)) := by
      funext t
      rw [← hscale (1 + s) _ (by linarith)]
      congr 1
      refine Prod.ext ?_ (Prod.ext ?_ ?_)
      · simp
      · simp
        field_simp
      · funext i
        simp
        field_simp
    rw [e, ((hasDerivAt_line h2.differentiableAt).const_mul (1 + s)).deriv, ← hL]
    have hdir : ((Tw, (1 + s)⁻¹ * Vw, fun i => (1 + s)⁻¹ * Nw i) : ℝ × ℝ × (Fin n → ℝ))
        = (Tw, 0, 0) + (1 + s)⁻¹ • (0, Vw, Nw) := by
      refine Prod.ext ?_ (Prod.ext ?_ ?_)
      · simp
      · simp
      · funext i
        simp
    rw [hdir, map_add, map_smul, smul_eq_mul]
    field_simp
  have hev : (fun s : ℝ => deriv (fun t : ℝ => A ((T, V, N) + s • (0, V, N) + t • (Tw, Vw, Nw))) 0)
      =ᶠ[𝓝 0] fun s => (1 + s) * L (Tw, 0, 0) + L (0, Vw, Nw) := by
    filter_upwards [lt_mem_nhds (show (-1 : ℝ) < 0 by norm_num)] with s hs
    exact hinner s hs
  have hd : HasDerivAt (fun s : ℝ => (1 + s) * L (Tw, 0, 0) + L (0, Vw, Nw)) (L (Tw, 0, 0)) 0 := by
    simpa using (((hasDerivAt_id (0 : ℝ)).const_add 1).mul_const (L (Tw, 0, 0))).add_const (L (0, Vw, Nw))
  rw [hev.deriv_eq, hd.deriv]
  have : ((Tw, 0, 0) : ℝ × ℝ × (Fin n → ℝ)) = Tw • (1, 0, 0) := by simp
  rw [this, map_smul, smul_eq_mul]

/-! ## Non-vacuity: a mixture of an associating and a non-associating component -/

example (o : PcSaftOptions ℝ) : ∃ A : ℝ × ℝ × (Fin 2 → ℝ) → ℝ,
    (∀ x, (Eos.withOptions (fromRecords assocRecords (fun _ _ => 0)) o).residualHelmholtz noSolver
      (StateHD.new x.1 x.2.1 x.2.2) = .ok (A x)) ∧ AnalyticAt ℝ A (300, 1000, fun _ => 1) :=
  C68_residual_analytic noSolver assocRecords_admissible (assocRecords_regular o)

/-- `∂²A/∂T∂V` equals `∂²A/∂V∂T` -/
example (o : PcSaftOptions ℝ) (la : LinAlg ℝ (Dual (Dual ℝ))) : ∃ d d' : Dual (Dual ℝ),
    (Eos.withOptions (fromRecords assocRecords (fun _ _ => 0)) o).residualHelmholtz la
      (seed2 300 1 0 1000 0 1 (fun _ => 1) 0 0) = .ok d
    ∧ (Eos.withOptions (fromRecords assocRecords (fun _ _ => 0)) o).residualHelmholtz la
      (seed2 300 0 1 1000 1 0 (fun _ => 1) 0 0) = .ok d' ∧ d.eps.eps = d'.eps.eps := by
  obtain ⟨d, d', h1, h2, -, -, -, h3⟩ := C69_maxwell la la (o := o) 1 0 0 1 0 0 assocRecords_admissible
    (assocRecords_regular o)
  exact ⟨d, d', h1, h2, h3⟩

example (o : PcSaftOptions ℝ) (la : LinAlg ℝ (Dual ℝ)) : ∃ (a : ℝ) (dV : Dual ℝ) (dN : Fin 2 → Dual ℝ),
    (Eos.withOptions (fromRecords assocRecords (fun _ _ => 0)) o).residualHelmholtz noSolver
      (StateHD.new 300 1000 (fun _ => 1)) = .ok a
    ∧ (Eos.withOptions (fromRecords assocRecords (fun _ _ => 0)) o).residualHelmholtz la
      (seed1 300 0 1000 1 (fun _ => 1) 0) = .ok dV
    ∧ a = (dN 0).eps + (dN 1).eps - (-dV.eps) * 1000 := by
  obtain ⟨a, dV, dN, h1, h2, -, h4⟩ := C70_euler noSolver la (o := o) assocRecords_admissible
    (assocRecords_regular o)
  exact ⟨a, dV, dN, h1, h2, by simpa [Fin.sum_univ_two] using h4⟩

end PcSaft.Props
