import Verif.Lemmas.DiluteCalculus

/-!
# Second derivatives of functions of the inverse volume that vanish to second order
-/

open Filter Topology
open scoped ContDiff

namespace PcSaft
section
variable {E : Type} [NormedAddCommGroup E] [NormedSpace ℝ E] {F : ℝ × E → ℝ} {y0 : E}

theorem Dilute.eventually (h : Dilute F y0) : ∀ᶠ y in 𝓝 y0, Dilute F y := by
  have hy : Tendsto (fun y : E => ((0 : ℝ), y)) (𝓝 y0) (𝓝 (0, y0)) := (Continuous.prodMk_right 0).tendsto y0
  filter_upwards [hy.eventually (h.smooth.eventually (by simp)), h.zero.eventually_nhds, h.slope.eventually_nhds]
    with y h1 h2 h3
  exact ⟨h1, h2, h3⟩

/-- slopes in the other directions are zero where the inverse volume is zero -/
theorem Dilute.slope_zero (h : Dilute F y0) (η : E) : fderiv ℝ F (0, y0) (0, η) = 0 := by
  have h1 := hasDerivAt_line (x := ((0 : ℝ), y0)) (u := ((0 : ℝ), η)) (h.smooth.differentiableAt (by simp))
  have hl : Tendsto (fun s : ℝ => y0 + s • η) (𝓝 0) (𝓝 y0) := by
    have : Continuous fun s : ℝ => y0 + s • η := by fun_prop
    simpa using this.tendsto 0
  refine h1.unique ((hasDerivAt_const (0 : ℝ) (0 : ℝ)).congr_of_eventuallyEq ?_)
  filter_upwards [hl.eventually h.zero] with s hs
  simpa using hs

theorem Dilute.slope_volume (h : Dilute F y0) : fderiv ℝ F (0, y0) (1, 0) = 0 := by
  have h1 := hasDerivAt_line (x := ((0 : ℝ), y0)) (u := ((1 : ℝ), (0 : E))) (h.smooth.differentiableAt (by simp))
  refine h1.unique (h.slope.self_of_nhds.congr_of_eventuallyEq (.of_forall fun s => ?_))
  simp

/-- the derivative in one of the other directions is a function of the same kind -/
theorem Dilute.derivative (h : Dilute F y0) (η : E) : Dilute (fun x => fderiv ℝ F x (0, η)) y0 where
  smooth := (h.smooth.fderiv_right (m := ω) (by simp)).clm_apply contDiffAt_const
  zero := h.eventually.mono fun _ hy => hy.slope_zero η
  slope := by
    filter_upwards [h.eventually.eventually_nhds] with y hev
    have hy := hev.self_of_nhds
    have hd2 : DifferentiableAt ℝ (fderiv ℝ F) (0, y) :=
      (hy.smooth.fderiv_right (m := ω) (by simp)).differentiableAt (by simp)
    have hfl : ∀ e : ℝ × E, HasFDerivAt (fun x => fderiv ℝ F x e) ((fderiv ℝ (fderiv ℝ F) (0, y)).flip e) (0, y) :=
      fun e => (hd2.hasFDerivAt.clm_apply (hasFDerivAt_const e _)).congr_fderiv (by ext <;> simp)
    have h2nd : fderiv ℝ (fderiv ℝ F) (0, y) (1, 0) (0, η) = 0 := by
      rw [second_symm hy.smooth]
      have h1 := hasDerivAt_line (u := ((0 : ℝ), η)) (hfl (1, 0)).differentiableAt
      rw [(hfl (1, 0)).fderiv] at h1
      have hl : Tendsto (fun s : ℝ => y + s • η) (𝓝 0) (𝓝 y) := by
        have : Continuous fun s : ℝ => y + s • η := by fun_prop
        simpa using this.tendsto 0
      refine h1.unique ((hasDerivAt_const (0 : ℝ) (0 : ℝ)).congr_of_eventuallyEq ?_)
      filter_upwards [hl.eventually hev] with s hs
      simpa using hs.slope_volume
    have h1 : HasDerivAt (fun u : ℝ => (u, y)) ((1 : ℝ), (0 : E)) 0 := (hasDerivAt_id 0).prodMk (hasDerivAt_const _ _)
    have h2 := HasFDerivAt.comp_hasDerivAt (0 : ℝ) (f := fun u : ℝ => (u, y)) (hfl (0, η)) h1
    exact h2.congr_deriv h2nd

theorem Dilute.eventually_smooth (h : Dilute F y0) : ∀ᶠ V : ℝ in atTop, ContDiffAt ℝ ω F (1 / V, y0) := by
  have h2 : Tendsto (fun V : ℝ => ((1 / V, y0) : ℝ × E)) atTop (𝓝 (0, y0)) :=
    Tendsto.prodMk_nhds (tendsto_const_nhds.div_atTop tendsto_id) tendsto_const_nhds
  exact h2.eventually (h.smooth.eventually (by simp))

end

variable {n : ℕ} {F : ℝ × (ℝ × (Fin n → ℝ)) → ℝ} {T V : ℝ} {N : Fin n → ℝ}

/-- the energy of a state as a function of temperature, volume and amounts -/
noncomputable def diluteEnergy (F : ℝ × (ℝ × (Fin n → ℝ)) → ℝ) (x : ℝ × ℝ × (Fin n → ℝ)) : ℝ :=
  x.2.1 * F (1 / x.2.1, (x.1, x.2.2))

theorem diluteEnergy_smooth (hV : V ≠ 0) (h : ContDiffAt ℝ ω F (1 / V, (T, N))) :
    ContDiffAt ℝ ω (diluteEnergy F) (T, V, N) := by
  unfold diluteEnergy
  have h1 : ContDiffAt ℝ ω (fun x : ℝ × ℝ × (Fin n → ℝ) => x.2.1) (T, V, N) := by fun_prop
  have h2 : ContDiffAt ℝ ω (fun x : ℝ × ℝ × (Fin n → ℝ) => ((1 / x.2.1, (x.1, x.2.2)) : ℝ × (ℝ × (Fin n → ℝ))))
      (T, V, N) := by
    refine (contDiffAt_const.div h1 hV).prodMk ?_
    fun_prop
  exact h1.mul (ContDiffAt.comp (T, V, N) h h2)

theorem diluteEnergy_first (hV : V ≠ 0) (h : ContDiffAt ℝ ω F (1 / V, (T, N))) (t : ℝ) (w : Fin n → ℝ) :
    fderiv ℝ (diluteEnergy F) (T, V, N) (t, 0, w) = V * fderiv ℝ F (1 / V, (T, N)) (0, (t, w)) := by
  have h1 := hasDerivAt_line (u := (t, (0 : ℝ), w)) ((diluteEnergy_smooth hV h).differentiableAt (by simp))
  have h2 := (hasDerivAt_line (u := ((0 : ℝ), (t, w))) (h.differentiableAt (by simp))).const_mul V
  refine h1.unique (h2.congr_of_eventuallyEq (.of_forall fun s => ?_))
  simp [diluteEnergy]

theorem diluteEnergy_second (hV : V ≠ 0) (h : ContDiffAt ℝ ω F (1 / V, (T, N))) (t t' : ℝ) (w w' : Fin n → ℝ) :
    fderiv ℝ (fderiv ℝ (diluteEnergy F)) (T, V, N) (t, 0, w) (t', 0, w')
      = V * fderiv ℝ (fun x => fderiv ℝ F x (0, (t', w'))) (1 / V, (T, N)) (0, (t, w)) := by
  have hd2 : DifferentiableAt ℝ (fderiv ℝ F) (1 / V, (T, N)) :=
    (h.fderiv_right (m := ω) (by simp)).differentiableAt (by simp)
  have e : fderiv ℝ (fun x => fderiv ℝ F x (0, (t', w'))) (1 / V, (T, N)) (0, (t, w))
      = fderiv ℝ (fderiv ℝ F) (1 / V, (T, N)) (0, (t, w)) (0, (t', w')) := by
    have : HasFDerivAt (fun x => fderiv ℝ F x (0, (t', w')))
        ((fderiv ℝ (fderiv ℝ F) (1 / V, (T, N))).flip (0, (t', w'))) (1 / V, (T, N)) :=
      (hd2.hasFDerivAt.clm_apply (hasFDerivAt_const _ _)).congr_fderiv (by ext <;> simp)
    rw [this.fderiv]
    rfl
  rw [e, ← deriv_deriv_line (diluteEnergy_smooth hV h), ← deriv_deriv_line h]
  have e2 : ∀ s r : ℝ, diluteEnergy F ((T, V, N) + s • (t, (0 : ℝ), w) + r • (t', (0 : ℝ), w'))
      = V * F ((1 / V, (T, N)) + s • ((0 : ℝ), (t, w)) + r • ((0 : ℝ), (t', w'))) := fun s r => by
    simp [diluteEnergy]
  simp only [e2, deriv_const_mul_field]

/-- a function of the densities only -/
def DiluteIntensive (F : ℝ × (ℝ × (Fin n → ℝ)) → ℝ) : Prop :=
  ∀ (V T l : ℝ) (N : Fin n → ℝ), V ≠ 0 → 0 < l → F (1 / (l * V), (T, fun i => l * N i)) = F (1 / V, (T, N))

theorem diluteEnergy_scale (h : DiluteIntensive F) {l : ℝ} (hl : 0 < l) (x : ℝ × ℝ × (Fin n → ℝ)) :
    diluteEnergy F (x.1, l * x.2.1, fun i => l * x.2.2 i) = l * diluteEnergy F x := by
  unfold diluteEnergy
  rcases eq_or_ne x.2.1 0 with h0 | h0
  · simp [h0]
  · simp only
    rw [h _ _ _ _ h0 hl]
    ring

/-- the second derivative in the direction of the size of the system -/
theorem second_size {A : ℝ × ℝ × (Fin n → ℝ) → ℝ} (h2 : ContDiffAt ℝ ω A (T, V, N))
    (hscale : ∀ (l : ℝ) (x : ℝ × ℝ × (Fin n → ℝ)), 0 < l → A (x.1, l * x.2.1, fun i => l * x.2.2 i) = l * A x)
    (Tw Vw : ℝ) (Nw : Fin n → ℝ) :
    fderiv ℝ (fderiv ℝ A) (T, V, N) (0, V, N) (Tw, Vw, Nw) = Tw * fderiv ℝ A (T, V, N) (1, 0, 0) := by
  rw [← deriv_deriv_line h2]
  set L := fderiv ℝ A (T, V, N) with hL
  have hinner : ∀ s : ℝ, -1 < s → deriv (fun t : ℝ => A ((T, V, N) + s • (0, V, N) + t • (Tw, Vw, Nw))) 0
      = (1 + s) * L (Tw, 0, 0) + L (0, Vw, Nw) := by
    intro s hs
    have hs' : (1 + s) ≠ 0 := by linarith
    have e : (fun t : ℝ => A ((T, V, N) + s • (0, V, N) + t • (Tw, Vw, Nw)))
        = fun t => (1 + s) * A ((T, V, N) + t • (Tw, (1 + s)⁻¹ * Vw, fun i => (1 + s)⁻¹ * Nw i)) := by
      funext t
      rw [← hscale (1 + s) _ (by linarith)]
      congr 1
      refine Prod.ext ?_ (Prod.ext ?_ ?_)
      · simp
      · simp
        field_simp
      · funext i
        simp
        field_simp
    rw [e, ((hasDerivAt_line (h2.differentiableAt (by simp))).const_mul (1 + s)).deriv, ← hL]
    have hdir : ((Tw, (1 + s)⁻¹ * Vw, fun i => (1 + s)⁻¹ * Nw i) : ℝ × ℝ × (Fin n → ℝ))
        = (Tw, 0, 0) + (1 + s)⁻¹ • (0, Vw, Nw) := by
      refine Prod.ext ?_ (Prod.ext ?_ ?_)
      · simp
      · simp
      · funext i
        simp
    rw [hdir, map_add, map_smul, smul_eq_mul]
    field_simp
  have hev : (fun s : ℝ => deriv (fun t : ℝ => A ((T, V, N) + s • (0, V, N) + t • (Tw, Vw, Nw))) 0)
      =ᶠ[𝓝 0] fun s => (1 + s) * L (Tw, 0, 0) + L (0, Vw, Nw) := by
    filter_upwards [lt_mem_nhds (show (-1 : ℝ) < 0 by norm_num)] with s hs
    exact hinner s hs
  have hd : HasDerivAt (fun s : ℝ => (1 + s) * L (Tw, 0, 0) + L (0, Vw, Nw)) (L (Tw, 0, 0)) 0 := by
    simpa using (((hasDerivAt_id (0 : ℝ)).const_add 1).mul_const (L (Tw, 0, 0))).add_const (L (0, Vw, Nw))
  rw [hev.deriv_eq, hd.deriv]
  have : ((Tw, 0, 0) : ℝ × ℝ × (Fin n → ℝ)) = Tw • (1, 0, 0) := by simp
  rw [this, map_smul, smul_eq_mul]

/-- second derivatives with the volume changing in proportion to given factors -/
theorem diluteEnergy_second_all (hV : V ≠ 0) (h : ContDiffAt ℝ ω F (1 / V, (T, N))) (hi : DiluteIntensive F)
    (t t' v v' : ℝ) (w w' : Fin n → ℝ) :
    fderiv ℝ (fderiv ℝ (diluteEnergy F)) (T, V, N) (t, V * v, w) (t', V * v', w')
      = V * fderiv ℝ (fun x => fderiv ℝ F x (0, (t', w' - v' • N))) (1 / V, (T, N)) (0, (t, w - v • N))
        + v * (t' * (V * fderiv ℝ F (1 / V, (T, N)) (0, (1, 0)))) + v' * (t * (V * fderiv ℝ F (1 / V, (T, N)) (0, (1, 0)))) := by
  have hs := diluteEnergy_smooth hV h
  have hsc := second_size hs (fun l x hl => diluteEnergy_scale hi hl x)
  have e1 : ∀ (t v : ℝ) (w : Fin n → ℝ), ((t, V * v, w) : ℝ × ℝ × (Fin n → ℝ)) = v • (0, V, N) + (t, 0, w - v • N) := by
    intro t v w
    refine Prod.ext ?_ (Prod.ext ?_ ?_)
    · simp
    · simp; ring
    · simp
  rw [e1 t v w, e1 t' v' w']
  simp only [map_add, map_smul, add_apply, smul_apply, smul_eq_mul]
  rw [second_symm hs (t, 0, w - v • N) (0, V, N), hsc, hsc, hsc, diluteEnergy_second hV h, diluteEnergy_first hV h]
  ring

end PcSaft
