import Verif.Lemmas.RepEos

/-!
# Automatic derivatives are the true derivatives (C53)

Evaluating a contribution, or the whole residual Helmholtz energy, with generalized dual numbers gives the
exact partial derivatives of the same function evaluated with real numbers. `Dual ℝ` carries first
derivatives (pressure, entropy, chemical potentials), `Dual (Dual ℝ)` second derivatives with two independent
directions and `Dual (Dual (Dual ℝ))` third derivatives with three.
-/

open Filter Topology

namespace PcSaft.Spec

/-- value and derivative at 0 -/
def Jet1 (A : ℝ → ℝ) (d : Dual ℝ) : Prop := d.re = A 0 ∧ HasDerivAt A d.eps 0

/-- value, first derivatives and mixed second derivative at 0 -/
def Jet2 (A : ℝ → ℝ → ℝ) (d : Dual (Dual ℝ)) : Prop :=
  Jet1 (fun s => A s 0) d.re ∧ ∃ A' : ℝ → ℝ, (∀ᶠ s in 𝓝 0, HasDerivAt (A s) (A' s) 0) ∧ Jet1 A' d.eps

/-- value, first, mixed second and mixed third derivatives at 0 -/
def Jet3 (A : ℝ → ℝ → ℝ → ℝ) (d : Dual (Dual (Dual ℝ))) : Prop :=
  Jet2 (fun r s => A r s 0) d.re ∧ ∃ A' : ℝ → ℝ → ℝ,
    (∀ᶠ x : ℝ × ℝ in 𝓝 (0, 0), HasDerivAt (A x.1 x.2) (A' x.1 x.2) 0) ∧ Jet2 A' d.eps

theorem Jet2.deriv {A : ℝ → ℝ → ℝ} {d : Dual (Dual ℝ)} (h : Jet2 A d) :
    d.eps.eps = deriv (fun s => deriv (A s) 0) 0 := by
  obtain ⟨_, A', h1, h2⟩ := h
  have e : (fun s => _root_.deriv (A s) 0) =ᶠ[𝓝 0] A' := h1.mono fun s hs => hs.deriv
  rw [e.deriv_eq, h2.2.deriv]

theorem Jet3.deriv {A : ℝ → ℝ → ℝ → ℝ} {d : Dual (Dual (Dual ℝ))} (h : Jet3 A d) :
    d.eps.eps.eps = deriv (fun r => deriv (fun s => deriv (A r s) 0) 0) 0 := by
  obtain ⟨_, A', h1, h2⟩ := h
  rw [h2.deriv]
  have h1' := h1
  rw [nhds_prod_eq] at h1'
  have e : (fun r => _root_.deriv (fun s => _root_.deriv (A r s) 0) 0) =ᶠ[𝓝 0] fun r => _root_.deriv (A' r) 0 := by
    filter_upwards [Filter.Eventually.curry h1'] with r hr
    have : (fun s => _root_.deriv (A r s) 0) =ᶠ[𝓝 0] A' r := hr.mono fun s hs => hs.deriv
    exact this.deriv_eq
  rw [e.deriv_eq]

end PcSaft.Spec

namespace PcSaft.Props
open Spec
variable {n : ℕ}

/-! ## Helpers: seeds -/

theorem dualR_seed {F D X : Type} [F64 F] [DualNum F D] [TopologicalSpace X] {x0 : X} {emb : ℝ → F → Prop}
    (ρ : Rep x0 emb D) {f g : X → ℝ} {d e : D} (hf : ρ.R f d) (hg : ρ.R g e) :
    DualR ρ 0 (fun x => f x.1 + x.2 * g x.1) ⟨d, e⟩ := by
  have hf' : ContinuousAt (fun x : X × ℝ => f x.1) (x0, 0) :=
    ContinuousAt.comp (f := Prod.fst) (x := (x0, (0 : ℝ))) (ρ.continuousAt hf) continuousAt_fst
  have hg' : ContinuousAt (fun x : X × ℝ => g x.1) (x0, 0) :=
    ContinuousAt.comp (f := Prod.fst) (x := (x0, (0 : ℝ))) (ρ.continuousAt hg) continuousAt_fst
  refine ⟨hf'.add (continuousAt_snd.mul hg'), ?_, g, ?_, hg⟩
  · simpa using hf
  · refine .of_forall fun x => ?_
    simpa using ((hasDerivAt_id (0 : ℝ)).mul_const (g x)).const_add (f x)

noncomputable abbrev rho0 : Rep () Same ℝ := repReal ()
noncomputable abbrev rho1 : Rep ((), (0 : ℝ)) Same (Dual ℝ) := repDual lawfulEmb_id rho0 0
noncomputable abbrev rho2 : Rep (((), (0 : ℝ)), (0 : ℝ)) Same (Dual (Dual ℝ)) :=
  repDual lawfulEmb_id rho1 0
noncomputable abbrev rho3 : Rep ((((), (0 : ℝ)), (0 : ℝ)), (0 : ℝ)) Same (Dual (Dual (Dual ℝ))) :=
  repDual lawfulEmb_id rho2 0

theorem rho0_const (a : ℝ) : rho0.R (fun _ => a) a := rho0.const a
theorem rho1_seed (a u : ℝ) : rho1.R (fun x => a + x.2 * u) ⟨a, u⟩ := dualR_seed rho0 (rho0_const a) (rho0_const u)
theorem rho1_const (a : ℝ) : rho1.R (fun _ => a) ⟨a, 0⟩ := by simpa using rho1_seed a 0
theorem rho2_seed (a u w : ℝ) : rho2.R (fun x => a + x.1.2 * u + x.2 * w) ⟨⟨a, u⟩, ⟨w, 0⟩⟩ :=
  dualR_seed rho1 (rho1_seed a u) (rho1_const w)
theorem rho2_const (a : ℝ) : rho2.R (fun _ => a) ⟨⟨a, 0⟩, ⟨0, 0⟩⟩ := by simpa using rho2_seed a 0 0
theorem rho3_seed (a u v w : ℝ) :
    rho3.R (fun x => a + x.1.1.2 * u + x.1.2 * v + x.2 * w) ⟨⟨⟨a, u⟩, ⟨v, 0⟩⟩, ⟨⟨w, 0⟩, ⟨0, 0⟩⟩⟩ :=
  dualR_seed rho2 (rho2_seed a u v) (rho2_const w)

theorem jet1_of {A : Unit × ℝ → ℝ} {d : Dual ℝ} (h : rho1.R A d) : Jet1 (fun s => A ((), s)) d := by
  obtain ⟨_, h1, A', h2, h3⟩ := h
  refine ⟨h1.2, ?_⟩
  rw [h3.2]
  exact h2.self_of_nhds

theorem jet2_of {A : (Unit × ℝ) × ℝ → ℝ} {d : Dual (Dual ℝ)} (h : rho2.R A d) :
    Jet2 (fun s t => A (((), s), t)) d := by
  obtain ⟨_, h1, A', h2, h3⟩ := h
  refine ⟨jet1_of h1, fun s => A' ((), s), ?_, jet1_of h3⟩
  have : Tendsto (fun s : ℝ => ((), s)) (𝓝 0) (𝓝 ((), 0)) := (Continuous.prodMk_right ()).tendsto 0
  exact this.eventually h2

theorem jet3_of {A : ((Unit × ℝ) × ℝ) × ℝ → ℝ} {d : Dual (Dual (Dual ℝ))} (h : rho3.R A d) :
    Jet3 (fun r s t => A ((((), r), s), t)) d := by
  obtain ⟨_, h1, A', h2, h3⟩ := h
  refine ⟨jet2_of h1, fun r s => A' (((), r), s), ?_, jet2_of h3⟩
  have : Tendsto (fun x : ℝ × ℝ => (((), x.1), x.2)) (𝓝 (0, 0)) (𝓝 (((), 0), 0)) :=
    (Continuous.prodMk (Continuous.prodMk continuous_const continuous_fst) continuous_snd).tendsto (0, 0)
  exact this.eventually h2

theorem rho1_curve {f : ℝ → ℝ} {f' t0 : ℝ} (hf : HasDerivAt f f' t0) :
    (repDual lawfulEmb_id rho0 t0).R (fun x => f x.2) ⟨f t0, f'⟩ :=
  ⟨ContinuousAt.comp (f := Prod.snd) (x := ((), t0)) hf.continuousAt continuousAt_snd, rho0_const _, fun _ => f',
    .of_forall fun _ => hf, rho0_const _⟩

theorem curve_of {A : Unit × ℝ → ℝ} {t0 : ℝ} {d : Dual ℝ} (h : (repDual lawfulEmb_id rho0 t0).R A d) :
    d.re = A ((), t0) ∧ HasDerivAt (fun s => A ((), s)) d.eps t0 := by
  obtain ⟨_, h1, A', h2, h3⟩ := h
  refine ⟨h1.2, ?_⟩
  rw [h3.2]
  exact h2.self_of_nhds

/-! ## First derivatives along any curve of states -/

section curve
variable {p : PcSaftParameters n ℝ} {T V : ℝ → ℝ} {N : Fin n → ℝ → ℝ} {T' V' : ℝ} {N' : Fin n → ℝ} {t0 : ℝ}
  (hT : HasDerivAt T T' t0) (hV : HasDerivAt V V' t0) (hN : ∀ i, HasDerivAt (N i) (N' i) t0)
include hT hV hN

/-- The hard-sphere contribution evaluated with dual numbers along a curve of states: value and derivative. -/
theorem C53_hard_sphere (h : Admissible p (T t0) (V t0) (fun i => N i t0)) :
    (hardSphere p (StateHD.new (⟨T t0, T'⟩ : Dual ℝ) ⟨V t0, V'⟩ (fun i => ⟨N i t0, N' i⟩))).re
      = hardSphere p (StateHD.new (T t0) (V t0) (fun i => N i t0))
    ∧ HasDerivAt (fun t => hardSphere p (StateHD.new (T t) (V t) (fun i => N i t)))
      (hardSphere p (StateHD.new (⟨T t0, T'⟩ : Dual ℝ) ⟨V t0, V'⟩ (fun i => ⟨N i t0, N' i⟩))).eps t0 :=
  curve_of (rep_hardSphere_admissible lawfulEmb_id (ParamRel.refl p) (rho1_curve hT) (rho1_curve hV)
    (fun i => rho1_curve (hN i)) h)

/-- The hard-chain contribution evaluated with dual numbers along a curve of states: value and derivative. -/
theorem C53_hard_chain (h : Admissible p (T t0) (V t0) (fun i => N i t0)) :
    (hardChain p (StateHD.new (⟨T t0, T'⟩ : Dual ℝ) ⟨V t0, V'⟩ (fun i => ⟨N i t0, N' i⟩))).re
      = hardChain p (StateHD.new (T t0) (V t0) (fun i => N i t0))
    ∧ HasDerivAt (fun t => hardChain p (StateHD.new (T t) (V t) (fun i => N i t)))
      (hardChain p (StateHD.new (⟨T t0, T'⟩ : Dual ℝ) ⟨V t0, V'⟩ (fun i => ⟨N i t0, N' i⟩))).eps t0 :=
  curve_of (rep_hardChain_admissible lawfulEmb_id (ParamRel.refl p) (rho1_curve hT) (rho1_curve hV)
    (fun i => rho1_curve (hN i)) h)

/-- The dispersion contribution evaluated with dual numbers along a curve of states: value and derivative. -/
theorem C53_dispersion (h : Admissible p (T t0) (V t0) (fun i => N i t0)) :
    (dispersion p (StateHD.new (⟨T t0, T'⟩ : Dual ℝ) ⟨V t0, V'⟩ (fun i => ⟨N i t0, N' i⟩))).re
      = dispersion p (StateHD.new (T t0) (V t0) (fun i => N i t0))
    ∧ HasDerivAt (fun t => dispersion p (StateHD.new (T t) (V t) (fun i => N i t)))
      (dispersion p (StateHD.new (⟨T t0, T'⟩ : Dual ℝ) ⟨V t0, V'⟩ (fun i => ⟨N i t0, N' i⟩))).eps t0 :=
  curve_of (rep_dispersion_admissible lawfulEmb_id (ParamRel.refl p) (rho1_curve hT) (rho1_curve hV)
    (fun i => rho1_curve (hN i)) h)

end curve

section records
variable {pr : Fin n → PureRecord ℝ} {k : Fin n → Fin n → ℝ} {o : PcSaftOptions ℝ} (la : LinAlg ℝ ℝ)

/-- The whole residual Helmholtz energy (all contributions that `with_options` selects, polar and one-component
association included) evaluated with dual numbers along a curve of states: value and derivative. -/
theorem C53_residual_along_curve (laD : LinAlg ℝ (Dual ℝ)) {T V : ℝ → ℝ} {N : Fin n → ℝ → ℝ} {T' V' : ℝ}
    {N' : Fin n → ℝ} {t0 : ℝ}
    (hT : HasDerivAt T T' t0) (hV : HasDerivAt V V' t0) (hN : ∀ i, HasDerivAt (N i) (N' i) t0)
    (h : Admissible (fromRecords pr k) (T t0) (V t0) (fun i => N i t0))
    (hr : ∀ ct ∈ buildContributions (fromRecords pr k) o,
      Regular (fromRecords pr k) (T t0) (V t0) (fun i => N i t0) ct) :
    ∃ (A : ℝ → ℝ) (d : Dual ℝ),
      (∀ t, (Eos.withOptions (fromRecords pr k) o).residualHelmholtz la
        (StateHD.new (T t) (V t) (fun i => N i t)) = .ok (A t))
      ∧ (Eos.withOptions (fromRecords pr k) o).residualHelmholtz laD
        (StateHD.new (⟨T t0, T'⟩ : Dual ℝ) ⟨V t0, V'⟩ (fun i => ⟨N i t0, N' i⟩)) = .ok d
      ∧ d.re = A t0 ∧ HasDerivAt A d.eps t0 := by
  obtain ⟨A, d, h1, h2, h3⟩ := rep_residual (g := fun x => x) lawfulEmb_id (ParamRel.refl _) (rho1_curve hT) (rho1_curve hV)
    (fun i => rho1_curve (hN i)) h o la laD hr
  exact ⟨fun t => A ((), t), d, fun t => h1 ((), t), h2, curve_of h3⟩

/-- Pressure, entropy, chemical potential: the derivative with respect to volume (temperature, one mole
number) is obtained by making only that argument a dual number with unit derivative (`derive`). -/
theorem C53_pressure (laD : LinAlg ℝ (Dual ℝ)) {T V : ℝ} {N : Fin n → ℝ}
    (h : Admissible (fromRecords pr k) T V N)
    (hr : ∀ ct ∈ buildContributions (fromRecords pr k) o, Regular (fromRecords pr k) T V N ct) :
    ∃ (A : ℝ → ℝ) (d : Dual ℝ),
      (∀ v, (Eos.withOptions (fromRecords pr k) o).residualHelmholtz la (StateHD.new T v N) = .ok (A v))
      ∧ (Eos.withOptions (fromRecords pr k) o).residualHelmholtz laD
        (StateHD.new (Dual.const T) (Dual.var V) (fun i => Dual.const (N i))) = .ok d
      ∧ d.re = A V ∧ HasDerivAt A d.eps V := by
  have e0 : (c (0.0 : ℝ) : ℝ) = 0 := by norm_num
  have e1 : (c (1.0 : ℝ) : ℝ) = 1 := by norm_num
  have := C53_residual_along_curve la laD (o := o) (hasDerivAt_const V T) (hasDerivAt_id V)
    (fun i => hasDerivAt_const V (N i)) h hr
  simpa only [Dual.const, Dual.var, e0, e1, id] using this

theorem C53_entropy (laD : LinAlg ℝ (Dual ℝ)) {T V : ℝ} {N : Fin n → ℝ}
    (h : Admissible (fromRecords pr k) T V N)
    (hr : ∀ ct ∈ buildContributions (fromRecords pr k) o, Regular (fromRecords pr k) T V N ct) :
    ∃ (A : ℝ → ℝ) (d : Dual ℝ),
      (∀ t, (Eos.withOptions (fromRecords pr k) o).residualHelmholtz la (StateHD.new t V N) = .ok (A t))
      ∧ (Eos.withOptions (fromRecords pr k) o).residualHelmholtz laD
        (StateHD.new (Dual.var T) (Dual.const V) (fun i => Dual.const (N i))) = .ok d
      ∧ d.re = A T ∧ HasDerivAt A d.eps T := by
  have e0 : (c (0.0 : ℝ) : ℝ) = 0 := by norm_num
  have e1 : (c (1.0 : ℝ) : ℝ) = 1 := by norm_num
  have := C53_residual_along_curve la laD (o := o) (hasDerivAt_id T) (hasDerivAt_const T V)
    (fun i => hasDerivAt_const T (N i)) h hr
  simpa only [Dual.const, Dual.var, e0, e1, id] using this

theorem C53_chemical_potential (laD : LinAlg ℝ (Dual ℝ)) {T V : ℝ} {N : Fin n → ℝ} (j : Fin n)
    (h : Admissible (fromRecords pr k) T V N)
    (hr : ∀ ct ∈ buildContributions (fromRecords pr k) o, Regular (fromRecords pr k) T V N ct) :
    ∃ (A : ℝ → ℝ) (d : Dual ℝ),
      (∀ x, (Eos.withOptions (fromRecords pr k) o).residualHelmholtz la
        (StateHD.new T V (Function.update N j x)) = .ok (A x))
      ∧ (Eos.withOptions (fromRecords pr k) o).residualHelmholtz laD
        (StateHD.new (Dual.const T) (Dual.const V) (fun i => if i = j then Dual.var (N i) else Dual.const (N i)))
          = .ok d
      ∧ d.re = A (N j) ∧ HasDerivAt A d.eps (N j) := by
  have e0 : (c (0.0 : ℝ) : ℝ) = 0 := by norm_num
  have e1 : (c (1.0 : ℝ) : ℝ) = 1 := by norm_num
  have hup : (fun i => Function.update N j (N j) i) = N := by rw [Function.update_eq_self]
  have := C53_residual_along_curve la laD (o := o) (T := fun _ => T) (V := fun _ => V)
    (N := fun i x => Function.update N j x i) (N' := fun i => if i = j then 1 else 0) (t0 := N j)
    (hasDerivAt_const _ T) (hasDerivAt_const _ V)
    (fun i => by
      by_cases hij : i = j
      · subst hij
        simpa using hasDerivAt_id' (N i)
      · simpa [hij, Function.update_of_ne hij] using hasDerivAt_const (N j) (N i))
    (by rw [hup]; exact h) (by rw [hup]; exact hr)
  obtain ⟨A, d, h1, h2, h3⟩ := this
  refine ⟨A, d, h1, ?_, h3⟩
  rw [← h2]
  have e : (fun i => if i = j then Dual.var (N i) else Dual.const (N i))
      = fun i => (⟨Function.update N j (N j) i, if i = j then 1 else 0⟩ : Dual ℝ) := by
    funext i
    rw [congrFun hup i]
    split_ifs <;> simp only [Dual.const, Dual.var, e0, e1]
  rw [e]
  simp only [Dual.const, e0]

/-- Second derivatives: with two independent directions `u`, `w` in the space of temperature, volume and mole
numbers, the mixed component of the result is the mixed second derivative (heat capacity, compressibility,
thermal expansion, composition derivatives of the chemical potentials). -/
theorem C53_second_order (laD : LinAlg ℝ (Dual (Dual ℝ))) {T V : ℝ} {N : Fin n → ℝ} (Tu Tw Vu Vw : ℝ)
    (Nu Nw : Fin n → ℝ) (h : Admissible (fromRecords pr k) T V N)
    (hr : ∀ ct ∈ buildContributions (fromRecords pr k) o, Regular (fromRecords pr k) T V N ct) :
    ∃ (A : ℝ → ℝ → ℝ) (d : Dual (Dual ℝ)),
      (∀ s t, (Eos.withOptions (fromRecords pr k) o).residualHelmholtz la
        (StateHD.new (T + s * Tu + t * Tw) (V + s * Vu + t * Vw) (fun i => N i + s * Nu i + t * Nw i)) = .ok (A s t))
      ∧ (Eos.withOptions (fromRecords pr k) o).residualHelmholtz laD
        (StateHD.new (⟨⟨T, Tu⟩, ⟨Tw, 0⟩⟩ : Dual (Dual ℝ)) ⟨⟨V, Vu⟩, ⟨Vw, 0⟩⟩ (fun i => ⟨⟨N i, Nu i⟩, ⟨Nw i, 0⟩⟩))
          = .ok d
      ∧ Jet2 A d ∧ d.eps.eps = deriv (fun s => deriv (A s) 0) 0 := by
  obtain ⟨A, d, h1, h2, h3⟩ := rep_residual (g := fun x => x) lawfulEmb_id (ParamRel.refl (fromRecords pr k)) (rho2_seed T Tu Tw)
    (rho2_seed V Vu Vw) (fun i => rho2_seed (N i) (Nu i) (Nw i)) (by simpa using h) o la laD (by simpa using hr)
  exact ⟨_, d, fun s t => h1 (((), s), t), h2, jet2_of h3, (jet2_of h3).deriv⟩

/-- Third derivatives with three independent directions (critical points). -/
theorem C53_third_order (laD : LinAlg ℝ (Dual (Dual (Dual ℝ)))) {T V : ℝ} {N : Fin n → ℝ} (Tu Tv Tw Vu Vv Vw : ℝ)
    (Nu Nv Nw : Fin n → ℝ) (h : Admissible (fromRecords pr k) T V N)
    (hr : ∀ ct ∈ buildContributions (fromRecords pr k) o, Regular (fromRecords pr k) T V N ct) :
    ∃ (A : ℝ → ℝ → ℝ → ℝ) (d : Dual (Dual (Dual ℝ))),
      (∀ r s t, (Eos.withOptions (fromRecords pr k) o).residualHelmholtz la
        (StateHD.new (T + r * Tu + s * Tv + t * Tw) (V + r * Vu + s * Vv + t * Vw)
          (fun i => N i + r * Nu i + s * Nv i + t * Nw i)) = .ok (A r s t))
      ∧ (Eos.withOptions (fromRecords pr k) o).residualHelmholtz laD
        (StateHD.new (⟨⟨⟨T, Tu⟩, ⟨Tv, 0⟩⟩, ⟨⟨Tw, 0⟩, ⟨0, 0⟩⟩⟩ : Dual (Dual (Dual ℝ)))
          ⟨⟨⟨V, Vu⟩, ⟨Vv, 0⟩⟩, ⟨⟨Vw, 0⟩, ⟨0, 0⟩⟩⟩
          (fun i => ⟨⟨⟨N i, Nu i⟩, ⟨Nv i, 0⟩⟩, ⟨⟨Nw i, 0⟩, ⟨0, 0⟩⟩⟩)) = .ok d
      ∧ Jet3 A d ∧ d.eps.eps.eps = deriv (fun r => deriv (fun s => deriv (A r s) 0) 0) 0 := by
  obtain ⟨A, d, h1, h2, h3⟩ := rep_residual (g := fun x => x) lawfulEmb_id (ParamRel.refl (fromRecords pr k)) (rho3_seed T Tu Tv Tw)
    (rho3_seed V Vu Vv Vw) (fun i => rho3_seed (N i) (Nu i) (Nv i) (Nw i)) (by simpa using h) o la laD
    (by simpa using hr)
  exact ⟨_, d, fun r s t => h1 ((((), r), s), t), h2, jet3_of h3, (jet3_of h3).deriv⟩

end records

/-! ## Non-vacuity -/

theorem assocRecords_dipole : (fromRecords assocRecords (fun _ _ => 0)).dipole_comp = [] := by
  have h : (fromRecords assocRecords (fun _ _ => 0)).mu2 = fun _ => 0 := by
    funext i
    fin_cases i <;> norm_num [fromRecords, assocRecords]
  have e : (fromRecords assocRecords (fun _ _ => 0)).dipole_comp
      = nonzeroComp (fromRecords assocRecords (fun _ _ => 0)).mu2 := rfl
  rw [e, h]
  simp only [nonzeroComp, List.finRange_succ, List.finRange_zero, List.map_nil, List.map_cons]
  norm_num [lt_real]

theorem assocRecords_quadrupole : (fromRecords assocRecords (fun _ _ => 0)).quadpole_comp = [] := by
  have h : (fromRecords assocRecords (fun _ _ => 0)).q2 = fun _ => 0 := by
    funext i
    fin_cases i <;> norm_num [fromRecords, assocRecords]
  have e : (fromRecords assocRecords (fun _ _ => 0)).quadpole_comp
      = nonzeroComp (fromRecords assocRecords (fun _ _ => 0)).q2 := rfl
  rw [e, h]
  simp only [nonzeroComp, List.finRange_succ, List.finRange_zero, List.map_nil, List.map_cons]
  norm_num [lt_real]

theorem assocRecords_strength_lt : Real.sqrt f64EPSILON
    < specStrength (fromRecords assocRecords (fun _ _ => 0)) 300 1000 (fun _ => 1) 0 0 * (1 / 1000) := by
  have h := assocRecords_admissible
  have d0 := h.diameter_pos 0
  rw [hsDiameter_eq_spec] at d0
  have hη := h.packing
  have hη0 := h.zeta_pos 3
  rw [zeta3_eq_packing] at hη0
  have h2 := moment2_nonneg h
  rw [sqrt_epsilon]
  unfold specStrength
  have hκ : (fromRecords assocRecords (fun _ _ => 0)).kappa_ab 0 = 0.03 := rfl
  have hσ : (fromRecords assocRecords (fun _ _ => 0)).sigma 0 = 3 := rfl
  have he : (fromRecords assocRecords (fun _ _ => 0)).epsilon_k_ab 0 = 2500 := rfl
  rw [hκ, hσ, he, Real.sqrt_mul_self (by norm_num), Real.sqrt_mul_self (by norm_num)]
  have hg : 1 ≤ contactPair (moment2 (fromRecords assocRecords (fun _ _ => 0)) 300 1000 (fun _ => 1))
      (Spec.packingFraction (fromRecords assocRecords (fun _ _ => 0)) 300 1000 (fun _ => 1))
      (Spec.diameter 3 ((fromRecords assocRecords (fun _ _ => 0)).epsilon_k 0) 300)
      (Spec.diameter 3 ((fromRecords assocRecords (fun _ _ => 0)).epsilon_k 0) 300) := by
    rw [hσ] at d0
    have hu : 0 < 1 - Spec.packingFraction (fromRecords assocRecords (fun _ _ => 0)) 300 1000 (fun _ => 1) := by
      linarith
    have h1 : 1 ≤ 1 / (1 - Spec.packingFraction (fromRecords assocRecords (fun _ _ => 0)) 300 1000 (fun _ => 1)) := by
      rw [le_div_iff₀ hu]
      linarith
    unfold contactPair
    refine h1.trans ?_
    rw [add_assoc]
    exact le_add_of_nonneg_right (by positivity)
  have hx := Real.add_one_le_exp (((2500 : ℝ) + 2500) / 2 / 300)
  have hx8 : (8 : ℝ) ≤ Real.exp ((2500 + 2500) / 2 / 300) - 1 := by
    norm_num at hx ⊢
    linarith
  have : (1 : ℝ) * 0.03 * 3 ^ 3 * 8 * (1 / 1000) ≤ _ :=
    mul_le_mul_of_nonneg_right (mul_le_mul (mul_le_mul_of_nonneg_right (mul_le_mul_of_nonneg_right hg
      (by norm_num)) (by norm_num)) hx8 (by norm_num) (by positivity)) (by norm_num : (0 : ℝ) ≤ 1 / 1000)
  refine lt_of_lt_of_le ?_ this
  norm_num

theorem assocRecords_strength :
    specStrength (fromRecords assocRecords (fun _ _ => 0)) 300 1000 (fun _ => 1) 0 0 * (1 / 1000)
      ≠ Real.sqrt f64EPSILON := assocRecords_strength_lt.ne'

theorem assocRecords_regular (o : PcSaftOptions ℝ) :
    ∀ ct ∈ buildContributions (fromRecords assocRecords (fun _ _ => 0)) o,
      Regular (fromRecords assocRecords (fun _ _ => 0)) 300 1000 (fun _ => 1) ct := by
  intro ct hct
  simp only [buildContributions, PcSaftParameters.ndipole, PcSaftParameters.nquadpole, PcSaftParameters.nassoc,
    assocRecords_comp, assocRecords_dipole, assocRecords_quadrupole] at hct
  simp at hct
  rcases hct with rfl | rfl | rfl | rfl
  · trivial
  · trivial
  · trivial
  · refine ⟨0, assocRecords_comp, ?_, ?_, ?_, ?_, assocRecords_strength⟩ <;>
      norm_num [fromRecords, assocRecords]

/-- the pressure of a mixture with an associating component from one evaluation with dual numbers -/
example (o : PcSaftOptions ℝ) (la : LinAlg ℝ ℝ) (laD : LinAlg ℝ (Dual ℝ)) :
    ∃ (A : ℝ → ℝ) (d : Dual ℝ),
      (∀ v, (Eos.withOptions (fromRecords assocRecords (fun _ _ => 0)) o).residualHelmholtz la
        (StateHD.new 300 v (fun _ => 1)) = .ok (A v))
      ∧ (Eos.withOptions (fromRecords assocRecords (fun _ _ => 0)) o).residualHelmholtz laD
        (StateHD.new (Dual.const 300) (Dual.var 1000) (fun _ => Dual.const 1)) = .ok d
      ∧ d.re = A 1000 ∧ HasDerivAt A d.eps 1000 :=
  C53_pressure la laD assocRecords_admissible (assocRecords_regular o)

/-- the curve of states with volume 100 + t and temperature 300 at the pure component -/
example := C53_dispersion (p := onePure) (T := fun _ => 300) (V := fun t => 100 + t) (N := fun _ _ => 1) (t0 := 0)
  (hasDerivAt_const _ _) ((hasDerivAt_id 0).const_add 100) (fun _ => hasDerivAt_const _ _)
  (onePure_admissible _ _ (by norm_num) one_pos le_rfl)

end PcSaft.Props
