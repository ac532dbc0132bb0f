import Verif.Lemmas.RepComplete
import Verif.Lemmas.RepEos

/-!
# Identities between residual energies hold for all derivatives

If two residual energies, evaluated at related states, are proportional near a state, their evaluations with dual numbers
are proportional as well.
-/

open Filter Topology

namespace PcSaft
open Spec
variable {D X : Type} [DualNum ℝ D] [TopologicalSpace X] {x0 : X} {ρ : Rep x0 Same D} {n n' : ℕ}

theorem residual_transfer (hρ : Complete ρ) (la : LinAlg ℝ ℝ) (laD : LinAlg ℝ D) {pr : Fin n → PureRecord ℝ}
    {k : Fin n → Fin n → ℝ} {pr' : Fin n' → PureRecord ℝ} {k' : Fin n' → Fin n' → ℝ} (o : PcSaftOptions ℝ)
    {T V T' V' : X → ℝ} {N : Fin n → X → ℝ} {N' : Fin n' → X → ℝ} {Td Vd Td' Vd' : D} {Nd : Fin n → D} {Nd' : Fin n' → D}
    (hT : ρ.R T Td) (hV : ρ.R V Vd) (hN : ∀ i, ρ.R (N i) (Nd i))
    (hT' : ρ.R T' Td') (hV' : ρ.R V' Vd') (hN' : ∀ i, ρ.R (N' i) (Nd' i))
    (h : Admissible (fromRecords pr k) (T x0) (V x0) (fun i => N i x0))
    (hr : ∀ ct ∈ buildContributions (fromRecords pr k) o,
      Regular (fromRecords pr k) (T x0) (V x0) (fun i => N i x0) ct)
    (h' : Admissible (fromRecords pr' k') (T' x0) (V' x0) (fun i => N' i x0))
    (hr' : ∀ ct ∈ buildContributions (fromRecords pr' k') o,
      Regular (fromRecords pr' k') (T' x0) (V' x0) (fun i => N' i x0) ct)
    {b : X → ℝ} {bd : D} (hb : ρ.R b bd)
    (heq : ∀ᶠ x in 𝓝 x0, (Eos.withOptions (fromRecords pr' k') o).residualHelmholtz la
        (StateHD.new (T' x) (V' x) (fun i => N' i x))
      = ((Eos.withOptions (fromRecords pr k) o).residualHelmholtz la
        (StateHD.new (T x) (V x) (fun i => N i x))).map fun a => b x * a) :
    ∃ d, (Eos.withOptions (fromRecords pr k) o).residualHelmholtz laD (StateHD.new Td Vd Nd) = .ok d
      ∧ (Eos.withOptions (fromRecords pr' k') o).residualHelmholtz laD (StateHD.new Td' Vd' Nd') = .ok (bd * d) := by
  obtain ⟨A, d, hA, hd, hAd⟩ := rep_residual (g := fun x => x) lawfulEmb_id (ParamRel.refl (fromRecords pr k)) hT hV hN h o la laD hr
  obtain ⟨A', d', hA', hd', hAd'⟩ :=
    rep_residual (g := fun x => x) lawfulEmb_id (ParamRel.refl (fromRecords pr' k')) hT' hV' hN' h' o la laD hr'
  refine ⟨d, hd, ?_⟩
  have e : d' = bd * d := by
    refine hρ.unique hAd' (ρ.congr (ρ.mul hb hAd) ?_)
    filter_upwards [heq] with x hx
    rw [hA, hA'] at hx
    exact (Except.ok.inj hx).symm
  rw [← e]
  exact hd'

/-- with factor one -/
theorem residual_transfer_eq (hρ : Complete ρ) (la : LinAlg ℝ ℝ) (laD : LinAlg ℝ D) {pr : Fin n → PureRecord ℝ}
    {k : Fin n → Fin n → ℝ} {pr' : Fin n' → PureRecord ℝ} {k' : Fin n' → Fin n' → ℝ} (o : PcSaftOptions ℝ)
    {T V T' V' : X → ℝ} {N : Fin n → X → ℝ} {N' : Fin n' → X → ℝ} {Td Vd Td' Vd' : D} {Nd : Fin n → D} {Nd' : Fin n' → D}
    (hT : ρ.R T Td) (hV : ρ.R V Vd) (hN : ∀ i, ρ.R (N i) (Nd i))
    (hT' : ρ.R T' Td') (hV' : ρ.R V' Vd') (hN' : ∀ i, ρ.R (N' i) (Nd' i))
    (h : Admissible (fromRecords pr k) (T x0) (V x0) (fun i => N i x0))
    (hr : ∀ ct ∈ buildContributions (fromRecords pr k) o,
      Regular (fromRecords pr k) (T x0) (V x0) (fun i => N i x0) ct)
    (h' : Admissible (fromRecords pr' k') (T' x0) (V' x0) (fun i => N' i x0))
    (hr' : ∀ ct ∈ buildContributions (fromRecords pr' k') o,
      Regular (fromRecords pr' k') (T' x0) (V' x0) (fun i => N' i x0) ct)
    (heq : ∀ᶠ x in 𝓝 x0, (Eos.withOptions (fromRecords pr' k') o).residualHelmholtz la
        (StateHD.new (T' x) (V' x) (fun i => N' i x))
      = (Eos.withOptions (fromRecords pr k) o).residualHelmholtz la
        (StateHD.new (T x) (V x) (fun i => N i x))) :
    ∃ d, (Eos.withOptions (fromRecords pr k) o).residualHelmholtz laD (StateHD.new Td Vd Nd) = .ok d
      ∧ (Eos.withOptions (fromRecords pr' k') o).residualHelmholtz laD (StateHD.new Td' Vd' Nd') = .ok d := by
  obtain ⟨A, d, hA, hd, hAd⟩ := rep_residual (g := fun x => x) lawfulEmb_id (ParamRel.refl (fromRecords pr k)) hT hV hN h o la laD hr
  obtain ⟨A', d', hA', hd', hAd'⟩ :=
    rep_residual (g := fun x => x) lawfulEmb_id (ParamRel.refl (fromRecords pr' k')) hT' hV' hN' h' o la laD hr'
  refine ⟨d, hd, ?_⟩
  have e : d' = d := by
    refine hρ.unique hAd' (ρ.congr hAd ?_)
    filter_upwards [heq] with x hx
    rw [hA, hA'] at hx
    exact (Except.ok.inj hx).symm
  rw [← e]
  exact hd'

end PcSaft
