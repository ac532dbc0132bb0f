import Verif.Props.Derivatives

/-!
# Dual numbers of every order determine and are determined by the functions they represent
-/

open Filter Topology

namespace PcSaft
variable {D X : Type} [DualNum ℝ D] [TopologicalSpace X]

/-- every number represents a function, and a function is represented by one number only -/
structure Complete {x0 : X} (ρ : Rep x0 Same D) : Prop where
  exists_function : ∀ d, ∃ f, ρ.R f d
  unique : ∀ {f d e}, ρ.R f d → ρ.R f e → d = e

theorem complete_repReal (x0 : X) : Complete (repReal x0) where
  exists_function d := ⟨fun _ => d, continuousAt_const, rfl⟩
  unique h h' := h.2.trans h'.2.symm

theorem Complete.dual {x0 : X} {ρ : Rep x0 Same D} (h : Complete ρ) :
    Complete (repDual lawfulEmb_id ρ 0) where
  exists_function d := by
    obtain ⟨f, hf⟩ := h.exists_function d.re
    obtain ⟨g, hg⟩ := h.exists_function d.eps
    exact ⟨_, Props.dualR_seed ρ hf hg⟩
  unique := by
    rintro f d e ⟨_, h1, f', h2, h3⟩ ⟨_, h1', g', h2', h3'⟩
    refine Dual.ext (h.unique h1 h1') (h.unique h3 (ρ.congr h3' ?_))
    filter_upwards [h2, h2'] with x hx hx'
    exact hx'.unique hx

theorem complete_rho0 : Complete Props.rho0 := complete_repReal ()
theorem complete_rho1 : Complete Props.rho1 := complete_rho0.dual
theorem complete_rho2 : Complete Props.rho2 := complete_rho1.dual
theorem complete_rho3 : Complete Props.rho3 := complete_rho2.dual

end PcSaft
