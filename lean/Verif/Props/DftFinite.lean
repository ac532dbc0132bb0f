import Verif.Props.DftDerivatives

/-!
# No NaN and no infinity in density profiles (C78)

The functionals are evaluated a second time with `XReal`, the exact reals extended by infinities and NaN.  At every
grid point the result is the finite number which the evaluation with reals gives: also where a density vanishes and
where a formula switches to an approximation.
-/

open Filter Topology

namespace PcSaft.Props
open Spec
variable {n : ℕ}

/-- values for which the Padé approximation is finite: distinct, or both zero (the code falls back to the second-order
term) -/
def PadeFinite (a b : ℝ) : Prop := a ≠ b ∨ a = 0 ∧ b = 0

section records
variable {pr : Fin n → PureRecord ℝ} {k : Fin n → Fin n → ℝ} (hp : Molecules (fromRecords pr k))
  (he : ∀ i, 0 < (pr i).model_record.epsilon_k) (hk : ∀ i, 0 ≤ (fromRecords pr k).kappa_ab i)
include hp he hk

theorem xRel : ParamRel XReal.IsFin (fromRecords pr k) (xParameters pr k) :=
  xParameters_rel pr k hp.m_pos hp.sigma_pos he hk

variable {T : ℝ} (hT0 : 0 < T)
include hT0

/-- C78, chain functional: finite at every grid point with a packing fraction below one, whatever the densities and
their shell averages are (they may vanish). -/
theorem C78_chain {rho lambda : Fin n → ℝ} {zeta2 zeta3 : ℝ} (h20 : 0 ≤ zeta2) (h30 : zeta3 < 1) :
    ∃ A : ℝ, chainFunctional (fromRecords pr k) T (chainRows rho lambda zeta2 zeta3) = .ok A
      ∧ chainFunctional (xParameters pr k) (XReal.fin T) (chainRows (fun i => XReal.fin (rho i))
          (fun i => XReal.fin (lambda i)) (XReal.fin zeta2) (XReal.fin zeta3)) = .ok (XReal.fin A) := by
  obtain ⟨A, d, h1, hd, hA⟩ := rep_chainFunctional XReal.lawfulEmb (xRel hp he hk) (rhoX_const T) hT0.ne'
    (fun i => rhoX_const (rho i)) (fun i => rhoX_const (lambda i)) (rhoX_const zeta2) (rhoX_const zeta3)
    (hp.diameter_pos hT0) (fun i => apart_unit _ _) h20 h30
  exact ⟨A (), h1 (), by rw [hd, hA.2]⟩

/-- C78, chain functional: the functional derivatives are finite and exact as well, in particular in empty regions. -/
theorem C78_chain_derivative (T' : ℝ) {rho lambda rho' lambda' : Fin n → ℝ} {zeta2 zeta3 zeta2' zeta3' : ℝ}
    (hl0 : ∀ i, lambda i ≠ 0 ∨ rho i = 0) (h20 : 0 ≤ zeta2) (h30 : zeta3 < 1) :
    ∃ (A : ℝ → ℝ) (A' : ℝ),
      (∀ t, chainFunctional (fromRecords pr k) (T + t * T') (chainRows (fun i => rho i + t * rho' i)
        (fun i => lambda i + t * lambda' i) (zeta2 + t * zeta2') (zeta3 + t * zeta3')) = .ok (A t))
      ∧ chainFunctional (xParameters pr k) (⟨XReal.fin T, XReal.fin T'⟩ : Dual XReal)
          (chainRows (fun i => ⟨XReal.fin (rho i), XReal.fin (rho' i)⟩)
            (fun i => ⟨XReal.fin (lambda i), XReal.fin (lambda' i)⟩) ⟨XReal.fin zeta2, XReal.fin zeta2'⟩
            ⟨XReal.fin zeta3, XReal.fin zeta3'⟩) = .ok ⟨XReal.fin (A 0), XReal.fin A'⟩
      ∧ HasDerivAt A A' 0 := by
  obtain ⟨A, d, h1, hd, hA⟩ := rep_chainFunctional_empty XReal.lawfulEmb (xRel hp he hk) isolated_unit
    (rhoX1_seed T T') (by simpa using hT0.ne') (fun i => rhoX1_seed (rho i) (rho' i))
    (fun i => rhoX1_seed (lambda i) (lambda' i)) (rhoX1_seed zeta2 zeta2') (rhoX1_seed zeta3 zeta3')
    (by simpa using hp.diameter_pos hT0) (by simpa using hl0) (by simpa using h20) (by simpa using h30)
  obtain ⟨A', rfl, hA'⟩ := curveX_of hA
  exact ⟨_, A', fun t => h1 ((), t), hd, hA'⟩

/-- C78, attractive functional. -/
theorem C78_attractive {rho : Fin n → ℝ} (h0 : ∀ i, 0 ≤ rho i)
    (heta : Spec.packingFraction (fromRecords pr k) T 1 rho < 1)
    (hreg : DftPolarRegular PadeFinite (fromRecords pr k) T rho) :
    ∃ A : ℝ, attractiveFunctional (fromRecords pr k) T (List.ofFn rho) = .ok A
      ∧ attractiveFunctional (xParameters pr k) (XReal.fin T) (List.ofFn fun i => XReal.fin (rho i))
        = .ok (XReal.fin A) := by
  obtain ⟨A, d, h1, hd, hA⟩ := rep_attractiveFunctional XReal.lawfulEmb (xRel hp he hk) (rhoX_const T) hT0.ne'
    (fun i => rhoX_const (rho i)) hp.m_pos (sigma_ij_ne hp) (fun i => (hp.sigma_pos i).ne') (hp.diameter_pos hT0) h0
    (apart_unit _ _) (by rw [dftEta_packing]; exact heta) dftPade_rule hreg
  exact ⟨A (), h1 (), by rw [hd, hA.2]⟩

/-- C78, attractive functional: finite and exact derivatives. -/
theorem C78_attractive_derivative (T' : ℝ) {rho rho' : Fin n → ℝ} (h0 : ∀ i, 0 ≤ rho i)
    (heta : Spec.packingFraction (fromRecords pr k) T 1 rho < 1) (hne : ∑ i, rho i ≠ f64EPSILON)
    (hreg : DftPolarRegular (· ≠ ·) (fromRecords pr k) T rho) :
    ∃ (A : ℝ → ℝ) (A' : ℝ),
      (∀ t, attractiveFunctional (fromRecords pr k) (T + t * T') (List.ofFn (fun i => rho i + t * rho' i)) = .ok (A t))
      ∧ attractiveFunctional (xParameters pr k) (⟨XReal.fin T, XReal.fin T'⟩ : Dual XReal)
          (List.ofFn fun i => ⟨XReal.fin (rho i), XReal.fin (rho' i)⟩) = .ok ⟨XReal.fin (A 0), XReal.fin A'⟩
      ∧ HasDerivAt A A' 0 := by
  obtain ⟨A, d, h1, hd, hA⟩ := rep_attractiveFunctional XReal.lawfulEmb (xRel hp he hk)
    (rhoX1_seed T T') (by simpa using hT0.ne') (fun i => rhoX1_seed (rho i) (rho' i)) hp.m_pos (sigma_ij_ne hp)
    (fun i => (hp.sigma_pos i).ne') (by simpa using hp.diameter_pos hT0) (by simpa using h0)
    (Or.inl (by simpa using hne)) (by rw [dftEta_packing]; simpa using heta) (rep_dftPade XReal.lawfulEmb)
    (by simpa using hreg)
  obtain ⟨A', rfl, hA'⟩ := curveX_of hA
  exact ⟨_, A', fun t => h1 ((), t), hd, hA'⟩

/-- C78, association functional of one associating component: finite on whole grids, also where the densities pass
the cutoffs. -/
theorem C78_association {a : Fin n} (ha : (fromRecords pr k).assoc_comp = [a]) (la : LinAlg ℝ ℝ)
    (laX : LinAlg XReal XReal) (max_iter : ℕ) (tol : ℝ) (tolX : XReal) (dim : ℕ) {γ : Type} (G : List γ)
    {n0 : γ → Fin n → ℝ} {v : γ → ℕ → Fin n → ℝ} {n3 : γ → ℝ}
    (hpt : ∀ g ∈ G, AssocPoint (fromRecords pr k) T a (n0 g) ((List.range dim).map (v g)) (n3 g)) :
    ∃ A : γ → ℝ,
      associationFunctional la (fromRecords pr k) max_iter tol T (G.map fun g => assocRows dim (n0 g) (v g) (n3 g))
        = .ok (.ok (G.map A))
      ∧ associationFunctional laX (xParameters pr k) max_iter tolX (XReal.fin T) (G.map fun g => assocRows dim
          (fun i => XReal.fin (n0 g i)) (fun d i => XReal.fin (v g d i)) (XReal.fin (n3 g)))
        = .ok (.ok (G.map fun g => XReal.fin (A g))) := by
  have hax : (xParameters pr k).assoc_comp = [a] := (xRel hp he hk).assoc_comp.trans ha
  refine ⟨_, associationFunctional_rows la _ ha max_iter tol T G dim n0 v n3, ?_⟩
  rw [associationFunctional_rows laX _ hax max_iter tolX _ G dim]
  refine congrArg (fun l => Except.ok (Except.ok l)) (List.map_congr_left fun g hg => ?_)
  have hA := rep_assocFunctionalSingle XReal.lawfulEmb (xRel hp he hk) (rhoX_const T) hT0.ne'
    (wf := fun _ => ⟨n0 g, (List.range dim).map (v g), n3 g⟩)
    (wd := ⟨fun i => XReal.fin (n0 g i), (List.range dim).map fun d i => XReal.fin (v g d i), XReal.fin (n3 g)⟩)
    ⟨fun i => rhoX_const (n0 g i), ⟨List.range dim, fun d i _ => v g d i, _, fun _ => rfl, rfl,
      fun d i => rhoX_const (v g d i)⟩, rhoX_const (n3 g)⟩ a hp.m_pos (hp.diameter_pos hT0)
    (dftAssocRegular_of hp hT0 (hpt g hg) (apart_unit _ _) (apart_unit _ _) (apart_unit _ _))
  exact hA.2

/-- C78, association functional: finite and exact derivatives. -/
theorem C78_association_derivative (T' : ℝ) {a : Fin n} (ha : (fromRecords pr k).assoc_comp = [a]) (la : LinAlg ℝ ℝ)
    (laX : LinAlg XReal (Dual XReal)) (max_iter : ℕ) (tol : ℝ) (tolX : XReal) (dim : ℕ) {γ : Type} (G : List γ)
    {n0 n0' : γ → Fin n → ℝ} {v v' : γ → ℕ → Fin n → ℝ} {n3 n3' : γ → ℝ}
    (hpt : ∀ g ∈ G, AssocPoint (fromRecords pr k) T a (n0 g) ((List.range dim).map (v g)) (n3 g))
    (hna : ∀ g ∈ G, n0 g a ≠ 1e-9) (hn : ∀ g ∈ G, ∑ i, n0 g i ≠ 1e-9)
    (hs : ∀ g ∈ G, inhomStrength (fromRecords pr k) T a (n0 g) ((List.range dim).map (v g)) (n3 g)
      ≠ Real.sqrt f64EPSILON) :
    ∃ (A : γ → ℝ → ℝ) (A' : γ → ℝ),
      (∀ t, associationFunctional la (fromRecords pr k) max_iter tol (T + t * T') (G.map fun g => assocRows dim
          (fun i => n0 g i + t * n0' g i) (fun d i => v g d i + t * v' g d i) (n3 g + t * n3' g))
          = .ok (.ok (G.map fun g => A g t)))
      ∧ associationFunctional laX (xParameters pr k) max_iter tolX (⟨XReal.fin T, XReal.fin T'⟩ : Dual XReal)
          (G.map fun g => assocRows dim (fun i => ⟨XReal.fin (n0 g i), XReal.fin (n0' g i)⟩)
            (fun d i => ⟨XReal.fin (v g d i), XReal.fin (v' g d i)⟩) ⟨XReal.fin (n3 g), XReal.fin (n3' g)⟩)
        = .ok (.ok (G.map fun g => ⟨XReal.fin (A g 0), XReal.fin (A' g)⟩))
      ∧ ∀ g ∈ G, HasDerivAt (A g) (A' g) 0 := by
  have hax : (xParameters pr k).assoc_comp = [a] := (xRel hp he hk).assoc_comp.trans ha
  have key : ∀ g, ∃ A' : ℝ, g ∈ G →
      assocFunctionalSingle (xParameters pr k) (⟨XReal.fin T, XReal.fin T'⟩ : Dual XReal) a
        ⟨fun i => ⟨XReal.fin (n0 g i), XReal.fin (n0' g i)⟩,
          (List.range dim).map fun d i => ⟨XReal.fin (v g d i), XReal.fin (v' g d i)⟩,
          ⟨XReal.fin (n3 g), XReal.fin (n3' g)⟩⟩
        = ⟨XReal.fin (assocFunctionalSingle (fromRecords pr k) (T + 0 * T') a ⟨fun i => n0 g i + 0 * n0' g i,
            (List.range dim).map fun d i => v g d i + 0 * v' g d i, n3 g + 0 * n3' g⟩), XReal.fin A'⟩
      ∧ HasDerivAt (fun t => assocFunctionalSingle (fromRecords pr k) (T + t * T') a ⟨fun i => n0 g i + t * n0' g i,
            (List.range dim).map fun d i => v g d i + t * v' g d i, n3 g + t * n3' g⟩) A' 0 := by
    intro g
    by_cases hg : g ∈ G
    · obtain ⟨A', h1, h2⟩ := curveX_of (rep_assocFunctionalSingle XReal.lawfulEmb (xRel hp he hk)
        (rhoX1_seed T T') (by simpa using hT0.ne')
        (wf := fun x => ⟨fun i => n0 g i + x.2 * n0' g i, (List.range dim).map fun d i => v g d i + x.2 * v' g d i,
          n3 g + x.2 * n3' g⟩)
        (wd := ⟨fun i => ⟨XReal.fin (n0 g i), XReal.fin (n0' g i)⟩,
          (List.range dim).map fun d i => ⟨XReal.fin (v g d i), XReal.fin (v' g d i)⟩,
          ⟨XReal.fin (n3 g), XReal.fin (n3' g)⟩⟩)
        ⟨fun i => rhoX1_seed _ _, ⟨List.range dim, fun d i x => v g d i + x.2 * v' g d i, _, fun _ => rfl, rfl,
          fun d i => rhoX1_seed _ _⟩, rhoX1_seed _ _⟩ a hp.m_pos (by simpa using hp.diameter_pos hT0)
        (by
          simpa using dftAssocRegular_of hp hT0 (hpt g hg) (Or.inl (hna g hg)) (Or.inl (hn g hg)) (Or.inl (hs g hg))))
      exact ⟨A', fun _ => ⟨h1, h2⟩⟩
    · exact ⟨0, fun h => absurd h hg⟩
  choose A' hA using key
  refine ⟨_, A', fun t => associationFunctional_rows la _ ha max_iter tol _ G dim _ _ _, ?_, fun g hg => (hA g hg).2⟩
  rw [associationFunctional_rows laX _ hax max_iter tolX _ G dim]
  exact congrArg (fun l => Except.ok (Except.ok l)) (List.map_congr_left fun g hg => (hA g hg).1)

end records

section pure
variable {pr : Fin 1 → PureRecord ℝ} {k : Fin 1 → Fin 1 → ℝ} (hp : Molecules (fromRecords pr k))
  (he : ∀ i, 0 < (pr i).model_record.epsilon_k) (hk : ∀ i, 0 ≤ (fromRecords pr k).kappa_ab i)
include hp he hk

/-- C78, chain functional for pure components. -/
theorem C78_pure_chain {rho lambda eta : ℝ} (h1 : eta < 1) :
    ∃ A : ℝ, pureChainFunctional (fromRecords pr k) [rho, lambda, eta] = .ok A
      ∧ pureChainFunctional (xParameters pr k) [XReal.fin rho, XReal.fin lambda, XReal.fin eta] = .ok (XReal.fin A) := by
  obtain ⟨A, d, h1, hd, hA⟩ := rep_pureChainFunctional XReal.lawfulEmb (xRel hp he hk) (rhoX_const rho)
    (rhoX_const lambda) (rhoX_const eta) (apart_unit _ _) h1
  exact ⟨A (), h1 (), by rw [hd, hA.2]⟩

/-- C78, chain functional for pure components: finite and exact derivatives. -/
theorem C78_pure_chain_derivative {rho lambda eta rho' lambda' eta' : ℝ} (hl0 : lambda ≠ 0 ∨ rho = 0) (h1 : eta < 1) :
    ∃ (A : ℝ → ℝ) (A' : ℝ),
      (∀ t, pureChainFunctional (fromRecords pr k) [rho + t * rho', lambda + t * lambda', eta + t * eta'] = .ok (A t))
      ∧ pureChainFunctional (xParameters pr k) [(⟨XReal.fin rho, XReal.fin rho'⟩ : Dual XReal),
          ⟨XReal.fin lambda, XReal.fin lambda'⟩, ⟨XReal.fin eta, XReal.fin eta'⟩] = .ok ⟨XReal.fin (A 0), XReal.fin A'⟩
      ∧ HasDerivAt A A' 0 := by
  obtain ⟨A, d, h1, hd, hA⟩ := rep_pureChainFunctional_empty XReal.lawfulEmb (xRel hp he hk) isolated_unit
    (rhoX1_seed rho rho') (rhoX1_seed lambda lambda') (rhoX1_seed eta eta') (by simpa using hl0) (by simpa using h1)
  obtain ⟨A', rfl, hA'⟩ := curveX_of hA
  exact ⟨_, A', fun t => h1 ((), t), hd, hA'⟩

variable {T : ℝ} (hT0 : 0 < T)
include hT0

/-- C78, attractive functional for pure components. -/
theorem C78_pure_attractive {rho : ℝ} (h0 : 0 ≤ rho)
    (heta : Spec.packingFraction (fromRecords pr k) T 1 (fun _ => rho) < 1)
    (hreg : PurePolarRegular PadeFinite (fromRecords pr k) T rho) :
    ∃ A : ℝ, pureAttFunctional (fromRecords pr k) T [rho] = .ok A
      ∧ pureAttFunctional (xParameters pr k) (XReal.fin T) [XReal.fin rho] = .ok (XReal.fin A) := by
  obtain ⟨A, d, h1, hd, hA⟩ := rep_pureAttFunctional XReal.lawfulEmb (xRel hp he hk) (rhoX_const T) hT0.ne'
    (rhoX_const rho) (hp.m_pos 0) (hp.sigma_pos 0).ne'
    (by rw [pureEta_packing]; exact packing_nonneg hp hT0 (fun _ => h0)) (by rw [pureEta_packing]; exact heta) dftPade_rule hreg
  exact ⟨A (), h1 (), by rw [hd, hA.2]⟩

/-- C78, attractive functional for pure components: finite and exact derivatives. -/
theorem C78_pure_attractive_derivative (T' : ℝ) {rho rho' : ℝ} (h0 : 0 ≤ rho)
    (heta : Spec.packingFraction (fromRecords pr k) T 1 (fun _ => rho) < 1)
    (hreg : PurePolarRegular (· ≠ ·) (fromRecords pr k) T rho) :
    ∃ (A : ℝ → ℝ) (A' : ℝ),
      (∀ t, pureAttFunctional (fromRecords pr k) (T + t * T') [rho + t * rho'] = .ok (A t))
      ∧ pureAttFunctional (xParameters pr k) (⟨XReal.fin T, XReal.fin T'⟩ : Dual XReal)
          [⟨XReal.fin rho, XReal.fin rho'⟩] = .ok ⟨XReal.fin (A 0), XReal.fin A'⟩
      ∧ HasDerivAt A A' 0 := by
  obtain ⟨A, d, h1, hd, hA⟩ := rep_pureAttFunctional XReal.lawfulEmb (xRel hp he hk) (rhoX1_seed T T')
    (by simpa using hT0.ne') (rhoX1_seed rho rho') (hp.m_pos 0) (hp.sigma_pos 0).ne'
    (by rw [pureEta_packing]; simpa using packing_nonneg hp hT0 (fun _ => h0)) (by rw [pureEta_packing]; simpa using heta)
    (rep_dftPade XReal.lawfulEmb) (by simpa using hreg)
  obtain ⟨A', rfl, hA'⟩ := curveX_of hA
  exact ⟨_, A', fun t => h1 ((), t), hd, hA'⟩

/-- C78, hard spheres and association of a pure component, on whole grids.  Missing from the full statement: with
the antisymmetrized functional the weighted density must not vanish (see the counterexample below), and packing
fractions of exactly one are excluded although the code does not report them. -/
theorem C78_pure_fmt_association_partial {version : FMTVersion} (hver : version ≠ .KierlikRosinberg) (dim : ℕ)
    {γ : Type} (G : List γ) {n2 n3 : γ → ℝ} {v : γ → ℕ → ℝ}
    (hpt : ∀ g ∈ G, PurePoint (fromRecords pr k) (n2 g) (n3 g) ((List.range dim).map (v g)))
    (hanti : version = .AntiSymWhiteBear → ∀ g ∈ G, n2 g ≠ 0) :
    ∃ A : γ → ℝ,
      pureFmtAssocFunctional (fromRecords pr k) version T (G.map fun g => n2 g :: n3 g ::
          (List.range dim).map (v g)) = .ok (.ok (G.map A))
      ∧ pureFmtAssocFunctional (xParameters pr k) version (XReal.fin T) (G.map fun g => XReal.fin (n2 g) ::
          XReal.fin (n3 g) :: (List.range dim).map fun d => XReal.fin (v g d))
        = .ok (.ok (G.map fun g => XReal.fin (A g))) := by
  have key : ∀ g, ∃ A : ℝ, g ∈ G →
      pureFmtAssocPoint (fromRecords pr k) version T (n2 g) (n3 g) ((List.range dim).map (v g)) = .ok A
      ∧ pureFmtAssocPoint (xParameters pr k) version (XReal.fin T) (XReal.fin (n2 g)) (XReal.fin (n3 g))
          ((List.range dim).map fun d => XReal.fin (v g d)) = .ok (XReal.fin A) := by
    intro g
    by_cases hg : g ∈ G
    · obtain ⟨A, d, h1, hd, hA⟩ := rep_pureFmtAssocPoint XReal.lawfulEmb (xRel hp he hk) version (List.range dim)
        (rhoX_const T) hT0.ne' (rhoX_const (n2 g)) (rhoX_const (n3 g)) (fun d => rhoX_const (v g d)) (hp.m_pos 0)
        (hp.diameter_pos hT0 0)
        (pureFmtRegular_of hp hT0 (hpt g hg) (apart_unit _ _)
          (n2Regular_of hver fun h => ⟨hanti h g hg, apart_unit _ _⟩)
          (fun h => apart_unit _ _) (fun h => apart_unit _ _))
      exact ⟨A (), fun _ => ⟨h1 (), by rw [hd, hA.2]⟩⟩
    · exact ⟨0, fun h => absurd h hg⟩
  choose A hA using key
  have e1 : (1.0 : ℝ) = 1 := by norm_num
  refine ⟨A, ?_, ?_⟩
  · refine pureFmtAssocFunctional_rows _ version _ G dim _ _ _ _ (fun g hg => ?_) (fun g hg => (hA g hg).1)
    simp only [lt_real, re_real, e1, decide_eq_false_iff_not, not_lt]
    exact (hpt g hg).packing.le
  · refine pureFmtAssocFunctional_rows _ version _ G dim _ _ _ _ (fun g hg => ?_) (fun g hg => (hA g hg).2)
    change decide ((1.0 : ℝ) < n3 g) = false
    rw [e1, decide_eq_false_iff_not, not_lt]
    exact (hpt g hg).packing.le

/-- C78, hard spheres and association of a pure component: finite and exact derivatives, on whole grids.  Missing
from the full statement: see `C78_pure_fmt_association_partial`. -/
theorem C78_pure_fmt_association_derivative_partial (T' : ℝ) {version : FMTVersion} (hver : version ≠ .KierlikRosinberg)
    (dim : ℕ) {γ : Type} (G : List γ) {n2 n3 n2' n3' : γ → ℝ} {v v' : γ → ℕ → ℝ}
    (hpt : ∀ g ∈ G, PurePoint (fromRecords pr k) (n2 g) (n3 g) ((List.range dim).map (v g)))
    (hanti : version = .AntiSymWhiteBear → ∀ g ∈ G,
      (((List.range dim).map (v g)).map fun x => x ^ 2).sum < n2 g ^ 2)
    (hn3 : ∀ g ∈ G, n3 g ≠ 1e-5)
    (hn2 : (fromRecords pr k).nassoc = 1 → ∀ g ∈ G, n2 g ≠ 1e-9 * surface (fromRecords pr k) T 0)
    (hs : (fromRecords pr k).nassoc = 1 → ∀ g ∈ G,
      pureStrength (fromRecords pr k) T (n2 g) (n3 g) ((List.range dim).map (v g)) ≠ Real.sqrt f64EPSILON) :
    ∃ (A : γ → ℝ → ℝ) (A' : γ → ℝ),
      (∀ g ∈ G, ∀ t, pureFmtAssocPoint (fromRecords pr k) version (T + t * T') (n2 g + t * n2' g) (n3 g + t * n3' g)
        ((List.range dim).map fun d => v g d + t * v' g d) = .ok (A g t))
      ∧ pureFmtAssocFunctional (xParameters pr k) version (⟨XReal.fin T, XReal.fin T'⟩ : Dual XReal) (G.map fun g =>
          ⟨XReal.fin (n2 g), XReal.fin (n2' g)⟩ :: ⟨XReal.fin (n3 g), XReal.fin (n3' g)⟩ ::
          (List.range dim).map fun d => ⟨XReal.fin (v g d), XReal.fin (v' g d)⟩)
        = .ok (.ok (G.map fun g => ⟨XReal.fin (A g 0), XReal.fin (A' g)⟩))
      ∧ ∀ g ∈ G, HasDerivAt (A g) (A' g) 0 := by
  have key : ∀ g, ∃ (A : ℝ → ℝ) (A' : ℝ), g ∈ G →
      (∀ t, pureFmtAssocPoint (fromRecords pr k) version (T + t * T') (n2 g + t * n2' g) (n3 g + t * n3' g)
        ((List.range dim).map fun d => v g d + t * v' g d) = .ok (A t))
      ∧ pureFmtAssocPoint (xParameters pr k) version (⟨XReal.fin T, XReal.fin T'⟩ : Dual XReal)
          ⟨XReal.fin (n2 g), XReal.fin (n2' g)⟩ ⟨XReal.fin (n3 g), XReal.fin (n3' g)⟩
          ((List.range dim).map fun d => ⟨XReal.fin (v g d), XReal.fin (v' g d)⟩)
        = .ok ⟨XReal.fin (A 0), XReal.fin A'⟩
      ∧ HasDerivAt A A' 0 := by
    intro g
    by_cases hg : g ∈ G
    · obtain ⟨A, d, h1, hd, hA⟩ := rep_pureFmtAssocPoint XReal.lawfulEmb (xRel hp he hk) version (List.range dim)
        (rhoX1_seed T T') (by simpa using hT0.ne') (rhoX1_seed (n2 g) (n2' g)) (rhoX1_seed (n3 g) (n3' g))
        (fun d => rhoX1_seed (v g d) (v' g d)) (hp.m_pos 0) (by simpa using hp.diameter_pos hT0 0)
        (by
          simpa using pureFmtRegular_of hp hT0 (hpt g hg) (Or.inl (hn3 g hg))
            (n2Regular_of hver fun h => ⟨(quotient_ne (hanti h g hg)).1, Or.inl (quotient_ne (hanti h g hg)).2⟩)
            (fun h => Or.inl (hn2 h g hg)) (fun h => Or.inl (hs h g hg)))
      obtain ⟨A', rfl, hA'⟩ := curveX_of hA
      exact ⟨_, A', fun _ => ⟨fun t => h1 ((), t), hd, hA'⟩⟩
    · exact ⟨fun _ => 0, 0, fun h => absurd h hg⟩
  choose A A' hA using key
  have e1 : (1.0 : ℝ) = 1 := by norm_num
  refine ⟨A, A', fun g hg => (hA g hg).1, ?_, fun g hg => (hA g hg).2.2⟩
  refine pureFmtAssocFunctional_rows _ version _ G dim _ _ _ _ (fun g hg => ?_) (fun g hg => (hA g hg).2.1)
  change decide ((1.0 : ℝ) < n3 g) = false
  rw [e1, decide_eq_false_iff_not, not_lt]
  exact (hpt g hg).packing.le

end pure

/-! ## Empty regions -/

theorem dftDipolePhis_absent (p : PcSaftParameters n ℝ) (T eta : ℝ) (rho : Fin n → ℝ)
    (habs : ∀ i ∈ p.dipole_comp, rho i = 0) :
    dftDipolePhi2 p T rho eta = 0 ∧ dftDipolePhi3 p T rho eta = 0 := by
  have h0 : (0.0 : ℝ) = 0 := by norm_num
  have hrho : ∀ i, rho (p.dipole_comp.get i) = 0 := fun i => habs _ (List.get_mem _ _)
  constructor
  · unfold dftDipolePhi2
    simp only [hrho, c, ofF_real, h0]
    apply foldl_stay
    intro i
    simp only [zero_mul, sub_zero]
    exact foldU_stay _ _ _ (fun _ => rfl)
  · unfold dftDipolePhi3
    simp only [hrho, c, ofF_real, h0]
    apply foldl_stay
    intro i
    simp only [zero_mul, sub_zero]
    exact foldU_stay _ _ _ (fun j => foldU_stay _ _ _ (fun _ => rfl))

theorem dftQuadrupolePhis_absent (p : PcSaftParameters n ℝ) (T eta : ℝ) (rho : Fin n → ℝ)
    (habs : ∀ i ∈ p.quadpole_comp, rho i = 0) :
    dftQuadrupolePhi2 p T rho eta = 0 ∧ dftQuadrupolePhi3 p T rho eta = 0 := by
  have h0 : (0.0 : ℝ) = 0 := by norm_num
  have hrho : ∀ i, rho (p.quadpole_comp.get i) = 0 := fun i => habs _ (List.get_mem _ _)
  constructor
  · unfold dftQuadrupolePhi2
    simp only [hrho, c, ofF_real, h0]
    apply foldl_stay
    intro i
    simp only [zero_mul, sub_zero]
    exact foldU_stay _ _ _ (fun _ => rfl)
  · unfold dftQuadrupolePhi3
    simp only [hrho, c, ofF_real, h0]
    apply foldl_stay
    intro i
    simp only [zero_mul, add_zero]
    exact foldU_stay _ _ _ (fun j => foldU_stay _ _ _ (fun _ => rfl))

theorem dftDipoleQuadrupolePhis_absent (p : PcSaftParameters n ℝ) (T eta : ℝ) (rho : Fin n → ℝ)
    (habs : ∀ i ∈ p.dipole_comp, rho i = 0) :
    dftDipoleQuadrupolePhi2 p T rho eta = 0 ∧ dftDipoleQuadrupolePhi3 p T rho eta = 0 := by
  have h0 : (0.0 : ℝ) = 0 := by norm_num
  have hrho : ∀ i, rho (p.dipole_comp.get i) = 0 := fun i => habs _ (List.get_mem _ _)
  constructor
  · unfold dftDipoleQuadrupolePhi2
    simp only [hrho, c, ofF_real, h0]
    apply foldl_stay
    intro i
    simp only [zero_mul, sub_zero]
    exact foldl_stay _ _ (fun _ => rfl)
  · unfold dftDipoleQuadrupolePhi3
    simp only [hrho, c, ofF_real, h0]
    apply foldl_stay
    intro i
    apply foldl_stay
    intro j
    simp only [zero_mul, add_zero]
    rw [foldl_stay _ _ (fun _ => rfl), foldl_stay _ _ (fun _ => rfl)]

theorem dftPolarRegular_absent (p : PcSaftParameters n ℝ) (T : ℝ) (rho : Fin n → ℝ)
    (hd : ∀ i ∈ p.dipole_comp, rho i = 0) (hq : ∀ i ∈ p.quadpole_comp, rho i = 0) :
    DftPolarRegular PadeFinite p T rho where
  dipole _ := Or.inr (by rw [(dftDipolePhis_absent p T _ rho hd).1, (dftDipolePhis_absent p T _ rho hd).2]; simp)
  quadrupole _ := Or.inr (by
    rw [(dftQuadrupolePhis_absent p T _ rho hq).1, (dftQuadrupolePhis_absent p T _ rho hq).2]; simp)
  dipole_quadrupole _ _ := Or.inr (by
    rw [(dftDipoleQuadrupolePhis_absent p T _ rho hd).1, (dftDipoleQuadrupolePhis_absent p T _ rho hd).2]; simp)

theorem purePolarRegular_empty (p : PcSaftParameters 1 ℝ) (T : ℝ) : PurePolarRegular PadeFinite p T 0 where
  dipole _ := Or.inr (by simp)
  quadrupole _ := Or.inr (by simp)

section
variable {pr : Fin n → PureRecord ℝ} {k : Fin n → Fin n → ℝ} (hp : Molecules (fromRecords pr k))
  (he : ∀ i, 0 < (pr i).model_record.epsilon_k) (hk : ∀ i, 0 ≤ (fromRecords pr k).kappa_ab i)
  {T : ℝ} (hT0 : 0 < T)
include hp he hk hT0

/-- C78, attractive functional where the polar components are absent, the other components present or not: the
quotient 0/0 of the polar terms does not reach the result. -/
theorem C78_attractive_polar_components_absent {rho : Fin n → ℝ} (h0 : ∀ i, 0 ≤ rho i)
    (heta : Spec.packingFraction (fromRecords pr k) T 1 rho < 1)
    (hd : ∀ i ∈ (fromRecords pr k).dipole_comp, rho i = 0)
    (hq : ∀ i ∈ (fromRecords pr k).quadpole_comp, rho i = 0) :
    ∃ A : ℝ, attractiveFunctional (fromRecords pr k) T (List.ofFn rho) = .ok A
      ∧ attractiveFunctional (xParameters pr k) (XReal.fin T) (List.ofFn fun i => XReal.fin (rho i))
        = .ok (XReal.fin A) :=
  C78_attractive hp he hk hT0 h0 heta (dftPolarRegular_absent _ _ _ hd hq)

/-- C78, attractive functional in an empty region. -/
theorem C78_attractive_empty :
    ∃ A : ℝ, attractiveFunctional (fromRecords pr k) T (List.ofFn fun _ : Fin n => (0 : ℝ)) = .ok A
      ∧ attractiveFunctional (xParameters pr k) (XReal.fin T) (List.ofFn fun _ : Fin n => XReal.fin 0)
        = .ok (XReal.fin A) :=
  C78_attractive_polar_components_absent hp he hk hT0 (rho := fun _ => 0) (fun _ => le_rfl)
    (by simp [Spec.packingFraction]) (fun _ _ => rfl) (fun _ _ => rfl)

end

/-- C78, attractive functional for pure components in an empty region. -/
theorem C78_pure_attractive_empty {pr : Fin 1 → PureRecord ℝ} {k : Fin 1 → Fin 1 → ℝ}
    (hp : Molecules (fromRecords pr k)) (he : ∀ i, 0 < (pr i).model_record.epsilon_k)
    (hk : ∀ i, 0 ≤ (fromRecords pr k).kappa_ab i) {T : ℝ} (hT0 : 0 < T) :
    ∃ A : ℝ, pureAttFunctional (fromRecords pr k) T [0] = .ok A
      ∧ pureAttFunctional (xParameters pr k) (XReal.fin T) [XReal.fin 0] = .ok (XReal.fin A) :=
  C78_pure_attractive hp he hk hT0 le_rfl (by simp [Spec.packingFraction]) (purePolarRegular_empty _ _)

/-! ## Where it fails -/

theorem add_nan (a : XReal) : a + XReal.nan = XReal.nan := by cases a <;> rfl
theorem nan_add (a : XReal) : XReal.nan + a = XReal.nan := by cases a <;> rfl
theorem mul_nan (a : XReal) : a * XReal.nan = XReal.nan := by cases a <;> rfl
theorem nan_mul (a : XReal) : XReal.nan * a = XReal.nan := by cases a <;> rfl

theorem sumSq_zeros (dim : ℕ) : sumSq (List.replicate dim (XReal.fin 0)) = XReal.fin 0 := by
  have le := XReal.equations
  unfold sumSq
  have e : (c (0.0 : XReal) : XReal) = XReal.fin 0 := by
    change XReal.fin (0.0 : ℝ) = _
    norm_num
  rw [e]
  induction dim with
  | zero => rfl
  | succ m ih =>
    rw [List.replicate_succ, List.foldl_cons]
    have : XReal.fin 0 + XReal.fin 0 * XReal.fin 0 = XReal.fin 0 := by rw [← le.mul, ← le.add]; norm_num
    rw [this, ih]

theorem pureN2n2_empty (dim : ℕ) :
    pureN2n2 .AntiSymWhiteBear (XReal.fin 0) (List.replicate dim (XReal.fin 0)) = .ok XReal.nan := by
  have le := XReal.lawfulEmb
  unfold pureN2n2
  dsimp only
  rw [sumSq_zeros]
  have e1 : XReal.fin 0 / (DualNum.powi (XReal.fin 0) 2 : XReal) = XReal.nan := by
    have : (DualNum.powi (XReal.fin 0) 2 : XReal) = XReal.fin 0 := by
      change XReal.fin (1 * 0 * 0) = _
      norm_num
    rw [this]
    change (if (0 : ℝ) = 0 then XReal.infSign 0 else _) = _
    simp [XReal.infSign]
  rw [e1]
  have e2 : F64.lt (1.0 : XReal) (DualNum.re XReal.nan) = false := rfl
  rw [e2]
  have e3 : (DualNum.powi (-XReal.nan + c (1.0 : XReal)) 3 : XReal) = XReal.nan := by
    change (DualNum.powi (XReal.nan + c (1.0 : XReal)) 3 : XReal) = _
    rw [nan_add]
    rfl
  simp only [Bool.false_eq_true, if_false]
  rw [e3, mul_nan]

/-- C78, what fails: with the antisymmetrized functional the energy density of every pure component is NaN wherever
the fluid is absent, because `xi2` is 0/0 there and the comparison with one does not see it. -/
theorem C78_antisymmetrized_empty_counterexample (p : PcSaftParameters 1 XReal) (T : XReal) (dim : ℕ) :
    pureFmtAssocFunctional p .AntiSymWhiteBear T
      [XReal.fin 0 :: XReal.fin 0 :: List.replicate dim (XReal.fin 0)] = .ok (.ok [XReal.nan]) := by
  have hpt : pureFmtAssocPoint p .AntiSymWhiteBear T (XReal.fin 0) (XReal.fin 0)
      (List.replicate dim (XReal.fin 0)) = .ok XReal.nan := by
    unfold pureFmtAssocPoint
    dsimp only
    rw [pureN2n2_empty]
    dsimp only
    rw [nan_mul, nan_mul, nan_mul, add_nan]
    split_ifs
    · rw [nan_add]
    · rfl
  have h := pureFmtAssocFunctional_rows p .AntiSymWhiteBear T [()] dim (fun _ => XReal.fin 0) (fun _ => XReal.fin 0)
    (fun _ _ => XReal.fin 0) (fun _ => XReal.nan) (fun _ _ => by
      change decide ((1.0 : ℝ) < 0) = false
      norm_num) (fun _ _ => by
      have : (List.range dim).map (fun _ => XReal.fin 0) = List.replicate dim (XReal.fin 0) := by simp
      rw [this]
      exact hpt)
  simpa using h

theorem pureF3_one : pureF3 (XReal.fin 1) = XReal.nan := by
  have le := XReal.lawfulEmb
  have h0 : F64.lt (DualNum.re (XReal.fin 1)) (N3_CUTOFF : XReal) = false := by
    change decide ((1 : ℝ) < 1e-5) = false
    norm_num
  have h1 : (-(XReal.fin 1) + c (1.0 : XReal) : XReal) = XReal.fin 0 := by
    change XReal.fin (-1 + (1.0 : ℝ)) = _
    norm_num
  have h2 : (DualNum.ln1p (-(XReal.fin 1)) : XReal) = XReal.ninf := by
    change (if 0 < (1 : ℝ) + -1 then _ else if (1 : ℝ) + -1 = 0 then XReal.ninf else _) = _
    norm_num
  have h3 : XReal.fin 0 * XReal.fin 0 * XReal.ninf = XReal.nan := by
    change XReal.infSign ((0 : ℝ) * 0 * -1) = _
    norm_num [XReal.infSign]
  unfold pureF3
  rw [h0]
  simp only [Bool.false_eq_true, if_false]
  rw [h1, h2, h3, nan_add, nan_mul, nan_mul, nan_mul, nan_mul]

/-- C78, what fails: a packing fraction of exactly one passes the check and the energy density is NaN, with both
versions of the functional and for every pure component. -/
theorem C78_packing_one_counterexample (p : PcSaftParameters 1 XReal) (version : FMTVersion)
    (hver : version ≠ .KierlikRosinberg) (T n2 : XReal) (dim : ℕ) (v : ℕ → XReal) :
    pureFmtAssocFunctional p version T [n2 :: XReal.fin 1 :: (List.range dim).map v] = .ok (.ok [XReal.nan]) := by
  have hpt : pureFmtAssocPoint p version T n2 (XReal.fin 1) ((List.range dim).map v) = .ok XReal.nan := by
    have hn : ∃ x, pureN2n2 version n2 ((List.range dim).map v) = .ok x := by
      cases version with
      | KierlikRosinberg => exact absurd rfl hver
      | WhiteBear => exact ⟨_, rfl⟩
      | AntiSymWhiteBear => exact ⟨_, rfl⟩
    obtain ⟨x, hx⟩ := hn
    unfold pureFmtAssocPoint
    dsimp only
    rw [hx]
    dsimp only
    rw [pureF3_one, mul_nan, add_nan]
    split_ifs
    · rw [nan_add]
    · rfl
  exact pureFmtAssocFunctional_rows p version T [()] dim (fun _ => n2) (fun _ => XReal.fin 1)
    (fun _ => v) (fun _ => XReal.nan) (fun _ _ => by
      change decide ((1.0 : ℝ) < 1) = false
      norm_num) (fun _ _ => hpt)

end PcSaft.Props
