import Verif.Props.CrossMixture

/-!
# Property C71: association of mixtures against the exact solution

The exact association energy is defined over all components of the mixture, without the lists of associating
components and without an iteration.
-/

namespace PcSaft.Props
open PcSaft Spec
variable {n n' : ℕ}

/-- mass-action matrix of a mixture, over all components -/
noncomputable def mixtureSites (p : PcSaftParameters n ℝ) (T V : ℝ) (N : Fin n → ℝ) :
    Fin n ⊕ Fin n → Fin n ⊕ Fin n → ℝ :=
  siteMatrix (specStrength p T V N) p.na p.nb (fun i => N i / V)

/-- `a` is the association energy at a positive solution of the mass-action equations. -/
def ExactAssociation (p : PcSaftParameters n ℝ) (T V : ℝ) (N : Fin n → ℝ) (a : ℝ) : Prop :=
  ∃ x : Fin n ⊕ Fin n → ℝ, (∀ s, 0 < x s) ∧ MassAction (mixtureSites p T V N) x
    ∧ a = specEnergy p.na p.nb (fun i => N i / V) x * V

/-- Association energies and site numbers are not negative. -/
structure AssocNonneg (p : PcSaftParameters n ℝ) : Prop where
  epsilon : ∀ i, 0 ≤ p.epsilon_k_ab i
  na : ∀ i, 0 ≤ p.na i
  nb : ∀ i, 0 ≤ p.nb i

theorem mixtureSites_nonneg {p : PcSaftParameters n ℝ} {T V : ℝ} {N : Fin n → ℝ} (h : Admissible p T V N)
    (ha : AssocNonneg p) (s t : Fin n ⊕ Fin n) : 0 ≤ mixtureSites p T V N s t :=
  siteMatrix_nonneg (fun i j => specStrength_nonneg h i j (add_nonneg (ha.epsilon i) (ha.epsilon j))) ha.na ha.nb
    (fun i => div_nonneg (h.moles_nonneg i) h.volume.le) s t

/-- C71: the exact association energy exists and is unique. -/
theorem C71_exact_unique {p : PcSaftParameters n ℝ} {T V : ℝ} {N : Fin n → ℝ} (h : Admissible p T V N)
    (ha : AssocNonneg p) : ∃! a, ExactAssociation p T V N a := by
  have hM := mixtureSites_nonneg h ha
  obtain ⟨x, hx, hsol⟩ := MassAction.exists hM
  refine ⟨_, ⟨x, hx, hsol, rfl⟩, ?_⟩
  rintro b ⟨y, hy, hy', rfl⟩
  rw [hy'.unique hM hy hx hsol]

theorem specStrength_merge (pr : Fin n → PureRecord ℝ) (k : Fin n → Fin n → ℝ) (φ : Fin n' → Fin n) (T V : ℝ)
    (w : Fin n' → ℝ) (i j : Fin n') :
    specStrength ((fromRecords pr k).subset φ) T V w i j
      = specStrength (fromRecords pr k) T V (merge φ w) (φ i) (φ j) := by
  have h2 : moment2 ((fromRecords pr k).subset φ) T V w = moment2 (fromRecords pr k) T V (merge φ w) := by
    unfold moment2
    simp only [div_eq_mul_inv, mul_assoc]
    rw [sum_merge]
    rfl
  have h3 : Spec.packingFraction ((fromRecords pr k).subset φ) T V w
      = Spec.packingFraction (fromRecords pr k) T V (merge φ w) := by
    unfold Spec.packingFraction
    simp only [mul_assoc, mul_div_assoc]
    rw [sum_merge]
    rfl
  unfold specStrength
  rw [h2, h3]
  rfl

/-- C71: merging identical components, renumbering them and removing absent components leave the exact
association energy unchanged. -/
theorem C71_exact_merge (pr : Fin n → PureRecord ℝ) (k : Fin n → Fin n → ℝ) (φ : Fin n' → Fin n) {T V : ℝ}
    {w : Fin n' → ℝ} {a : ℝ}
    (hex : ExactAssociation (fromRecords pr k) T V (fun i => ∑ j, if φ j = i then w j else 0) a) :
    ExactAssociation (fromRecords (fun i => pr (φ i)) (fun i j => k (φ i) (φ j))) T V w a := by
  change ExactAssociation (fromRecords pr k) T V (merge φ w) a at hex
  change ExactAssociation ((fromRecords pr k).subset φ) T V w a
  obtain ⟨x, hx, hsol, rfl⟩ := hex
  refine ⟨fun s => x (s.map φ φ), fun s => hx _, ?_, ?_⟩
  · rintro (i | i)
    · have := hsol (.inl (φ i))
      unfold mixtureSites at this ⊢
      rw [(siteMatrix_sum _ _ _ _ _ _).1] at this ⊢
      rw [← this]
      simp only [specStrength_merge, Sum.map_inl, Sum.map_inr]
      congr 2
      have e := sum_merge φ (fun j => w j / V) (fun j => specStrength (fromRecords pr k) T V (merge φ w) (φ i) j
        * ((fromRecords pr k).nb j * x (.inr j)))
      rw [merge_div] at e
      calc _ = ∑ j, w j / V * (specStrength (fromRecords pr k) T V (merge φ w) (φ i) (φ j)
            * ((fromRecords pr k).nb (φ j) * x (.inr (φ j)))) := Finset.sum_congr rfl fun j _ => by
              change specStrength (fromRecords pr k) T V (merge φ w) (φ i) (φ j)
                * (w j / V * (fromRecords pr k).nb (φ j)) * x (.inr (φ j)) = _
              ring
        _ = _ := e.symm
        _ = _ := Finset.sum_congr rfl fun j _ => by ring
    · have := hsol (.inr (φ i))
      unfold mixtureSites at this ⊢
      rw [(siteMatrix_sum _ _ _ _ _ _).2] at this ⊢
      rw [← this]
      simp only [specStrength_merge, Sum.map_inl, Sum.map_inr]
      congr 2
      have e := sum_merge φ (fun j => w j / V) (fun j => specStrength (fromRecords pr k) T V (merge φ w) (φ i) j
        * ((fromRecords pr k).na j * x (.inl j)))
      rw [merge_div] at e
      calc _ = ∑ j, w j / V * (specStrength (fromRecords pr k) T V (merge φ w) (φ i) (φ j)
            * ((fromRecords pr k).na (φ j) * x (.inl (φ j)))) := Finset.sum_congr rfl fun j _ => by
              change specStrength (fromRecords pr k) T V (merge φ w) (φ i) (φ j)
                * (w j / V * (fromRecords pr k).na (φ j)) * x (.inl (φ j)) = _
              ring
        _ = _ := e.symm
        _ = _ := Finset.sum_congr rfl fun j _ => by ring
  · have e := sum_merge φ (fun j => w j / V) (fun i => (fromRecords pr k).na i
      * (Real.log (x (.inl i)) - x (.inl i) / 2 + 1 / 2)
      + (fromRecords pr k).nb i * (Real.log (x (.inr i)) - x (.inr i) / 2 + 1 / 2))
    rw [merge_div] at e
    unfold specEnergy
    rw [e]
    rfl

/-- sums over all components whose terms vanish unless the component associates -/
theorem sum_assoc (pr : Fin n → PureRecord ℝ) (k : Fin n → Fin n → ℝ) (f : Fin n → ℝ)
    (hf : ∀ i, (fromRecords pr k).kappa_ab i = 0 → f i = 0) :
    ∑ i, f ((fromRecords pr k).assoc_comp.get i) = ∑ i, f i := by
  refine Fintype.sum_of_injective (fun i => (fromRecords pr k).assoc_comp.get i)
    (List.nodup_iff_injective_get.1 (nonzeroComp_sorted _).nodup) _ _ (fun i hi => ?_) (fun _ => rfl)
  apply hf
  by_contra hne
  obtain ⟨j, hj⟩ := List.mem_iff_get.1 ((mem_assoc_iff pr k i).2 hne)
  exact hi ⟨j, hj⟩

theorem specStrength_zero {p : PcSaftParameters n ℝ} {i j : Fin n} (T V : ℝ) (N : Fin n → ℝ)
    (h : p.kappa_ab i = 0 ∨ p.kappa_ab j = 0) : specStrength p T V N i j = 0 := by
  unfold specStrength
  rcases h with h | h <;> simp [h]

/-- The exact solution of the mixture restricted to the list of associating components. -/
theorem exact_restrict (pr : Fin n → PureRecord ℝ) (k : Fin n → Fin n → ℝ) {T V : ℝ} {N : Fin n → ℝ}
    (h : Admissible (fromRecords pr k) T V N) {a : ℝ} (hex : ExactAssociation (fromRecords pr k) T V N a) :
    ∃ y : Fin (fromRecords pr k).assoc_comp.length ⊕ Fin (fromRecords pr k).assoc_comp.length → ℝ,
      (∀ s, 0 < y s) ∧ MassAction (stateSites (fromRecords pr k) (StateHD.new T V N)) y
      ∧ a = specEnergy (assocNa (fromRecords pr k)) (assocNb (fromRecords pr k))
          (assocRho (fromRecords pr k) (StateHD.new T V N).partial_density) y * V := by
  obtain ⟨x, hx, hsol, rfl⟩ := hex
  set ac := (fromRecords pr k).assoc_comp.get with hac
  have hκ : ∀ i, (fromRecords pr k).kappa_ab (ac i) ≠ 0 := fun i => (mem_assoc_iff pr k _).1 (List.get_mem _ _)
  have hst : ∀ i j, stateStrength (fromRecords pr k) (StateHD.new T V N) (ac i) (ac j)
      = specStrength (fromRecords pr k) T V N (ac i) (ac j) := fun i j =>
    C58_association_strength pr k T V N h _ _ (hκ i) (hκ j)
  have hone : ∀ i, (fromRecords pr k).kappa_ab i = 0 → x (.inl i) = 1 ∧ x (.inr i) = 1 := by
    intro i hi
    have h1 := hsol (.inl i)
    have h2 := hsol (.inr i)
    unfold mixtureSites at h1 h2
    rw [(siteMatrix_sum _ _ _ _ _ _).1] at h1
    rw [(siteMatrix_sum _ _ _ _ _ _).2] at h2
    simp only [specStrength_zero T V N (Or.inl hi), zero_mul, Finset.sum_const_zero, add_zero, mul_one] at h1 h2
    exact ⟨h1, h2⟩
  refine ⟨fun s => x (s.map ac ac), fun s => hx _, ?_, ?_⟩
  · rintro (i | i)
    · have := hsol (.inl (ac i))
      unfold mixtureSites at this
      unfold stateSites
      rw [(siteMatrix_sum _ _ _ _ _ _).1] at this ⊢
      refine Eq.trans ?_ this
      rw [← sum_assoc pr k (fun j => specStrength (fromRecords pr k) T V N (ac i) j
        * (N j / V * (fromRecords pr k).nb j) * x (.inr j))]
      · simp only [Sum.map_inl, Sum.map_inr]
        congr 2
        refine Finset.sum_congr rfl fun j _ => ?_
        have := hst i j
        simp only [hac] at this
        rw [this]
        rfl
      · intro j hj
        rw [specStrength_zero T V N (Or.inr hj)]
        ring
    · have := hsol (.inr (ac i))
      unfold mixtureSites at this
      unfold stateSites
      rw [(siteMatrix_sum _ _ _ _ _ _).2] at this ⊢
      refine Eq.trans ?_ this
      rw [← sum_assoc pr k (fun j => specStrength (fromRecords pr k) T V N (ac i) j
        * (N j / V * (fromRecords pr k).na j) * x (.inl j))]
      · simp only [Sum.map_inl, Sum.map_inr]
        congr 2
        refine Finset.sum_congr rfl fun j _ => ?_
        have := hst i j
        simp only [hac] at this
        rw [this]
        rfl
      · intro j hj
        rw [specStrength_zero T V N (Or.inr hj)]
        ring
  · unfold specEnergy
    rw [← sum_assoc pr k]
    · rfl
    · intro i hi
      obtain ⟨h1, h2⟩ := hone i hi
      rw [h1, h2, Real.log_one]
      ring

/-- one step of the iteration of the cross-association contribution at a state -/
noncomputable def stateStep (p : PcSaftParameters n ℝ) (tol : ℝ) (solve : Solver p.assoc_comp.length ℝ)
    (s : StateHD n ℝ) :=
  newtonStep solve (fun i j => stateStrength p s (p.assoc_comp.get i) (p.assoc_comp.get j)) (assocNa p)
    (assocNb p) (assocRho p s.partial_density) tol

/-- What a successful evaluation of the cross association looks like: positive site fractions before the last
step. -/
def PositiveRun (p : PcSaftParameters n ℝ) (max_iter : ℕ) (tol : ℝ) (solve : Solver p.assoc_comp.length ℝ)
    (s : StateHD n ℝ) : Prop :=
  ∀ z, LastIterate (stateStep p tol solve s) max_iter (fun _ => 0.2) z → ∀ t, 0 < z t

/-- C71: what the cross-association contribution returns is within `10 tol` times the amount of association
sites of the exact energy. -/
theorem C71_accuracy {pr : Fin n → PureRecord ℝ} {k : Fin n → Fin n → ℝ} {p : PcSaftParameters n ℝ}
    (hp : p = fromRecords pr k) {T V : ℝ} {N : Fin n → ℝ}
    (h : Admissible p T V N) (hn : AssocNonneg p) {max_iter : ℕ} (hmax : 0 < max_iter) {tol : ℝ} (htol0 : 0 ≤ tol)
    (htol : tol ≤ 1 / 8) {solveF solveD : Solver p.assoc_comp.length ℝ} (hs : CorrectSolver solveF)
    (hcut : (f64EPSILON : ℝ) ≤ ∑ i, N i / V) {a : ℝ}
    (hok : crossAssociation p max_iter tol 0 solveF solveD (StateHD.new T V N) = .ok a)
    (hpos : PositiveRun p max_iter tol solveF (StateHD.new T V N)) {b : ℝ} (hex : ExactAssociation p T V N b) :
    |a - b| ≤ 10 * tol * ∑ i, N i * (p.na i + p.nb i) := by
  obtain ⟨y, hy, hsol, rfl⟩ : ∃ y : Fin p.assoc_comp.length ⊕ Fin p.assoc_comp.length → ℝ,
      (∀ s, 0 < y s) ∧ MassAction (stateSites p (StateHD.new T V N)) y
      ∧ b = specEnergy (assocNa p) (assocNb p) (assocRho p (StateHD.new T V N).partial_density) y * V := by
    subst hp
    exact exact_restrict pr k h hex
  have hV := h.volume
  have hst : ∀ i j, 0 ≤ stateStrength p (StateHD.new T V N) (p.assoc_comp.get i) (p.assoc_comp.get j) := by
    subst hp
    intro i j
    rw [C58_association_strength pr k T V N h _ _ ((mem_assoc_iff pr k _).1 (List.get_mem _ _))
      ((mem_assoc_iff pr k _).1 (List.get_mem _ _))]
    exact specStrength_nonneg h _ _ (add_nonneg (hn.epsilon _) (hn.epsilon _))
  have hinj : Function.Injective p.assoc_comp.get := by
    subst hp
    exact List.nodup_iff_injective_get.1 (nonzeroComp_sorted _).nodup
  have hrho : ∀ i, 0 ≤ (StateHD.new T V N).partial_density i := by
    intro i
    rw [StateHD.new_density]
    exact div_nonneg (h.moles_nonneg i) hV.le
  have hpanic := C30_panic p max_iter tol 0 solveF solveD (StateHD.new T V N)
  simp only at hpanic
  match hout : (crossAssociationDensity p 0 solveF solveD (StateHD.new T V N).temperature
      (StateHD.new T V N).partial_density (fun i => hsDiameter p (StateHD.new T V N).temperature i * c (0.5 : ℝ))
      (assocN2 p.m (StateHD.new T V N).partial_density
        (fun i => hsDiameter p (StateHD.new T V N).temperature i * c (0.5 : ℝ)))
      (DualNum.recip (-(packingFraction p.m (StateHD.new T V N).partial_density
        (fun i => hsDiameter p (StateHD.new T V N).temperature i * c (0.5 : ℝ))) + c (1.0 : ℝ))) (c (1.0 : ℝ))
      max_iter tol none).1 with
  | .error e =>
    rw [hout] at hpanic
    have := hpanic.2.1 ⟨e, rfl⟩
    rw [hok] at this
    cases this
  | .ok d =>
    rw [hout] at hpanic
    have := hpanic.1 d rfl
    rw [hok] at this
    obtain rfl := Except.ok.inj this
    have key := (C29_accuracy p solveF solveD hs _ _ _ _ _ _ max_iter tol htol hmax none hcut hst hn.na hn.nb hrho d
      hout hpos y hy hsol).1
    rw [StateHD.new_volume, ← sub_mul, abs_mul, abs_of_pos hV]
    refine (mul_le_mul_of_nonneg_right key hV.le).trans ?_
    rw [mul_assoc]
    refine mul_le_mul_of_nonneg_left ?_ (by positivity)
    rw [Finset.sum_mul]
    have hle : ∑ i, N (p.assoc_comp.get i) * (p.na (p.assoc_comp.get i) + p.nb (p.assoc_comp.get i))
        ≤ ∑ i, N i * (p.na i + p.nb i) := by
      have := Finset.sum_map Finset.univ ⟨p.assoc_comp.get, hinj⟩ (fun i => N i * (p.na i + p.nb i))
      simp only [Function.Embedding.coeFn_mk] at this
      rw [← this]
      exact Finset.sum_le_sum_of_subset_of_nonneg (Finset.subset_univ _) fun i _ _ =>
        mul_nonneg (h.moles_nonneg i) (add_nonneg (hn.na i) (hn.nb i))
    refine le_trans (le_of_eq ?_) hle
    refine Finset.sum_congr rfl fun i _ => ?_
    simp only [assocRho, assocNa, assocNb]
    field_simp

/-- C71: two descriptions of the same mixture, with identical components merged, in another order or without the
absent components, give association energies that differ by no more than the tolerance allows. -/
theorem C71_consistency {pr : Fin n → PureRecord ℝ} {k : Fin n → Fin n → ℝ} {φ : Fin n' → Fin n}
    {p : PcSaftParameters n ℝ} {p' : PcSaftParameters n' ℝ} (hp : p = fromRecords pr k)
    (hp' : p' = fromRecords (fun i => pr (φ i)) (fun i j => k (φ i) (φ j)))
    {T V : ℝ} {w : Fin n' → ℝ} {N : Fin n → ℝ} (hN : N = fun i => ∑ j, if φ j = i then w j else 0)
    (h : Admissible p T V N) (h' : Admissible p' T V w) (hn : AssocNonneg p)
    {max_iter : ℕ} (hmax : 0 < max_iter) {tol : ℝ} (htol0 : 0 ≤ tol) (htol : tol ≤ 1 / 8)
    {solveF solveD : Solver p.assoc_comp.length ℝ} (hs : CorrectSolver solveF)
    {solveF' solveD' : Solver p'.assoc_comp.length ℝ} (hs' : CorrectSolver solveF')
    (hcut : (f64EPSILON : ℝ) ≤ ∑ i, w i / V) {a a' : ℝ}
    (hok : crossAssociation p max_iter tol 0 solveF solveD (StateHD.new T V N) = .ok a)
    (hpos : PositiveRun p max_iter tol solveF (StateHD.new T V N))
    (hok' : crossAssociation p' max_iter tol 0 solveF' solveD' (StateHD.new T V w) = .ok a')
    (hpos' : PositiveRun p' max_iter tol solveF' (StateHD.new T V w)) :
    |a' - a| ≤ 20 * tol * ∑ i, w i * (p'.na i + p'.nb i) := by
  have hmerge : N = merge φ w := hN
  have hna : ∀ i, p'.na i = p.na (φ i) ∧ p'.nb i = p.nb (φ i) ∧ p'.epsilon_k_ab i = p.epsilon_k_ab (φ i) := by
    subst hp hp'
    exact fun i => ⟨rfl, rfl, rfl⟩
  have hn' : AssocNonneg p' :=
    ⟨fun i => (hna i).2.2 ▸ hn.epsilon _, fun i => (hna i).1 ▸ hn.na _, fun i => (hna i).2.1 ▸ hn.nb _⟩
  obtain ⟨b, hb, -⟩ := C71_exact_unique h hn
  have hb' : ExactAssociation p' T V w b := by
    subst hp hp' hN
    exact C71_exact_merge pr k φ hb
  have hcut' : (f64EPSILON : ℝ) ≤ ∑ i, N i / V := by
    rw [← Finset.sum_div] at hcut ⊢
    rwa [hmerge, sum_merge_one]
  have e1 := C71_accuracy hp h hn hmax htol0 htol hs hcut' hok hpos hb
  have e2 := C71_accuracy hp' h' hn' hmax htol0 htol hs' hcut hok' hpos' hb'
  have e3 : ∑ i, N i * (p.na i + p.nb i) = ∑ i, w i * (p'.na i + p'.nb i) := by
    rw [hmerge, sum_merge]
    exact Finset.sum_congr rfl fun i _ => by rw [(hna i).1, (hna i).2.1]
  rw [e3] at e1
  calc |a' - a| = |(a' - b) - (a - b)| := by ring_nf
    _ ≤ |a' - b| + |a - b| := abs_sub _ _
    _ ≤ _ := by linarith

/-- C71: with a single associating component above the switch of the explicit formula, the explicit association
contribution is the exact energy. -/
theorem C71_single (pr : Fin n → PureRecord ℝ) (k : Fin n → Fin n → ℝ) {T V : ℝ} {N : Fin n → ℝ}
    (h : Admissible (fromRecords pr k) T V N) {i : Fin n} (hi : (fromRecords pr k).assoc_comp = [i])
    (hna : 0 < (fromRecords pr k).na i) (hnb : 0 < (fromRecords pr k).nb i)
    (hd : Real.sqrt (f64EPSILON : ℝ) < specStrength (fromRecords pr k) T V N i i * (N i / V)) {b : ℝ}
    (hex : ExactAssociation (fromRecords pr k) T V N b) :
    association (fromRecords pr k) (StateHD.new T V N) = .ok b := by
  have hκ : ∀ j, j ≠ i → (fromRecords pr k).kappa_ab j = 0 := by
    intro j hj
    by_contra hne
    have := (mem_assoc_iff pr k j).2 hne
    rw [hi] at this
    exact hj (by simpa using this)
  obtain ⟨x, hx, hsol, rfl⟩ := hex
  have hAB : MassActionAB (specStrength (fromRecords pr k) T V N i i * (N i / V)) ((fromRecords pr k).na i)
      ((fromRecords pr k).nb i) (x (.inl i)) (x (.inr i)) := by
    constructor
    · have := hsol (.inl i)
      unfold mixtureSites at this
      rw [(siteMatrix_sum _ _ _ _ _ _).1, Finset.sum_eq_single i] at this
      · linear_combination this
      · intro j _ hj
        rw [specStrength_zero T V N (Or.inr (hκ j hj))]
        ring
      · simp
    · have := hsol (.inr i)
      unfold mixtureSites at this
      rw [(siteMatrix_sum _ _ _ _ _ _).2, Finset.sum_eq_single i] at this
      · linear_combination this
      · intro j _ hj
        rw [specStrength_zero T V N (Or.inr (hκ j hj))]
        ring
      · simp
  rw [C23_helmholtz_energy pr k T V N h i _ _ hi hna hnb hd (hx _) (hx _) hAB]
  congr 1
  unfold specEnergy
  rw [Finset.sum_eq_single i]
  · have := h.volume.ne'
    field_simp
  · intro j _ hj
    have h1 := hsol (.inl j)
    have h2 := hsol (.inr j)
    unfold mixtureSites at h1 h2
    rw [(siteMatrix_sum _ _ _ _ _ _).1] at h1
    rw [(siteMatrix_sum _ _ _ _ _ _).2] at h2
    simp only [specStrength_zero T V N (Or.inl (hκ j hj)), zero_mul, Finset.sum_const_zero, add_zero, mul_one] at h1 h2
    rw [h1, h2, Real.log_one]
    ring
  · simp

/-- C71: splitting the only associating component in two switches from the explicit formula to the iteration; the
energies differ by no more than the tolerance allows. -/
theorem C71_single_split {pr : Fin n → PureRecord ℝ} {k : Fin n → Fin n → ℝ} {φ : Fin n' → Fin n}
    {p : PcSaftParameters n ℝ} {p' : PcSaftParameters n' ℝ} (hp : p = fromRecords pr k)
    (hp' : p' = fromRecords (fun i => pr (φ i)) (fun i j => k (φ i) (φ j)))
    {T V : ℝ} {w : Fin n' → ℝ} {N : Fin n → ℝ} (hN : N = fun i => ∑ j, if φ j = i then w j else 0)
    (h : Admissible p T V N) (h' : Admissible p' T V w) (hn : AssocNonneg p)
    {i : Fin n} (hi : p.assoc_comp = [i]) (hna : 0 < p.na i) (hnb : 0 < p.nb i)
    (hd : Real.sqrt (f64EPSILON : ℝ) < specStrength p T V N i i * (N i / V))
    {max_iter : ℕ} (hmax : 0 < max_iter) {tol : ℝ} (htol0 : 0 ≤ tol) (htol : tol ≤ 1 / 8)
    {solveF' solveD' : Solver p'.assoc_comp.length ℝ} (hs' : CorrectSolver solveF')
    (hcut : (f64EPSILON : ℝ) ≤ ∑ i, w i / V) {a' : ℝ}
    (hok' : crossAssociation p' max_iter tol 0 solveF' solveD' (StateHD.new T V w) = .ok a')
    (hpos' : PositiveRun p' max_iter tol solveF' (StateHD.new T V w)) :
    ∃ a, association p (StateHD.new T V N) = .ok a
      ∧ |a' - a| ≤ 10 * tol * ∑ i, w i * (p'.na i + p'.nb i) := by
  have hna' : ∀ i, p'.na i = p.na (φ i) ∧ p'.nb i = p.nb (φ i) ∧ p'.epsilon_k_ab i = p.epsilon_k_ab (φ i) := by
    subst hp hp'
    exact fun i => ⟨rfl, rfl, rfl⟩
  have hn' : AssocNonneg p' :=
    ⟨fun i => (hna' i).2.2 ▸ hn.epsilon _, fun i => (hna' i).1 ▸ hn.na _, fun i => (hna' i).2.1 ▸ hn.nb _⟩
  obtain ⟨b, hb, -⟩ := C71_exact_unique h hn
  have hb' : ExactAssociation p' T V w b := by
    subst hp hp' hN
    exact C71_exact_merge pr k φ hb
  refine ⟨b, ?_, C71_accuracy hp' h' hn' hmax htol0 htol hs' hcut hok' hpos' hb'⟩
  subst hp
  exact C71_single pr k h hi hna hnb hd hb

/-! ## Examples -/

/-- A run that starts at the exact solution stops after one step. -/
theorem run_of_exact_start {p : PcSaftParameters n ℝ} {s : StateHD n ℝ}
    (hst : ∀ i j, 0 ≤ stateStrength p s (p.assoc_comp.get i) (p.assoc_comp.get j)) (hna : ∀ i, 0 ≤ p.na i)
    (hnb : ∀ i, 0 ≤ p.nb i) (hrho : ∀ i, 0 ≤ s.partial_density i)
    (hsol : MassAction (stateSites p s) (fun _ => 0.2)) (m : ℕ) {tol : ℝ} (htol : 0 < tol) :
    stateLoop p (m + 1) tol exactSolver s = .ok (fun _ => 0.2) ∧ PositiveRun p (m + 1) tol exactSolver s := by
  obtain ⟨x', b, h1, h2, h3⟩ := C28_newton_step exactSolver exactSolver_correct
    (fun i j => stateStrength p s (p.assoc_comp.get i) (p.assoc_comp.get j))
    (assocNa p) (assocNb p) (assocRho p s.partial_density) hst (fun i => hna _) (fun i => hnb _) (fun i => hrho _)
    tol (fun _ => 0.2) (fun _ => by norm_num)
  have hb : b = true := by
    rw [h3]
    have : ∀ t, ((0.2 : ℝ)⁻¹ - (1 + ∑ t', stateSites p s t t' * 0.2)) = 0 := by
      intro t
      rw [sub_eq_zero]
      exact inv_eq_of_mul_eq_one_right (hsol t)
    unfold stateSites at this
    simp only [this]
    simpa using htol
  rw [h2.2 hsol, hb] at h1
  constructor
  · unfold stateLoop
    rw [newtonLoop, h1]
    rfl
  · rintro z ⟨j, hj, hr, y, hy⟩ t
    have hz : z = fun _ => 0.2 := by
      cases hr with
      | start => rfl
      | next h _ =>
        unfold stateStep at h
        rw [h1] at h
        simp at h
    rw [hz]
    norm_num

/-- equal strengths for all pairs -/
theorem run_of_equal_strengths {pr : Fin n → PureRecord ℝ} {k : Fin n → Fin n → ℝ} {p : PcSaftParameters n ℝ}
    (hp : p = fromRecords pr k) {T V δ : ℝ} {N : Fin n → ℝ} (h : Admissible p T V N) (hκ : ∀ i, p.kappa_ab i ≠ 0)
    (hna : ∀ i, p.na i = 1) (hnb : ∀ i, p.nb i = 1) (hδ0 : 0 ≤ δ) (hδ : ∀ i j, specStrength p T V N i j = δ)
    (hsum : (∑ i, N i / V) * δ = 20) (m : ℕ) {tol : ℝ} (htol : 0 < tol) :
    stateLoop p (m + 1) tol exactSolver (StateHD.new T V N) = .ok (fun _ => 0.2)
      ∧ PositiveRun p (m + 1) tol exactSolver (StateHD.new T V N) := by
  have hst : ∀ i j, stateStrength p (StateHD.new T V N) i j = δ := by
    subst hp
    intro i j
    rw [C58_association_strength pr k T V N h _ _ (hκ i) (hκ j), hδ]
  have hs : ∑ i, δ * (assocRho p (StateHD.new T V N).partial_density i * 1) * 0.2 = 4 := by
    subst hp
    have := sum_assoc pr k (fun i => δ * (N i / V * 1) * 0.2) (fun i hi => absurd hi (hκ i))
    refine Eq.trans this ?_
    simp only [mul_one]
    rw [← Finset.sum_mul, ← Finset.mul_sum]
    linear_combination 0.2 * hsum
  refine run_of_exact_start (fun i j => (hst _ _).symm ▸ hδ0) (fun i => (hna i).symm ▸ zero_le_one)
    (fun i => (hnb i).symm ▸ zero_le_one) (fun i => ?_) ?_ m htol
  · rw [StateHD.new_density]
    exact div_nonneg (h.moles_nonneg i) h.volume.le
  · unfold stateSites
    rintro (i | i)
    · rw [(siteMatrix_sum _ _ _ _ _ i).1]
      simp only [hst, assocNb, hnb]
      rw [hs]
      norm_num
    · rw [(siteMatrix_sum _ _ _ _ _ i).2]
      simp only [hst, assocNa, hna]
      rw [hs]
      norm_num

theorem crossAssociation_of_loop {p : PcSaftParameters n ℝ} {T V : ℝ} {N : Fin n → ℝ} {m : ℕ} {tol : ℝ}
    {solveF : Solver p.assoc_comp.length ℝ} (solveD : Solver p.assoc_comp.length ℝ)
    {x : Fin p.assoc_comp.length ⊕ Fin p.assoc_comp.length → ℝ} (hcut : (f64EPSILON : ℝ) ≤ ∑ i, N i / V)
    (h : stateLoop p m tol solveF (StateHD.new T V N) = .ok x) :
    ∃ a, crossAssociation p m tol 0 solveF solveD (StateHD.new T V N) = .ok a := by
  have hcut' : ¬ ∑ i, (StateHD.new T V N).partial_density i < (f64EPSILON : ℝ) := by
    simp only [StateHD.new_density]
    exact not_lt.2 hcut
  rw [crossAssociation_real, if_neg hcut', h]
  exact ⟨_, rfl⟩

/-- The twins with 3 and 11 molecules, and the same mixture with the first component split in two. -/
example : ∃ K : ℝ, 0 < K ∧ K < 1 / 10 ∧
    let p := fromRecords (twinRecords K) (fun _ _ => 0)
    let p' := fromRecords (fun i => twinRecords K ((![0, 0, 1] : Fin 3 → Fin 2) i)) (fun _ _ => 0)
    ∃ a a', crossAssociation p 50 1e-10 0 exactSolver exactSolver (StateHD.new 300 1000 ![3, 11]) = .ok a
      ∧ crossAssociation p' 50 1e-10 0 exactSolver exactSolver (StateHD.new 300 1000 ![1, 2, 11]) = .ok a'
      ∧ |a' - a| ≤ 20 * 1e-10 * ∑ i, ![1, 2, 11] i * (p'.na i + p'.nb i) := by
  obtain ⟨K, hK, hK', hstr⟩ := twin_strength
  refine ⟨K, hK, hK', ?_⟩
  intro p p'
  have hN : (![3, 11] : Fin 2 → ℝ) = fun i => ∑ j, if (![0, 0, 1] : Fin 3 → Fin 2) j = i then
      (![1, 2, 11] : Fin 3 → ℝ) j else 0 := by
    funext i
    fin_cases i
    · simp [Fin.sum_univ_three]
      norm_num
    · simp [Fin.sum_univ_three]
  have h : Admissible p 300 1000 ![3, 11] := twinRecords_admissible K _ (by norm_num)
  have hstr' : ∀ i j, specStrength p' 300 1000 ![1, 2, 11] i j = 10000 / 7 := by
    intro i j
    have := specStrength_merge (twinRecords K) (fun _ _ => 0) ![0, 0, 1] 300 1000 ![1, 2, 11] i j
    refine Eq.trans this ?_
    change specStrength p 300 1000 (fun i => ∑ j, if (![0, 0, 1] : Fin 3 → Fin 2) j = i then
      (![1, 2, 11] : Fin 3 → ℝ) j else 0) _ _ = _
    rw [← hN]
    exact hstr _ _
  have h' : Admissible p' 300 1000 ![1, 2, 11] := by
    refine ⟨by norm_num, by norm_num, fun _ => one_pos, fun _ => three_pos, fun _ => ?_, fun i => ?_, ⟨0, ?_⟩, ?_⟩
    · change (0 : ℝ) ≤ 200
      norm_num
    · fin_cases i <;> norm_num
    · norm_num
    · refine lt_of_eq_of_lt ?_ h.packing
      unfold Spec.packingFraction
      have e1 : ∀ i, p'.m i = 1 := fun _ => rfl
      have e2 : ∀ i, p'.sigma i = 3 := fun _ => rfl
      have e3 : ∀ i, p'.epsilon_k i = 200 := fun _ => rfl
      have e4 : ∀ i, p.m i = 1 := fun _ => rfl
      have e5 : ∀ i, p.sigma i = 3 := fun _ => rfl
      have e6 : ∀ i, p.epsilon_k i = 200 := fun _ => rfl
      simp only [e1, e2, e3, e4, e5, e6, Fin.sum_univ_three, Fin.sum_univ_two]
      simp
      ring
  have hcut : (f64EPSILON : ℝ) ≤ ∑ i, (![3, 11] : Fin 2 → ℝ) i / 1000 := by
    simp only [Fin.sum_univ_two, f64EPSILON]
    norm_num
  have hcut' : (f64EPSILON : ℝ) ≤ ∑ i, (![1, 2, 11] : Fin 3 → ℝ) i / 1000 := by
    simp [Fin.sum_univ_three, f64EPSILON]
    norm_num
  have hn : AssocNonneg p := ⟨fun _ => by change (0 : ℝ) ≤ 2500; norm_num, fun _ => zero_le_one, fun _ => zero_le_one⟩
  obtain ⟨l1, l2⟩ := run_of_equal_strengths (p := p) rfl h (fun _ => hK.ne') (fun _ => rfl) (fun _ => rfl)
    (by norm_num) hstr (by simp only [Fin.sum_univ_two]; norm_num) 49 (tol := 1e-10) (by norm_num)
  obtain ⟨l1', l2'⟩ := run_of_equal_strengths (p := p') rfl h' (fun _ => hK.ne') (fun _ => rfl) (fun _ => rfl)
    (by norm_num) hstr' (by simp [Fin.sum_univ_three]; norm_num) 49 (tol := 1e-10) (by norm_num)
  obtain ⟨a, ha⟩ := crossAssociation_of_loop exactSolver hcut l1
  obtain ⟨a', ha'⟩ := crossAssociation_of_loop exactSolver hcut' l1'
  exact ⟨a, a', ha, ha', C71_consistency (p := p) (p' := p') rfl rfl hN h h' hn (by norm_num) (by norm_num)
    (by norm_num) exactSolver_correct exactSolver_correct hcut' ha l2 ha' l2'⟩

/-- One associating component with 14 molecules, and the same component written as two twins. -/
example : ∃ K : ℝ, 0 < K ∧ K < 1 / 10 ∧
    let p := fromRecords (fun _ : Fin 1 => twinRecords K 0) (fun _ _ => 0)
    let p' := fromRecords (twinRecords K) (fun _ _ => 0)
    ∃ a a', association p (StateHD.new 300 1000 ![14]) = .ok a
      ∧ crossAssociation p' 50 1e-10 0 exactSolver exactSolver (StateHD.new 300 1000 ![3, 11]) = .ok a'
      ∧ |a' - a| ≤ 10 * 1e-10 * ∑ i, ![3, 11] i * (p'.na i + p'.nb i) := by
  obtain ⟨K, hK, hK', hstr⟩ := twin_strength
  refine ⟨K, hK, hK', ?_⟩
  intro p p'
  have hN : (![14] : Fin 1 → ℝ) = fun i => ∑ j : Fin 2, if (fun _ => 0 : Fin 2 → Fin 1) j = i then
      (![3, 11] : Fin 2 → ℝ) j else 0 := by
    funext i
    fin_cases i
    simp
    norm_num
  have h' : Admissible p' 300 1000 ![3, 11] := twinRecords_admissible K _ (by norm_num)
  have hp' : p' = fromRecords (fun _ : Fin 2 => twinRecords K 0) (fun _ _ => 0) := rfl
  have hstr0 : specStrength p 300 1000 ![14] 0 0 = 10000 / 7 := by
    have := specStrength_merge (fun _ : Fin 1 => twinRecords K 0) (fun _ _ => 0) (fun _ : Fin 2 => 0) 300 1000
      ![3, 11] 0 0
    refine Eq.trans ?_ (this.symm.trans (hstr 0 0))
    change specStrength p 300 1000 _ _ _ = specStrength p 300 1000 (fun i => ∑ j : Fin 2,
      if (fun _ => 0 : Fin 2 → Fin 1) j = i then (![3, 11] : Fin 2 → ℝ) j else 0) _ _
    rw [← hN]
  have h : Admissible p 300 1000 ![14] := by
    refine ⟨by norm_num, by norm_num, fun _ => one_pos, fun _ => three_pos, fun _ => ?_, fun i => ?_, ⟨0, ?_⟩, ?_⟩
    · change (0 : ℝ) ≤ 200
      norm_num
    · fin_cases i; norm_num
    · norm_num
    · refine lt_of_eq_of_lt ?_ h'.packing
      unfold Spec.packingFraction
      have e1 : ∀ i, p'.m i = 1 := fun _ => rfl
      have e2 : ∀ i, p'.sigma i = 3 := fun _ => rfl
      have e3 : ∀ i, p'.epsilon_k i = 200 := fun _ => rfl
      have e4 : ∀ i, p.m i = 1 := fun _ => rfl
      have e5 : ∀ i, p.sigma i = 3 := fun _ => rfl
      have e6 : ∀ i, p.epsilon_k i = 200 := fun _ => rfl
      simp only [e1, e2, e3, e4, e5, e6, Fin.sum_univ_one, Fin.sum_univ_two]
      simp
      ring
  have hcut : (f64EPSILON : ℝ) ≤ ∑ i, (![3, 11] : Fin 2 → ℝ) i / 1000 := by
    simp only [Fin.sum_univ_two, f64EPSILON]
    norm_num
  have hn : AssocNonneg p := ⟨fun _ => by change (0 : ℝ) ≤ 2500; norm_num, fun _ => zero_le_one, fun _ => zero_le_one⟩
  have hi : p.assoc_comp = [0] := by
    have hne : K ≠ 0 := hK.ne'
    simp [p, fromRecords, twinRecords, nonzeroComp, List.finRange_succ]
    norm_num [hne]
  obtain ⟨l1', l2'⟩ := run_of_equal_strengths (p := p') rfl h' (fun _ => hK.ne') (fun _ => rfl) (fun _ => rfl)
    (by norm_num) hstr (by simp only [Fin.sum_univ_two]; norm_num) 49 (tol := 1e-10) (by norm_num)
  obtain ⟨a', ha'⟩ := crossAssociation_of_loop exactSolver hcut l1'
  obtain ⟨a, ha, hb⟩ := C71_single_split (p := p) (p' := p') rfl hp' hN h h' hn hi one_pos one_pos
    (by
      rw [hstr0]
      refine lt_of_lt_of_le (b := 1) ?_ (by norm_num)
      rw [Real.sqrt_lt' one_pos]
      norm_num [f64EPSILON])
    (by norm_num) (by norm_num) (by norm_num) exactSolver_correct hcut ha' l2'
  exact ⟨a, a', ha, ha', hb⟩

end PcSaft.Props
