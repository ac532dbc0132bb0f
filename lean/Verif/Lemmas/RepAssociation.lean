import Verif.Lemmas.RepModel
import Verif.Lemmas.SiteFraction

/-! # The association contribution of one component preserves representations -/

open Filter Topology

namespace PcSaft
variable {F D X : Type} [F64 F] [DualNum F D] [TopologicalSpace X] {n : ℕ}

section model
variable {x0 : X} {emb : ℝ → F → Prop} {ρ : Rep x0 emb D} (le : LawfulEmb emb)
include le

theorem rep_assocN2 {m : Fin n → ℝ} {m' : Fin n → F} (hm : ∀ i, CR emb (m i) (m' i))
    {rho r : Fin n → X → ℝ} {rhod rd : Fin n → D} (hrho : ∀ i, ρ.R (rho i) (rhod i))
    (hr : ∀ i, ρ.R (r i) (rd i)) :
    ρ.R (fun x => assocN2 m (fun i => rho i x) (fun i => r i x)) (assocN2 m' rhod rd) := by
  have := ρ.sumFin le (f := fun i x => rho i x * c (m i) * r i x * r i x)
    (d := fun i => rhod i * c (m' i) * rd i * rd i) (fun i => by
      have h1 := hrho i
      have h2 := hr i
      have h3 := hm i
      rep)
  unfold assocN2
  rep

theorem rep_associationStrength {p : PcSaftParameters n ℝ} {q : PcSaftParameters n F} (hp : ParamRel emb p q)
    {T n2 n3i xi : X → ℝ} {Td n2d n3id xid : D} (hT : ρ.R T Td) (h0 : T x0 ≠ 0) (h2 : ρ.R n2 n2d)
    (h3 : ρ.R n3i n3id) (hxi : ρ.R xi xid) {r : Fin n → X → ℝ} {rd : Fin n → D} (hr : ∀ i, ρ.R (r i) (rd i))
    (a b : Fin n) (hab : r a x0 + r b x0 ≠ 0) :
    ρ.R (fun x => associationStrength p (T x) (fun i => r i x) (n2 x) (n3i x) (xi x) a b)
      (associationStrength q Td rd n2d n3id xid a b) := by
  have hTi := ρ.recip' hT h0
  have ra := hr a
  have rb := hr b
  have hk : ρ.R (fun x => r a x * r b x / (r a x + r b x) * (n2 x * n3i x * c 2.0))
      (rd a * rd b / (rd a + rd b) * (n2d * n3id * c 2.0)) :=
    ρ.mul (ρ.div (ρ.mul ra rb) (ρ.add ra rb) hab) (ρ.mul (ρ.mul h2 h3) (ρ.constOf (CR.sci le _ _ _)))
  have hk18 := ρ.div hk (ρ.constOf (CR.sci le 180 true 1)) (by norm_num [c])
  unfold associationStrength
  rep

/-- the two numbers differ, or `x0` is an isolated point (only the value at `x0` matters) -/
def Apart (x0 : X) (a b : ℝ) : Prop := a ≠ b ∨ 𝓝 x0 = pure x0

/-- the branch depends on the value of the function at the point only -/
theorem rep_branch {f A B : X → ℝ} {d a b : D} (hf : ρ.R f d) (t : ℝ) {t' : F} (ht : CR emb t t')
    (hne : Apart x0 (f x0) t) (hA : t < f x0 → ρ.R A a) (hB : f x0 ≤ t → ρ.R B b) :
    ρ.R (fun x => if F64.lt t (f x) then A x else B x) (if F64.lt t' (DualNum.re d) then a else b) := by
  have hd : F64.lt t' (DualNum.re d) = decide (t < f x0) := by
    rcases hne with hne | hne
    · exact le.lt ht (ρ.re hf) hne.symm
    · exact ρ.sharp hne ht (ρ.re hf)
  have hc := ρ.continuousAt hf
  by_cases h : t < f x0
  · have e : ∀ᶠ x in 𝓝 x0, t < f x := hc.eventually (lt_mem_nhds h)
    rw [hd]
    simp only [h, decide_true, if_true]
    refine ρ.congr (hA h) (e.mono fun x hx => ?_)
    simp [hx]
  · have e : ∀ᶠ x in 𝓝 x0, ¬t < f x := by
      rcases hne with hne | hne
      · have h' : f x0 < t := lt_of_le_of_ne (not_lt.mp h) hne
        exact (hc.eventually (gt_mem_nhds h')).mono fun x hx => not_lt.mpr hx.le
      · rw [hne]
        exact Filter.eventually_pure.mpr h
    rw [hd]
    simp only [h, decide_false, Bool.false_eq_true, if_false]
    refine ρ.congr (hB (not_lt.mp h)) (e.mono fun x hx => ?_)
    simp [hx]

theorem CR.sqrtEps : CR emb (F64.sqrt f64EPSILON) (F64.sqrt f64EPSILON) := by
  refine CR.sqrt le (CR.sci le _ _ _) ?_
  norm_num [f64EPSILON]

theorem rep_assocSiteFracAB {dr : X → ℝ} {d : D} (hd : ρ.R dr d) {na nb : ℝ} {na' nb' : F} (hna : CR emb na na')
    (hnb : CR emb nb nb') (ha : 0 < na) (hb : 0 < nb) (hne : Apart x0 (dr x0) (Real.sqrt f64EPSILON)) :
    ρ.R (fun x => assocSiteFracAB (dr x) na nb) (assocSiteFracAB d na' nb') := by
  refine rep_branch le hd _ (CR.sqrtEps le) hne ?_ ?_
  · intro h
    have hpos : 0 < dr x0 := lt_of_le_of_lt (Real.sqrt_nonneg _) h
    refine ρ.div (ρ.sub (ρ.sqrt ?_ ?_) ?_) ?_ ?_
    · rep
    · simp only [c, ofF_real, dpowi_real]
      norm_num
      positivity
    · rep
    · rep
    · simp only [c, ofF_real]
      norm_num
      exact ⟨hpos.ne', ha.ne'⟩
  · intro _
    rep

theorem rep_assocSiteFracA {dr : X → ℝ} {d : D} (hd : ρ.R dr d) {na : ℝ} {na' : F} (hna : CR emb na na')
    (ha : 0 < na) (hne : Apart x0 (dr x0) (Real.sqrt f64EPSILON)) :
    ρ.R (fun x => assocSiteFracA (dr x) na) (assocSiteFracA d na') := by
  refine rep_branch le hd _ (CR.sqrtEps le) hne ?_ ?_
  · intro h
    have hpos : 0 < dr x0 := lt_of_le_of_lt (Real.sqrt_nonneg _) h
    refine ρ.div (ρ.sqrt ?_ ?_) ?_ ?_
    · rep
    · simp only [c, ofF_real, dpowi_real]
      norm_num
      have : 0 < dr x0 * na := mul_pos hpos ha
      exact lt_abs.mpr (Or.inl (by linarith))
    · rep
    · simp only [c, ofF_real]
      norm_num
      exact ⟨hpos.ne', ha.ne'⟩
  · intro _
    rep

theorem rep_assocF {x : X → ℝ} {d : D} (h : ρ.R x d) (hx : 0 < x x0) : ρ.R (fun y => assocF (x y)) (assocF d) := by
  have := ρ.ln h hx
  unfold assocF
  rep

theorem rep_assocSingle {dr N : X → ℝ} {d Nd : D} (hd : ρ.R dr d) (hN : ρ.R N Nd) {na nb : ℝ} {na' nb' : F}
    (hna : CR emb na na') (hnb : CR emb nb nb') (ha : 0 < na)
    (hlt : F64.lt (0.0 : F) nb' = decide (0 < nb)) (hne : Apart x0 (dr x0) (Real.sqrt f64EPSILON))
    (hxa : 0 < nb → 0 < assocSiteFracAB (dr x0) na nb)
    (hxb : 0 < nb → 0 < (assocSiteFracAB (dr x0) na nb - 1) * (na / nb) + 1)
    (hx : nb ≤ 0 → 0 < assocSiteFracA (dr x0) na) :
    ρ.R (fun x => assocSingle (dr x) (N x) na nb) (assocSingle d Nd na' nb') := by
  have e0 : (0.0 : ℝ) = 0 := by norm_num
  have e1 : (1.0 : ℝ) = 1 := by norm_num
  unfold assocSingle
  rw [hlt]
  have hlt' : F64.lt (0.0 : ℝ) nb = decide (0 < nb) := by rw [lt_real, e0]
  simp only [hlt']
  by_cases h : 0 < nb
  · simp only [h, decide_true, if_true]
    have hA := rep_assocSiteFracAB le hd hna hnb ha h hne
    have hB : ρ.R (fun x => (assocSiteFracAB (dr x) na nb - c 1.0) * c (na / nb) + c 1.0)
        ((assocSiteFracAB d na' nb' - c 1.0) * c (na' / nb') + c 1.0) := by
      have := CR.div le hna hnb h.ne'
      rep
    have hFA := rep_assocF le hA (hxa h)
    have hFB := rep_assocF le hB (by simp only [c, ofF_real, e1]; exact hxb h)
    exact ρ.mul hN (ρ.add (ρ.mul hFA (ρ.constOf hna)) (ρ.mul hFB (ρ.constOf hnb)))
  · simp only [h, decide_false, Bool.false_eq_true, if_false]
    have hA := rep_assocSiteFracA le hd hna ha hne
    have hFA := rep_assocF le hA (hx (not_lt.mp h))
    exact ρ.mul (ρ.mul hN hFA) (ρ.constOf hna)

/-- the product of association strength and density of the first associating component -/
noncomputable def stateDeltaRho (p : PcSaftParameters n ℝ) (s : StateHD n ℝ) (a : Fin n) : ℝ :=
  associationStrength p s.temperature (fun i => hsDiameter p s.temperature i * (c 0.5 : ℝ))
    (assocN2 p.m s.partial_density (fun i => hsDiameter p s.temperature i * (c 0.5 : ℝ)))
    (DualNum.recip (-stateEta p s + c 1.0)) (c (1.0 : ℝ)) a a * s.partial_density a

variable {p : PcSaftParameters n ℝ} {q : PcSaftParameters n F} (hp : ParamRel emb p q)
include hp

theorem rep_deltaRho {sf : X → StateHD n ℝ} {sd : StateHD n D} (hs : StateRel ρ sf sd)
    (hT : (sf x0).temperature ≠ 0) (heta1 : stateEta p (sf x0) ≠ 1) (a : Fin n)
    (hr : hsDiameter p (sf x0).temperature a ≠ 0) :
    ρ.R (fun x => stateDeltaRho p (sf x) a)
      (associationStrength q sd.temperature (fun i => hsDiameter q sd.temperature i * c 0.5)
        (assocN2 q.m sd.partial_density (fun i => hsDiameter q sd.temperature i * c 0.5))
        (DualNum.recip (-packingFraction q.m sd.partial_density (fun i => hsDiameter q sd.temperature i * c 0.5)
          + c 1.0)) (c (1.0 : F)) a a * sd.partial_density a) := by
  have hrad := rep_radius le hp hs.temperature hT
  have heta := rep_eta le hp hs hT
  have h2 := rep_assocN2 le hp.m hs.partial_density hrad
  have h3 := ρ.recip' (ρ.add (ρ.neg heta) (ρ.constOf (CR.sci le 10 true 1))) (by
    simp only [c, ofF_real]
    norm_num
    intro h
    exact heta1 (by linarith))
  refine ρ.mul (rep_associationStrength le hp hs.temperature hT h2 h3 (ρ.constOf (CR.sci le _ _ _)) hrad a a ?_)
    (hs.partial_density a)
  simp only [c, ofF_real]
  norm_num
  exact hr

/-- the association contribution; the value of a component with an associating component is never a panic -/
theorem rep_association {sf : X → StateHD n ℝ} {sd : StateHD n D} (hs : StateRel ρ sf sd)
    (hT : (sf x0).temperature ≠ 0) (heta1 : stateEta p (sf x0) ≠ 1) (a : Fin n) (l : List (Fin n))
    (hl : p.assoc_comp = a :: l) (hr : hsDiameter p (sf x0).temperature a ≠ 0) (ha : 0 < p.na a)
    (hne : Apart x0 (stateDeltaRho p (sf x0) a) (Real.sqrt f64EPSILON))
    (hxa : 0 < p.nb a → 0 < assocSiteFracAB (stateDeltaRho p (sf x0) a) (p.na a) (p.nb a))
    (hxb : 0 < p.nb a → 0 < (assocSiteFracAB (stateDeltaRho p (sf x0) a) (p.na a) (p.nb a) - 1)
      * (p.na a / p.nb a) + 1)
    (hx : p.nb a ≤ 0 → 0 < assocSiteFracA (stateDeltaRho p (sf x0) a) (p.na a)) :
    ∃ (A : X → ℝ) (d : D), (∀ x, association p (sf x) = .ok (A x)) ∧ association q sd = .ok d ∧ ρ.R A d := by
  have h := rep_assocSingle le (rep_deltaRho le hp hs hT heta1 a hr) (hs.moles a) (hp.na a) (hp.nb a) ha
    (hp.nb_pos a) hne hxa hxb hx
  refine ⟨_, _, fun x => ?_, ?_, h⟩
  · unfold association
    rw [hl]
    rfl
  · unfold association
    rw [hp.assoc_comp, hl]

end model

end PcSaft
