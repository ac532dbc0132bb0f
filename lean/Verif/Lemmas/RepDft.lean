import Verif.Model.DftPure
import Verif.Lemmas.RepPolar
import Verif.Lemmas.RepEos
import Verif.Props.DftRows

/-! # The contributions of the density functional preserve representations -/

open Filter Topology

namespace PcSaft
open Props
variable {F D X : Type} [F64 F] [DualNum F D] [TopologicalSpace X] {n : ℕ}

section model
variable {x0 : X} {emb : ℝ → F → Prop} {ρ : Rep x0 emb D} (le : LawfulEmb emb)
include le

/-! ### Branches -/

/-- the branch depends on the values of both functions at the point only -/
theorem rep_branch_lt {f g A B : X → ℝ} {d e a b : D} {t' : F} (hf : ρ.R f d) (hg : ρ.R g e)
    (ht : emb (g x0) t') (hne : Apart x0 (f x0) (g x0))
    (hA : f x0 < g x0 → ρ.R A a) (hB : g x0 ≤ f x0 → ρ.R B b) :
    ρ.R (fun x => if F64.lt (f x) (g x) then A x else B x) (if F64.lt (DualNum.re d) t' then a else b) := by
  have hd : F64.lt (DualNum.re d) t' = decide (f x0 < g x0) := by
    rcases hne with hne | hne
    · exact le.lt (ρ.re hf) ht hne
    · exact ρ.sharp hne (ρ.re hf) ht
  have hc := ρ.continuousAt hf
  have hc' := ρ.continuousAt hg
  by_cases h : f x0 < g x0
  · have e : ∀ᶠ x in 𝓝 x0, f x < g x := hc.eventually_lt hc' h
    rw [hd]
    simp only [h, decide_true, if_true]
    refine ρ.congr (hA h) (e.mono fun x hx => ?_)
    simp [hx]
  · have e : ∀ᶠ x in 𝓝 x0, ¬f x < g x := by
      rcases hne with hne | hne
      · have h' : g x0 < f x0 := lt_of_le_of_ne (not_lt.mp h) (Ne.symm hne)
        exact (hc'.eventually_lt hc h').mono fun x hx => not_lt.mpr hx.le
      · rw [hne]
        exact Filter.eventually_pure.mpr h
    rw [hd]
    simp only [h, decide_false, Bool.false_eq_true, if_false]
    refine ρ.congr (hB (not_lt.mp h)) (e.mono fun x hx => ?_)
    simp [hx]

/-- comparison with a constant threshold -/
theorem rep_branch_below {f A B : X → ℝ} {d a b : D} (hf : ρ.R f d) (t : ℝ) {t' : F} (ht : CR emb t t')
    (hne : Apart x0 (f x0) t) (hA : f x0 < t → ρ.R A a) (hB : t ≤ f x0 → ρ.R B b) :
    ρ.R (fun x => if F64.lt (f x) t then A x else B x) (if F64.lt (DualNum.re d) t' then a else b) :=
  rep_branch_lt le hf (ρ.constRel ht) ht hne hA hB

/-- the Padé approximant of the polar terms is represented if its two terms satisfy the condition -/
def PadeRule (ρ : Rep x0 emb D) (cond : ℝ → ℝ → Prop) : Prop :=
  ∀ {phi2 phi3 : X → ℝ} {phi2d phi3d : D}, ρ.R phi2 phi2d → ρ.R phi3 phi3d → cond (phi2 x0) (phi3 x0) →
    ρ.R (fun x => dftPade (phi2 x) (phi3 x)) (dftPade phi2d phi3d)

theorem rep_dftPade : PadeRule ρ (· ≠ ·) := by
  intro phi2 phi3 phi2d phi3d h2 h3 hne
  have h := ρ.div (ρ.mul h2 h2) (ρ.sub h2 h3) (sub_ne_zero.mpr hne)
  have hn : F64.isNan (DualNum.re (phi2d * phi2d / (phi2d - phi3d))) = false := le.isNan (ρ.re h)
  unfold dftPade
  simp only [hn, isNan_real]
  exact h

/-! ### Integrals -/

theorem rep_dftPairIntegral {k : ℕ} (hk : k ≤ 5) {m1 m2 : ℝ} {m1' m2' : F} (h1 : CR emb m1 m1') (h2 : CR emb m2 m2')
    {eta e : X → ℝ} {etad ed : D} (heta : ρ.R eta etad) (he : ρ.R e ed) {a b : Fin k → Fin 3 → ℝ}
    {a' b' : Fin k → Fin 3 → F} (ha : ∀ i j, CR emb (a i j) (a' i j)) (hb : ∀ i j, CR emb (b i j) (b' i j)) :
    ρ.R (fun x => dftPairIntegral hk m1 m2 (eta x) a b (e x)) (dftPairIntegral hk m1' m2' etad a' b' ed) := by
  refine ρ.sumFin le (fun i => ?_)
  have := rep_etas le heta (i.castLE hk)
  have := ha i 0
  have := ha i 1
  have := ha i 2
  have := hb i 0
  have := hb i 1
  have := hb i 2
  rep

theorem rep_dftTripletIntegral {m1 m2 : ℝ} {m1' m2' : F} (h1 : CR emb m1 m1') (h2 : CR emb m2 m2')
    {eta : X → ℝ} {etad : D} (heta : ρ.R eta etad) {a : Fin 4 → Fin 3 → ℝ}
    {a' : Fin 4 → Fin 3 → F} (ha : ∀ i j, CR emb (a i j) (a' i j)) :
    ρ.R (fun x => dftTripletIntegral m1 m2 (eta x) a) (dftTripletIntegral m1' m2' etad a') := by
  refine ρ.sumFin le (fun i => ?_)
  have := rep_etas le heta (i.castLE (by decide))
  have := ha i 0
  have := ha i 1
  have := ha i 2
  rep

theorem rep_dftTripletIntegralDQ {m1 : ℝ} {m1' : F} (h1 : CR emb m1 m1')
    {eta : X → ℝ} {etad : D} (heta : ρ.R eta etad) {a : Fin 3 → Fin 2 → ℝ}
    {a' : Fin 3 → Fin 2 → F} (ha : ∀ i j, CR emb (a i j) (a' i j)) :
    ρ.R (fun x => dftTripletIntegralDQ m1 (eta x) a) (dftTripletIntegralDQ m1' etad a') := by
  refine ρ.sumFin le (fun i => ?_)
  have := rep_etas le heta (i.castLE (by decide))
  have := ha i 0
  have := ha i 1
  rep

theorem rep_dftDispersionIntegral {a0 a1 a2 : Fin 7 → ℝ} {a0' a1' a2' : Fin 7 → F} (h0 : ∀ i, CR emb (a0 i) (a0' i))
    (h1 : ∀ i, CR emb (a1 i) (a1' i)) (h2 : ∀ i, CR emb (a2 i) (a2' i)) {m1 m2 eta : X → ℝ} {m1d m2d etad : D}
    (hm1 : ρ.R m1 m1d) (hm2 : ρ.R m2 m2d) (heta : ρ.R eta etad) :
    ρ.R (fun x => dftDispersionIntegral a0 a1 a2 (m1 x) (m2 x) (eta x))
      (dftDispersionIntegral a0' a1' a2' m1d m2d etad) := by
  refine (fold_rel (fun f d => ρ.R (fun x => (f x).1) d.1 ∧ ρ.R (fun x => (f x).2) d.2)
    (fun i x acc => (acc.1 + (m2 x * c (a2 i) + m1 x * c (a1 i) + c (a0 i)) * acc.2, acc.2 * eta x))
    (fun i acc => (acc.1 + (m2d * c (a2' i) + m1d * c (a1' i) + c (a0' i)) * acc.2, acc.2 * etad)) ?_
    (fun _ => (c (0.0 : ℝ), c (1.0 : ℝ))) (c (0.0 : F), c (1.0 : F)) ?_).1
  · rintro i f d ⟨hf, hf2⟩
    have h0 := h0 i
    have h1 := h1 i
    have h2 := h2 i
    dsimp only
    constructor <;> rep
  · dsimp only
    constructor <;> rep

theorem rep_dftC1 {m eta : X → ℝ} {md etad : D} (hm : ρ.R m md) (heta : ρ.R eta etad)
    (h1 : eta x0 ≠ 1) (h2 : eta x0 ≠ 2)
    (h0 : m x0 * (eta x0 * 8 - eta x0 ^ 2 * 2) / (eta x0 - 1) ^ 4
      + (1 - m x0) * (eta x0 * 20 - eta x0 ^ 2 * 27 + eta x0 ^ 3 * 12 - eta x0 ^ 4 * 2)
        / ((eta x0 - 1) * (eta x0 - 2)) ^ 2 + 1 ≠ 0) :
    ρ.R (fun x => dftC1 (m x) (eta x)) (dftC1 md etad) := by
  have e1 : (1.0 : ℝ) = 1 := by norm_num
  have e2 : (2.0 : ℝ) = 2 := by norm_num
  have q1 := sub_ne_zero.mpr h1
  have q2 := sub_ne_zero.mpr h2
  have hden1 : ρ.R (fun x => DualNum.powi (eta x - c 1.0) 4) (DualNum.powi (etad - c 1.0) 4) := by rep
  have hden2 : ρ.R (fun x => DualNum.powi ((eta x - c 1.0) * (eta x - c 2.0)) 2)
      (DualNum.powi ((etad - c 1.0) * (etad - c 2.0)) 2) := by rep
  have hnum1 : ρ.R (fun x => m x * (eta x * c 8.0 - DualNum.powi (eta x) 2 * c 2.0))
      (md * (etad * c 8.0 - DualNum.powi etad 2 * c 2.0)) := by rep
  have hnum2 : ρ.R (fun x => eta x * (eta x * (eta x * (eta x * c 2.0 - c 12.0) + c 27.0) - c 20.0))
      (etad * (etad * (etad * (etad * c 2.0 - c 12.0) + c 27.0) - c 20.0)) := by rep
  have hd1 := ρ.div hnum1 hden1 (by
    simp only [c, ofF_real, dpowi_real, e1]; exact pow_ne_zero _ q1)
  have hd2 := ρ.div hnum2 hden2 (by
    simp only [c, ofF_real, dpowi_real, e1, e2]; exact pow_ne_zero _ (mul_ne_zero q1 q2))
  have hm1 := ρ.sub hm (ρ.constOf (CR.sci le 10 true 1))
  refine ρ.recip' (ρ.add (ρ.add hd1 (ρ.mul hd2 hm1)) (ρ.constOf (CR.sci le 10 true 1))) ?_
  simp only [c, ofF_real, dpowi_real]
  norm_num
  intro h
  apply h0
  rw [← h]
  ring

variable {p : PcSaftParameters n ℝ} {q : PcSaftParameters n F} (hp : ParamRel emb p q)
include hp

theorem rep_dftEta {T : X → ℝ} {Td : D} (hT : ρ.R T Td) (h0 : T x0 ≠ 0) {rho : Fin n → X → ℝ} {rhod : Fin n → D}
    (hrho : ∀ i, ρ.R (rho i) (rhod i)) :
    ρ.R (fun x => dftEta p (T x) (fun i => rho i x)) (dftEta q Td rhod) := by
  refine ρ.sumFin le (fun i => ?_)
  have h1 := hrho i
  have h2 := rep_radius le hp hT h0 i
  rep
  norm_num

theorem rep_dftMBar {rho : Fin n → X → ℝ} {rhod : Fin n → D} (hrho : ∀ i, ρ.R (rho i) (rhod i))
    (hne : Apart x0 (∑ i, rho i x0) f64EPSILON) :
    ρ.R (fun x => dftMBar p (fun i => rho i x)) (dftMBar q rhod) := by
  have hs := ρ.sumFin le hrho
  have hm := ρ.sumFin le (f := fun i x => rho i x * (c (p.m i) : ℝ)) (fun i => ρ.mul (hrho i) (ρ.constOf (hp.m i)))
  have e : sumFin (fun i => rho i x0) = ∑ i, rho i x0 := sumFin_real _
  refine rep_branch le hs f64EPSILON (CR.sci le _ _ _) (by rw [e]; exact hne) (fun h => ?_)
    (fun _ => ρ.constOf (CR.sci le _ _ _))
  refine ρ.div hm hs (ne_of_gt (lt_trans ?_ h))
  norm_num [f64EPSILON]

theorem rep_dftDispersion {T : X → ℝ} {Td : D} (hT : ρ.R T Td) (hT0 : T x0 ≠ 0) {rho : Fin n → X → ℝ}
    {rhod : Fin n → D} (hrho : ∀ i, ρ.R (rho i) (rhod i)) (hne : Apart x0 (∑ i, rho i x0) f64EPSILON)
    {m eta : ℝ} (hm : m = dftMBar p (fun i => rho i x0)) (he : eta = dftEta p (T x0) (fun i => rho i x0))
    (hm0 : m ≠ 0) (h1 : eta ≠ 1) (h2 : eta ≠ 2)
    (h0 : m * (eta * 8 - eta ^ 2 * 2) / (eta - 1) ^ 4
      + (1 - m) * (eta * 20 - eta ^ 2 * 27 + eta ^ 3 * 12 - eta ^ 4 * 2) / ((eta - 1) * (eta - 2)) ^ 2 + 1 ≠ 0) :
    ρ.R (fun x => dftDispersion p (T x) (fun i => rho i x)) (dftDispersion q Td rhod) := by
  subst hm he
  have heta := rep_dftEta le hp hT hT0 hrho
  have hmm := rep_dftMBar le hp hrho hne
  have hTi := ρ.recip' hT hT0
  have hm1 := ρ.div (ρ.sub hmm (ρ.constOf (CR.sci le 10 true 1))) hmm hm0
  have hm2 := ρ.mul (ρ.div (ρ.sub hmm (ρ.constOf (CR.sci le 20 true 1))) hmm hm0) hm1
  obtain ⟨ha0, ha1, ha2, hb0, hb1, hb2⟩ := CR.table le
  have hi1 := rep_dftDispersionIntegral le ha0 ha1 ha2 hm1 hm2 heta
  have hi2 := rep_dftDispersionIntegral le hb0 hb1 hb2 hm1 hm2 heta
  have hc1 := rep_dftC1 le hmm heta h1 h2 h0
  unfold dftDispersion
  dsimp only
  refine ρ.mul (ρ.sub (ρ.mul (ρ.mul (ρ.neg (ρ.sumFin2 le fun i j => ?_)) hi1) (ρ.constOf (CR.sci le _ _ _)))
    (ρ.mul (ρ.mul (ρ.mul (ρ.sumFin2 le fun i j => ?_) hmm) hc1) hi2)) (ρ.constOf (CR.pi le))
  all_goals
    have h1 := hrho i
    have h2 := hrho j
    rep

/-! ### Polar terms -/

theorem rep_dftDipolePhi2 (hm : ∀ i, 0 < p.m i) (hs : ∀ i j, p.sigma_ij i j ≠ 0) {T eta : X → ℝ} {Td etad : D}
    (hT : ρ.R T Td) (h0 : T x0 ≠ 0) (heta : ρ.R eta etad) {rho : Fin n → X → ℝ} {rhod : Fin n → D}
    (hrho : ∀ i, ρ.R (rho i) (rhod i)) :
    ρ.R (fun x => dftDipolePhi2 p (T x) (fun i => rho i x) (eta x)) (dftDipolePhi2 q Td rhod etad) := by
  have hTi := ρ.recip' hT h0
  unfold dftDipolePhi2
  dsimp only
  rw [hp.dipole_comp]
  generalize p.dipole_comp = comp
  obtain ⟨hm1, hm2, -, -⟩ := CR.meanSegmentNumbers le hp.m hm comp
  obtain ⟨hA, hB, -⟩ := CR.polarTables le
  have hI := fun i j (e : X → ℝ) (ed : D) (he : ρ.R e ed) =>
    rep_dftPairIntegral le (by decide : 5 ≤ 5) (hm1 i j) (hm2 i j) heta he hA hB
  have hs3 : ∀ i j, F64.powi (p.sigma_ij i j) 3 ≠ 0 := fun i j => pow_ne_zero _ (hs i j)
  have hc3 : ∀ i j, CR emb (F64.powi (p.sigma_ij i j) 3) (F64.powi (q.sigma_ij i j) 3) :=
    fun i j => CR.powi le (hp.sigma_ij _ _) 3
  have ht := fun i => ρ.mul (ρ.mul (ρ.mul hTi (ρ.constOf (hp.e_k_ij i i))) (ρ.constOf (hc3 i i))) (ρ.constOf (hp.mu2 i))
  refine fold_rel ρ.R _ _ ?_ _ _ (ρ.constOf (CR.sci le _ _ _))
  intro i f d hfd
  have ri := hrho (comp.get i)
  have ti := ht (comp.get i)
  have ii := hI i i _ _ (ρ.mul hTi (ρ.constOf (hp.e_k_ij (comp.get i) (comp.get i))))
  refine foldUpper_rel ρ.R i _ _ ?_ _ _ ?_
  · intro j f d hfd
    have rj := hrho (comp.get j)
    have tj := ht (comp.get j)
    have ij := hI i j _ _ (ρ.mul hTi (ρ.constOf (hp.e_k_ij (comp.get i) (comp.get j))))
    exact ρ.sub hfd (ρ.mul (ρ.mul (ρ.mul ri rj) ij) (ρ.mul (ρ.div (ρ.mul ti tj) (ρ.constOf (hc3 _ _)) (hs3 _ _))
      (ρ.constOf (CR.sci le _ _ _))))
  · exact ρ.sub hfd (ρ.mul (ρ.mul (ρ.mul ri ri) ii) (ρ.div (ρ.mul ti ti) (ρ.constOf (hc3 _ _)) (hs3 _ _)))

theorem rep_dftDipolePhi3 (hm : ∀ i, 0 < p.m i) (hs : ∀ i j, p.sigma_ij i j ≠ 0) {T eta : X → ℝ} {Td etad : D}
    (hT : ρ.R T Td) (h0 : T x0 ≠ 0) (heta : ρ.R eta etad) {rho : Fin n → X → ℝ} {rhod : Fin n → D}
    (hrho : ∀ i, ρ.R (rho i) (rhod i)) :
    ρ.R (fun x => dftDipolePhi3 p (T x) (fun i => rho i x) (eta x)) (dftDipolePhi3 q Td rhod etad) := by
  have hTi := ρ.recip' hT h0
  unfold dftDipolePhi3
  dsimp only
  rw [hp.dipole_comp]
  generalize p.dipole_comp = comp
  obtain ⟨-, -, hm1, hm2⟩ := CR.meanSegmentNumbers le hp.m hm comp
  obtain ⟨-, -, hC, -⟩ := CR.polarTables le
  have hI := fun i j k => rep_dftTripletIntegral le (hm1 i j k) (hm2 i j k) heta hC
  have hc3 : ∀ i j, CR emb (F64.powi (p.sigma_ij i j) 3) (F64.powi (q.sigma_ij i j) 3) :=
    fun i j => CR.powi le (hp.sigma_ij _ _) 3
  have ht := fun i => ρ.mul (ρ.mul (ρ.mul hTi (ρ.constOf (hp.e_k_ij i i))) (ρ.constOf (hc3 i i))) (ρ.constOf (hp.mu2 i))
  have hss : ∀ i j k l m o, p.sigma_ij i j * p.sigma_ij k l * p.sigma_ij m o ≠ 0 :=
    fun i j k l m o => mul_ne_zero (mul_ne_zero (hs _ _) (hs _ _)) (hs _ _)
  have hcs : ∀ i j k l m o, ρ.R (fun _ => (c (p.sigma_ij i j * p.sigma_ij k l * p.sigma_ij m o) : ℝ))
      (c (q.sigma_ij i j * q.sigma_ij k l * q.sigma_ij m o)) :=
    fun i j k l m o => ρ.constOf (CR.mul le (CR.mul le (hp.sigma_ij _ _) (hp.sigma_ij _ _)) (hp.sigma_ij _ _))
  refine fold_rel ρ.R _ _ ?_ _ _ (ρ.constOf (CR.sci le _ _ _))
  intro i f d hfd
  have ri := hrho (comp.get i)
  have ti := ht (comp.get i)
  refine foldUpper_rel ρ.R i _ _ ?_ _ _ ?_
  · intro j f d hfd
    have rj := hrho (comp.get j)
    have tj := ht (comp.get j)
    refine foldUpper_rel ρ.R j _ _ ?_ _ _ ?_
    · intro k f d hfd
      have rk := hrho (comp.get k)
      have tk := ht (comp.get k)
      exact ρ.sub hfd (ρ.mul (ρ.mul (ρ.mul (ρ.mul ri rj) rk) (hI i j k))
        (ρ.mul (ρ.div (ρ.mul (ρ.mul ti tj) tk) (hcs _ _ _ _ _ _) (hss _ _ _ _ _ _)) (ρ.constOf (CR.sci le _ _ _))))
    · exact ρ.sub (ρ.sub hfd (ρ.mul (ρ.mul (ρ.mul (ρ.mul ri ri) rj) (hI i i j))
        (ρ.mul (ρ.div (ρ.mul (ρ.mul ti ti) tj) (hcs _ _ _ _ _ _) (hss _ _ _ _ _ _)) (ρ.constOf (CR.sci le _ _ _)))))
        (ρ.mul (ρ.mul (ρ.mul (ρ.mul ri rj) rj) (hI i j j))
        (ρ.mul (ρ.div (ρ.mul (ρ.mul ti tj) tj) (hcs _ _ _ _ _ _) (hss _ _ _ _ _ _)) (ρ.constOf (CR.sci le _ _ _))))
  · exact ρ.sub hfd (ρ.mul (ρ.mul (ρ.mul (ρ.mul ri ri) ri) (hI i i i))
      (ρ.div (ρ.mul (ρ.mul ti ti) ti) (ρ.constOf (hc3 _ _)) (pow_ne_zero _ (hs _ _))))

theorem rep_dftQuadrupolePhi2 (hm : ∀ i, 0 < p.m i) (hs : ∀ i j, p.sigma_ij i j ≠ 0) {T eta : X → ℝ} {Td etad : D}
    (hT : ρ.R T Td) (h0 : T x0 ≠ 0) (heta : ρ.R eta etad) {rho : Fin n → X → ℝ} {rhod : Fin n → D}
    (hrho : ∀ i, ρ.R (rho i) (rhod i)) :
    ρ.R (fun x => dftQuadrupolePhi2 p (T x) (fun i => rho i x) (eta x)) (dftQuadrupolePhi2 q Td rhod etad) := by
  have hTi := ρ.recip' hT h0
  unfold dftQuadrupolePhi2
  dsimp only
  rw [hp.quadpole_comp]
  generalize p.quadpole_comp = comp
  obtain ⟨hm1, hm2, -, -⟩ := CR.meanSegmentNumbers le hp.m hm comp
  obtain ⟨-, -, -, hA, hB, -⟩ := CR.polarTables le
  have hI := fun i j (e : X → ℝ) (ed : D) (he : ρ.R e ed) =>
    rep_dftPairIntegral le (by decide : 5 ≤ 5) (hm1 i j) (hm2 i j) heta he hA hB
  have hs7 : ∀ i j, F64.powi (p.sigma_ij i j) 7 ≠ 0 := fun i j => pow_ne_zero _ (hs i j)
  have hc7 : ∀ i j, CR emb (F64.powi (p.sigma_ij i j) 7) (F64.powi (q.sigma_ij i j) 7) :=
    fun i j => CR.powi le (hp.sigma_ij _ _) 7
  have ht := fun i => ρ.mul (ρ.mul (ρ.mul hTi (ρ.constOf (hp.e_k_ij i i))) (ρ.constOf (CR.powi le (hp.sigma i) 5)))
    (ρ.constOf (hp.q2 i))
  refine fold_rel ρ.R _ _ ?_ _ _ (ρ.constOf (CR.sci le _ _ _))
  intro i f d hfd
  have ri := hrho (comp.get i)
  have ti := ht (comp.get i)
  have ii := hI i i _ _ (ρ.mul hTi (ρ.constOf (hp.e_k_ij (comp.get i) (comp.get i))))
  refine foldUpper_rel ρ.R i _ _ ?_ _ _ ?_
  · intro j f d hfd
    have rj := hrho (comp.get j)
    have tj := ht (comp.get j)
    have ij := hI i j _ _ (ρ.mul hTi (ρ.constOf (hp.e_k_ij (comp.get i) (comp.get j))))
    exact ρ.sub hfd (ρ.mul (ρ.mul (ρ.mul ri rj) ij) (ρ.div (ρ.mul ti tj) (ρ.constOf (hc7 _ _)) (hs7 _ _)))
  · exact ρ.sub hfd (ρ.mul (ρ.mul (ρ.mul ri ri) ii) (ρ.div (ρ.mul ti ti) (ρ.constOf (hc7 _ _)) (hs7 _ _)))

theorem rep_dftQuadrupolePhi3 (hm : ∀ i, 0 < p.m i) (hs : ∀ i j, p.sigma_ij i j ≠ 0) {T eta : X → ℝ} {Td etad : D}
    (hT : ρ.R T Td) (h0 : T x0 ≠ 0) (heta : ρ.R eta etad) {rho : Fin n → X → ℝ} {rhod : Fin n → D}
    (hrho : ∀ i, ρ.R (rho i) (rhod i)) :
    ρ.R (fun x => dftQuadrupolePhi3 p (T x) (fun i => rho i x) (eta x)) (dftQuadrupolePhi3 q Td rhod etad) := by
  have hTi := ρ.recip' hT h0
  unfold dftQuadrupolePhi3
  dsimp only
  rw [hp.quadpole_comp]
  generalize p.quadpole_comp = comp
  obtain ⟨-, -, hm1, hm2⟩ := CR.meanSegmentNumbers le hp.m hm comp
  obtain ⟨-, -, -, -, -, hC, -⟩ := CR.polarTables le
  have hI := fun i j k => rep_dftTripletIntegral le (hm1 i j k) (hm2 i j k) heta hC
  have ht := fun i => ρ.mul (ρ.mul (ρ.mul hTi (ρ.constOf (hp.e_k_ij i i))) (ρ.constOf (CR.powi le (hp.sigma i) 5)))
    (ρ.constOf (hp.q2 i))
  have hs3 : ∀ i j, F64.powi (p.sigma_ij i j) 3 ≠ 0 := fun i j => pow_ne_zero _ (hs i j)
  have hc3 : ∀ i j, CR emb (F64.powi (p.sigma_ij i j) 3) (F64.powi (q.sigma_ij i j) 3) :=
    fun i j => CR.powi le (hp.sigma_ij _ _) 3
  have hss : ∀ i j k l m o, F64.powi (p.sigma_ij i j) 3 * F64.powi (p.sigma_ij k l) 3
      * F64.powi (p.sigma_ij m o) 3 ≠ 0 :=
    fun i j k l m o => mul_ne_zero (mul_ne_zero (hs3 _ _) (hs3 _ _)) (hs3 _ _)
  have hcs : ∀ i j k l m o, ρ.R (fun _ => (c (F64.powi (p.sigma_ij i j) 3 * F64.powi (p.sigma_ij k l) 3
      * F64.powi (p.sigma_ij m o) 3) : ℝ))
      (c (F64.powi (q.sigma_ij i j) 3 * F64.powi (q.sigma_ij k l) 3 * F64.powi (q.sigma_ij m o) 3)) :=
    fun i j k l m o => ρ.constOf (CR.mul le (CR.mul le (hc3 _ _) (hc3 _ _)) (hc3 _ _))
  refine fold_rel ρ.R _ _ ?_ _ _ (ρ.constOf (CR.sci le _ _ _))
  intro i f d hfd
  have ri := hrho (comp.get i)
  have ti := ht (comp.get i)
  refine foldUpper_rel ρ.R i _ _ ?_ _ _ ?_
  · intro j f d hfd
    have rj := hrho (comp.get j)
    have tj := ht (comp.get j)
    refine foldUpper_rel ρ.R j _ _ ?_ _ _ ?_
    · intro k f d hfd
      have rk := hrho (comp.get k)
      have tk := ht (comp.get k)
      exact ρ.add hfd (ρ.mul (ρ.mul (ρ.mul (ρ.mul ri rj) rk) (hI i j k))
        (ρ.mul (ρ.div (ρ.mul (ρ.mul ti tj) tk) (hcs _ _ _ _ _ _) (hss _ _ _ _ _ _)) (ρ.constOf (CR.sci le _ _ _))))
    · exact ρ.add (ρ.add hfd (ρ.mul (ρ.mul (ρ.mul (ρ.mul ri ri) rj) (hI i i j))
        (ρ.mul (ρ.div (ρ.mul (ρ.mul ti ti) tj) (hcs _ _ _ _ _ _) (hss _ _ _ _ _ _)) (ρ.constOf (CR.sci le _ _ _)))))
        (ρ.mul (ρ.mul (ρ.mul (ρ.mul ri rj) rj) (hI i j j))
        (ρ.mul (ρ.div (ρ.mul (ρ.mul ti tj) tj) (hcs _ _ _ _ _ _) (hss _ _ _ _ _ _)) (ρ.constOf (CR.sci le _ _ _))))
  · exact ρ.add hfd (ρ.mul (ρ.mul (ρ.mul (ρ.mul ri ri) ri) (hI i i i))
      (ρ.div (ρ.mul (ρ.mul ti ti) ti) (ρ.constOf (CR.powi le (hc3 _ _) 3)) (pow_ne_zero _ (hs3 _ _))))

theorem rep_dftDipoleQuadrupolePhi2 (hm : ∀ i, 0 < p.m i) (hs : ∀ i j, p.sigma_ij i j ≠ 0)
    (hs1 : ∀ i, p.sigma i ≠ 0) {T eta : X → ℝ} {Td etad : D}
    (hT : ρ.R T Td) (h0 : T x0 ≠ 0) (heta : ρ.R eta etad) {rho : Fin n → X → ℝ} {rhod : Fin n → D}
    (hrho : ∀ i, ρ.R (rho i) (rhod i)) :
    ρ.R (fun x => dftDipoleQuadrupolePhi2 p (T x) (fun i => rho i x) (eta x))
      (dftDipoleQuadrupolePhi2 q Td rhod etad) := by
  have hTi := ρ.recip' hT h0
  unfold dftDipoleQuadrupolePhi2
  dsimp only
  rw [hp.dipole_comp, hp.quadpole_comp]
  generalize p.dipole_comp = dc
  generalize p.quadpole_comp = qc
  obtain ⟨-, -, -, -, -, -, hA, hB, -⟩ := CR.polarTables le
  have hmu := fun i => ρ.mul (ρ.mul (ρ.mul hTi (ρ.constOf (hp.e_k_ij i i))) (ρ.constOf (CR.powi le (hp.sigma i) 4)))
    (ρ.constOf (hp.mu2 i))
  have hqt := fun i => ρ.mul (ρ.mul (ρ.mul hTi (ρ.constOf (hp.e_k_ij i i))) (ρ.constOf (CR.powi le (hp.sigma i) 4)))
    (ρ.constOf (hp.q2 i))
  refine fold_rel ρ.R _ _ ?_ _ _ (ρ.constOf (CR.sci le _ _ _))
  intro i f d hfd
  refine fold_rel ρ.R _ _ ?_ _ _ hfd
  intro j f d hfd
  have ri := hrho (dc.get i)
  have rj := hrho (qc.get j)
  obtain ⟨hc, hne⟩ := CR.mdqPair le hp hm (dc.get i) (qc.get j)
  exact ρ.sub hfd (ρ.mul (ρ.mul (ρ.mul ri rj)
    (rep_dftPairIntegral le (by decide) (CR.meanSeg1 le hc hne) (CR.meanSeg2 le hc hne) heta
      (ρ.mul hTi (ρ.constOf (hp.e_k_ij _ _))) hA hB))
    (ρ.div (ρ.mul (ρ.mul (ρ.div (hmu _) (ρ.constOf (hp.sigma _)) (hs1 _)) (hqt _)) (ρ.constOf (hp.sigma _)))
      (ρ.constOf (CR.powi le (hp.sigma_ij _ _) 5)) (pow_ne_zero _ (hs _ _))))

theorem rep_dftDipoleQuadrupolePhi3 (hm : ∀ i, 0 < p.m i) (hs : ∀ i j, p.sigma_ij i j ≠ 0)
    {T eta : X → ℝ} {Td etad : D}
    (hT : ρ.R T Td) (h0 : T x0 ≠ 0) (heta : ρ.R eta etad) {rho : Fin n → X → ℝ} {rhod : Fin n → D}
    (hrho : ∀ i, ρ.R (rho i) (rhod i)) :
    ρ.R (fun x => dftDipoleQuadrupolePhi3 p (T x) (fun i => rho i x) (eta x))
      (dftDipoleQuadrupolePhi3 q Td rhod etad) := by
  have hTi := ρ.recip' hT h0
  unfold dftDipoleQuadrupolePhi3
  dsimp only
  rw [hp.dipole_comp, hp.quadpole_comp]
  generalize p.dipole_comp = dc
  generalize p.quadpole_comp = qc
  obtain ⟨-, -, -, -, -, -, -, -, hC⟩ := CR.polarTables le
  have hmu := fun i => ρ.mul (ρ.mul (ρ.mul hTi (ρ.constOf (hp.e_k_ij i i))) (ρ.constOf (CR.powi le (hp.sigma i) 4)))
    (ρ.constOf (hp.mu2 i))
  have hqt := fun i => ρ.mul (ρ.mul (ρ.mul hTi (ρ.constOf (hp.e_k_ij i i))) (ρ.constOf (CR.powi le (hp.sigma i) 4)))
    (ρ.constOf (hp.q2 i))
  have hss : ∀ i j k l m o, F64.powi (p.sigma_ij i j * p.sigma_ij k l * p.sigma_ij m o) 2 ≠ 0 :=
    fun i j k l m o => pow_ne_zero _ (mul_ne_zero (mul_ne_zero (hs _ _) (hs _ _)) (hs _ _))
  have hcs : ∀ i j k l m o, ρ.R (fun _ => (c (F64.powi (p.sigma_ij i j * p.sigma_ij k l * p.sigma_ij m o) 2) : ℝ))
      (c (F64.powi (q.sigma_ij i j * q.sigma_ij k l * q.sigma_ij m o) 2)) :=
    fun i j k l m o => ρ.constOf (CR.powi le
      (CR.mul le (CR.mul le (hp.sigma_ij _ _) (hp.sigma_ij _ _)) (hp.sigma_ij _ _)) 2)
  have hI := fun i j k => rep_dftTripletIntegralDQ le
    (CR.meanSeg1 le (CR.mdqTriplet le hp hm i j k).1 (CR.mdqTriplet le hp hm i j k).2) heta hC
  refine fold_rel ρ.R _ _ ?_ _ _ (ρ.constOf (CR.sci le _ _ _))
  intro i f d hfd
  refine fold_rel ρ.R _ _ ?_ _ _ hfd
  intro j f d hfd
  have ri := hrho (dc.get i)
  have rj := hrho (qc.get j)
  refine fold_rel ρ.R _ _ ?_ _ _ ?_
  · intro k f d hfd
    exact ρ.add hfd (ρ.mul (ρ.mul (ρ.mul (ρ.mul ri rj) (hrho _)) (hI _ _ _))
      (ρ.mul (ρ.div (ρ.mul (ρ.mul (hmu _) (hqt _)) (hqt _)) (hcs _ _ _ _ _ _) (hss _ _ _ _ _ _))
        (ρ.constOf (CR.sci le _ _ _))))
  · refine fold_rel ρ.R _ _ ?_ _ _ hfd
    intro k f d hfd
    exact ρ.add hfd (ρ.mul (ρ.mul (ρ.mul (ρ.mul ri rj) (hrho _)) (hI _ _ _))
      (ρ.div (ρ.mul (ρ.mul (hmu _) (hqt _)) (hmu _)) (hcs _ _ _ _ _ _) (hss _ _ _ _ _ _)))

/-- the second and third order terms of the polar functionals satisfy the condition, for the moments that are
present -/
structure DftPolarRegular (cond : ℝ → ℝ → Prop) (p : PcSaftParameters n ℝ) (T : ℝ) (rho : Fin n → ℝ) : Prop where
  dipole : 0 < p.ndipole → cond (dftDipolePhi2 p T rho (dftEta p T rho) * (c F64.pi : ℝ))
    (dftDipolePhi3 p T rho (dftEta p T rho) * (c PI_SQ_43 : ℝ))
  quadrupole : 0 < p.nquadpole → cond (dftQuadrupolePhi2 p T rho (dftEta p T rho) * (c (F64.pi * 0.5625) : ℝ))
    (dftQuadrupolePhi3 p T rho (dftEta p T rho) * (c (F64.pi * F64.pi * 0.5625) : ℝ))
  dipole_quadrupole : 0 < p.ndipole → 0 < p.nquadpole →
    cond (dftDipoleQuadrupolePhi2 p T rho (dftEta p T rho) * (c (F64.pi * 2.25) : ℝ))
      (dftDipoleQuadrupolePhi3 p T rho (dftEta p T rho) * (c (F64.pi * F64.pi) : ℝ))

theorem rep_dftPolar (hm : ∀ i, 0 < p.m i) (hs : ∀ i j, p.sigma_ij i j ≠ 0)
    (hs1 : ∀ i, p.sigma i ≠ 0) {T : X → ℝ} {Td : D} (hT : ρ.R T Td) (h0 : T x0 ≠ 0) {rho : Fin n → X → ℝ}
    {rhod : Fin n → D} (hrho : ∀ i, ρ.R (rho i) (rhod i)) {cond : ℝ → ℝ → Prop}
    (hpade : PadeRule ρ cond) (hreg : DftPolarRegular cond p (T x0) (fun i => rho i x0)) :
    ρ.R (fun x => dftPolar p (T x) (fun i => rho i x)) (dftPolar q Td rhod) := by
  have heta := rep_dftEta le hp hT h0 hrho
  have h1 : 0 < p.ndipole → ρ.R (fun x => dftDipole p (T x) (fun i => rho i x) (dftEta p (T x) (fun i => rho i x)))
      (dftDipole q Td rhod (dftEta q Td rhod)) := fun h => hpade
    (ρ.mul (rep_dftDipolePhi2 le hp hm hs hT h0 heta hrho) (ρ.constOf (CR.pi le)))
    (ρ.mul (rep_dftDipolePhi3 le hp hm hs hT h0 heta hrho) (ρ.constOf (CR.piSq le))) (hreg.dipole h)
  have h2 : 0 < p.nquadpole →
      ρ.R (fun x => dftQuadrupole p (T x) (fun i => rho i x) (dftEta p (T x) (fun i => rho i x)))
      (dftQuadrupole q Td rhod (dftEta q Td rhod)) := fun h => hpade
    (ρ.mul (rep_dftQuadrupolePhi2 le hp hm hs hT h0 heta hrho)
      (ρ.constOf (CR.mul le (CR.pi le) (CR.sci le _ _ _))))
    (ρ.mul (rep_dftQuadrupolePhi3 le hp hm hs hT h0 heta hrho)
      (ρ.constOf (CR.mul le (CR.mul le (CR.pi le) (CR.pi le)) (CR.sci le _ _ _)))) (hreg.quadrupole h)
  have h3 : 0 < p.ndipole → 0 < p.nquadpole →
      ρ.R (fun x => dftDipoleQuadrupole p (T x) (fun i => rho i x) (dftEta p (T x) (fun i => rho i x)))
      (dftDipoleQuadrupole q Td rhod (dftEta q Td rhod)) := fun h h' => hpade
    (ρ.mul (rep_dftDipoleQuadrupolePhi2 le hp hm hs hs1 hT h0 heta hrho)
      (ρ.constOf (CR.mul le (CR.pi le) (CR.sci le _ _ _))))
    (ρ.mul (rep_dftDipoleQuadrupolePhi3 le hp hm hs hT h0 heta hrho)
      (ρ.constOf (CR.mul le (CR.pi le) (CR.pi le)))) (hreg.dipole_quadrupole h h')
  have e1 : q.ndipole = p.ndipole := congrArg List.length hp.dipole_comp
  have e2 : q.nquadpole = p.nquadpole := congrArg List.length hp.quadpole_comp
  unfold dftPolar
  dsimp only
  rw [e1, e2]
  have hz : ρ.R (fun _ => (c (0.0 : ℝ) : ℝ)) (c (0.0 : F)) := ρ.constOf (CR.sci le _ _ _)
  by_cases d1 : 0 < p.ndipole <;> by_cases d2 : 0 < p.nquadpole <;>
    simp only [d1, d2, if_true, if_false, and_true, and_false]
  · exact ρ.add (ρ.add (ρ.add hz (h1 d1)) (h2 d2)) (h3 d1 d2)
  · exact ρ.add hz (h1 d1)
  · exact ρ.add hz (h2 d2)
  · exact hz

/-! ### Chain -/

omit [F64 F] [DualNum F D] [TopologicalSpace X] le hp in
theorem chainLambda_pos (l : ℝ) : 0 < chainLambda l := by
  have e0 : (0.0 : ℝ) = 0 := by norm_num
  have he : (0 : ℝ) < f64EPSILON := by norm_num [f64EPSILON]
  simp only [chainLambda, lt_real, re_real, e0, c, ofF_real, decide_eq_true_eq]
  split_ifs with h <;> linarith

omit hp in
theorem rep_chainLambda {l : X → ℝ} {ld : D} (h : ρ.R l ld) (h0 : Apart x0 (l x0) 0) :
    ρ.R (fun x => chainLambda (l x)) (chainLambda ld) := by
  have e0 : (0.0 : ℝ) = 0 := by norm_num
  exact ρ.add (rep_branch_below le h 0.0 (CR.sci le _ _ _) (by rw [e0]; exact h0) (fun _ => ρ.neg h) (fun _ => h))
    (ρ.constOf (CR.sci le _ _ _))

omit hp in
theorem rep_chainTerm {d rho l z2 z3 : X → ℝ} {dd rhod ld z2d z3d : D} {m : ℝ} {m' : F} (hm : CR emb m m')
    (hd : ρ.R d dd) (hrho : ρ.R rho rhod) (hl : ρ.R l ld) (h2 : ρ.R z2 z2d) (h3 : ρ.R z3 z3d)
    (hd0 : 0 < d x0) (hl0 : Apart x0 (l x0) 0) (h20 : 0 ≤ z2 x0) (h30 : z3 x0 < 1) :
    ρ.R (fun x => chainTerm (d x) m (rho x) (chainLambda (l x)) (z2 x) (DualNum.recip (-z3 x + (c 1.0 : ℝ))))
      (chainTerm dd m' rhod (chainLambda ld) z2d (DualNum.recip (-z3d + c 1.0))) := by
  have e1 : (1.0 : ℝ) = 1 := by norm_num
  have hu : 0 < -z3 x0 + 1 := by linarith
  have hr := ρ.recip' (ρ.add (ρ.neg h3) (ρ.constOf (CR.sci le 10 true 1))) (by
    simp only [c, ofF_real, e1]; exact hu.ne')
  have hlam := rep_chainLambda le hl hl0
  have hz := ρ.mul h2 hd
  have hy : ρ.R (fun x => z2 x * d x * DualNum.recip (-z3 x + (c 1.0 : ℝ)) * DualNum.recip (-z3 x + (c 1.0 : ℝ))
        * (z2 x * d x * DualNum.recip (-z3 x + (c 1.0 : ℝ)) * c 0.5 + c 1.5) + DualNum.recip (-z3 x + (c 1.0 : ℝ)))
      (z2d * dd * DualNum.recip (-z3d + c 1.0) * DualNum.recip (-z3d + c 1.0)
        * (z2d * dd * DualNum.recip (-z3d + c 1.0) * c 0.5 + c 1.5) + DualNum.recip (-z3d + c 1.0)) := by
    rep
  have hln := ρ.ln (ρ.mul hy hlam) (by
    refine mul_pos ?_ (chainLambda_pos _)
    simp only [c, ofF_real, recip_real, e1]
    norm_num
    have : 0 < (-z3 x0 + 1)⁻¹ := inv_pos.mpr hu
    have : 0 ≤ z2 x0 * d x0 * (-z3 x0 + 1)⁻¹ * (-z3 x0 + 1)⁻¹
        * (z2 x0 * d x0 * (-z3 x0 + 1)⁻¹ * (1 / 2) + 3 / 2) := by positivity
    norm_num at this
    linarith)
  unfold chainTerm
  dsimp only
  rep

/-- rows of the chain functional: densities, shell averages, two moments -/
def chainRows {E : Type} (rho lambda : Fin n → E) (zeta2 zeta3 : E) : List E :=
  List.ofFn rho ++ List.ofFn lambda ++ [zeta2, zeta3]

omit le hp [TopologicalSpace X] in
theorem chainFunctional_chainRows (q : PcSaftParameters n F) (T : D) (rho lambda : Fin n → D) (z2 z3 : D) :
    chainFunctional q T (chainRows rho lambda z2 z3)
      = .ok (Fin.foldl n (fun phi i => phi - chainTerm (hsDiameter q T i) (q.m i)
          (rho i) (chainLambda (lambda i)) z2 (DualNum.recip (-z3 + c 1.0))) (c (0.0 : F))) := by
  have hk : ((chainRows rho lambda z2 z3).length - 2) / 2 = n := by
    simp [chainRows]
    omega
  have h0 := rowSlice_head rho (List.ofFn lambda ++ [z2, z3])
  rw [← List.append_assoc] at h0
  have h1 := rowSlice_append (List.ofFn rho) lambda [z2, z3] (i := n) (by simp)
  have h2 := rowAt_append (List.ofFn rho ++ List.ofFn lambda) z2 [z3] (i := 2 * n) (by simp; omega)
  have h3 : rowAt (List.ofFn rho ++ List.ofFn lambda ++ [z2, z3]) (2 * n + 1) = .ok z3 := by
    have := rowAt_append (List.ofFn rho ++ List.ofFn lambda ++ [z2]) z3 [] (i := 2 * n + 1) (by simp; omega)
    simpa using this
  exact chainFunctional_of_rows q T hk h0 h1 h2 h3

theorem rep_chainFunctional {T : X → ℝ} {Td : D} (hT : ρ.R T Td) (hT0 : T x0 ≠ 0)
    {rho lambda : Fin n → X → ℝ} {rhod lambdad : Fin n → D} {z2 z3 : X → ℝ} {z2d z3d : D}
    (hrho : ∀ i, ρ.R (rho i) (rhod i)) (hl : ∀ i, ρ.R (lambda i) (lambdad i)) (h2 : ρ.R z2 z2d) (h3 : ρ.R z3 z3d)
    (hd0 : ∀ i, 0 < hsDiameter p (T x0) i) (hl0 : ∀ i, Apart x0 (lambda i x0) 0) (h20 : 0 ≤ z2 x0) (h30 : z3 x0 < 1) :
    ∃ (A : X → ℝ) (d : D), (∀ x, chainFunctional p (T x)
        (chainRows (fun i => rho i x) (fun i => lambda i x) (z2 x) (z3 x)) = .ok (A x))
      ∧ chainFunctional q Td (chainRows rhod lambdad z2d z3d) = .ok d ∧ ρ.R A d := by
  refine ⟨_, _, fun x => chainFunctional_chainRows p _ _ _ _ _, chainFunctional_chainRows q _ _ _ _ _, ?_⟩
  refine fold_rel ρ.R _ _ ?_ _ _ (ρ.constOf (CR.sci le _ _ _))
  intro i f d hfd
  exact ρ.sub hfd (rep_chainTerm le (hp.m i) (rep_hsDiameter le hp hT hT0 i) (hrho i) (hl i) h2 h3 (hd0 i) (hl0 i)
    h20 h30)

/-! ### Attraction -/

omit le hp [TopologicalSpace X] in
theorem attractiveFunctional_ofFn (q : PcSaftParameters n F) (T : D) (rho : Fin n → D) :
    attractiveFunctional q T (List.ofFn rho) = .ok (dftDispersion q T rho + dftPolar q T rho) := by
  have h := rowSlice_head rho []
  rw [List.append_nil] at h
  unfold attractiveFunctional
  rw [h]
  rfl

omit [F64 F] [DualNum F D] [TopologicalSpace X] le hp in
theorem dftMBar_pos {p : PcSaftParameters n ℝ} (hm : ∀ i, 0 < p.m i) {rho : Fin n → ℝ} (h0 : ∀ i, 0 ≤ rho i) :
    0 < dftMBar p rho := by
  have he : (0 : ℝ) < f64EPSILON := by norm_num [f64EPSILON]
  simp only [dftMBar, sumFin_real, c, ofF_real, lt_real, re_real, decide_eq_true_eq]
  split_ifs with h
  · refine div_pos ?_ (he.trans h)
    obtain ⟨i, _, hi⟩ := Finset.exists_ne_zero_of_sum_ne_zero (he.trans h).ne'
    exact Finset.sum_pos' (fun j _ => mul_nonneg (h0 j) (hm j).le)
      ⟨i, Finset.mem_univ _, mul_pos (lt_of_le_of_ne (h0 i) (Ne.symm hi)) (hm i)⟩
  · norm_num

omit [F64 F] [DualNum F D] [TopologicalSpace X] le hp in
theorem dftEta_nonneg {p : PcSaftParameters n ℝ} (hm : ∀ i, 0 < p.m i) {T : ℝ} (hd : ∀ i, 0 < hsDiameter p T i)
    {rho : Fin n → ℝ} (h0 : ∀ i, 0 ≤ rho i) : 0 ≤ dftEta p T rho := by
  have hpi := Real.pi_pos
  simp only [dftEta, sumFin_real, c, ofF_real, pi_real]
  refine Finset.sum_nonneg fun i _ => ?_
  have := hm i
  have := hd i
  have := h0 i
  positivity

theorem rep_attractiveFunctional {T : X → ℝ} {Td : D} (hT : ρ.R T Td) (hT0 : T x0 ≠ 0) {rho : Fin n → X → ℝ}
    {rhod : Fin n → D} (hrho : ∀ i, ρ.R (rho i) (rhod i)) (hm : ∀ i, 0 < p.m i) (hs : ∀ i j, p.sigma_ij i j ≠ 0)
    (hs1 : ∀ i, p.sigma i ≠ 0) (hd : ∀ i, 0 < hsDiameter p (T x0) i) (h0 : ∀ i, 0 ≤ rho i x0)
    (hne : Apart x0 (∑ i, rho i x0) f64EPSILON) (heta : dftEta p (T x0) (fun i => rho i x0) < 1)
    {cond : ℝ → ℝ → Prop} (hpade : PadeRule ρ cond) (hreg : DftPolarRegular cond p (T x0) (fun i => rho i x0)) :
    ∃ (A : X → ℝ) (d : D), (∀ x, attractiveFunctional p (T x) (List.ofFn (fun i => rho i x)) = .ok (A x))
      ∧ attractiveFunctional q Td (List.ofFn rhod) = .ok d ∧ ρ.R A d := by
  refine ⟨_, _, fun x => attractiveFunctional_ofFn p _ _, attractiveFunctional_ofFn q _ _, ?_⟩
  have hmp := dftMBar_pos hm h0
  refine ρ.add (rep_dftDispersion le hp hT hT0 hrho hne rfl rfl hmp.ne' heta.ne (by linarith) ?_)
    (rep_dftPolar le hp hm hs hs1 hT hT0 hrho hpade hreg)
  rcases (dftEta_nonneg hm hd h0).eq_or_lt with h | h
  · rw [← h]
    norm_num
  · exact (c1_denominator_pos hmp h heta).ne'

/-! ### Association -/

omit le hp [F64 F] [DualNum F D] [TopologicalSpace X] in
theorem foldl_rel {ι S S' : Type} (Q : (X → S) → S' → Prop) (step : ι → X → S → S) (step' : ι → S' → S')
    (hs : ∀ i f d, Q f d → Q (fun x => step i x (f x)) (step' i d)) (L : List ι) :
    ∀ (f0 : X → S) (d0 : S'), Q f0 d0 →
      Q (fun x => L.foldl (fun acc i => step i x acc) (f0 x)) (L.foldl (fun acc i => step' i acc) d0) := by
  induction L with
  | nil => exact fun _ _ h => h
  | cons i L ih => exact fun f0 d0 h => ih _ _ (hs i _ _ h)

/-- the weighted densities `wd` represent the family `wf` -/
structure DensitiesRel (ρ : Rep x0 emb D) (wf : X → AssocDensities n ℝ) (wd : AssocDensities n D) : Prop where
  n0i : ∀ i, ρ.R (fun x => (wf x).n0i i) (wd.n0i i)
  n2v : ∃ (L : List ℕ) (v : ℕ → Fin n → X → ℝ) (vd : ℕ → Fin n → D), (∀ x, (wf x).n2v = L.map (fun d i => v d i x))
    ∧ wd.n2v = L.map vd ∧ ∀ d i, ρ.R (v d i) (vd d i)
  n3 : ρ.R (fun x => (wf x).n3) wd.n3

theorem rep_assocN2i {r : Fin n → X → ℝ} {rd : Fin n → D} (hr : ∀ i, ρ.R (r i) (rd i))
    {wf : X → AssocDensities n ℝ} {wd : AssocDensities n D} (hw : DensitiesRel ρ wf wd) (i : Fin n) :
    ρ.R (fun x => assocN2i p (fun i => r i x) (wf x) i) (assocN2i q rd wd i) := by
  have h1 := hr i
  have h2 := hw.n0i i
  unfold assocN2i
  rep

theorem rep_assocN2Total {r : Fin n → X → ℝ} {rd : Fin n → D} (hr : ∀ i, ρ.R (r i) (rd i))
    {wf : X → AssocDensities n ℝ} {wd : AssocDensities n D} (hw : DensitiesRel ρ wf wd) :
    ρ.R (fun x => assocN2Total p (fun i => r i x) (wf x)) (assocN2Total q rd wd) :=
  ρ.sumFin le (rep_assocN2i le hp hr hw)

theorem rep_assocRho0 {r : Fin n → X → ℝ} {rd : Fin n → D} (hr : ∀ i, ρ.R (r i) (rd i))
    {wf : X → AssocDensities n ℝ} {wd : AssocDensities n D} (hw : DensitiesRel ρ wf wd) (i : Fin n)
    (hm : p.m i ≠ 0) (hr0 : r i x0 ≠ 0) (hne : Apart x0 ((wf x0).n0i i) N0_CUTOFF) :
    ρ.R (fun x => assocRho0 p (fun i => r i x) (wf x) i) (assocRho0 q rd wd i) := by
  obtain ⟨L, v, vd, hv, hvd, hvr⟩ := hw.n2v
  have h0 := hw.n0i i
  have hn2 := rep_assocN2i le hp hr hw i
  refine rep_branch_below le h0 N0_CUTOFF (CR.sci le _ _ _) hne (fun _ => h0) (fun h => ?_)
  have hpos : (wf x0).n0i i ≠ 0 := ne_of_gt (lt_of_lt_of_le (by norm_num [N0_CUTOFF]) h)
  have hsum : ρ.R (fun x => (wf x).n2v.foldl (fun acc v => acc + v i * v i) (c (0.0 : ℝ)))
      (wd.n2v.foldl (fun acc v => acc + v i * v i) (c (0.0 : F))) := by
    simp only [hv, hvd, List.foldl_map]
    exact foldl_rel ρ.R (fun d x acc => acc + v d i x * v d i x) (fun d acc => acc + vd d i * vd d i)
      (fun d f e hh => ρ.add hh (ρ.mul (hvr d i) (hvr d i))) L _ _ (ρ.constOf (CR.sci le _ _ _))
  refine ρ.mul (ρ.add (ρ.div hsum (ρ.neg (ρ.mul hn2 hn2)) ?_) (ρ.constOf (CR.sci le _ _ _))) h0
  refine neg_ne_zero.mpr (mul_self_ne_zero.mpr ?_)
  simp only [assocN2i, c, ofF_real, dpowi_real, pi_real]
  norm_num
  exact ⟨hpos, hr0, hm⟩

theorem rep_assocXi {r : Fin n → X → ℝ} {rd : Fin n → D} (hr : ∀ i, ρ.R (r i) (rd i))
    {wf : X → AssocDensities n ℝ} {wd : AssocDensities n D} (hw : DensitiesRel ρ wf wd)
    (hm : ∀ i, 0 < p.m i) (hr0 : ∀ i, 0 < r i x0) (h0 : ∀ i, 0 ≤ (wf x0).n0i i)
    (hne : Apart x0 (∑ i, (wf x0).n0i i) N0_CUTOFF) :
    ρ.R (fun x => assocXi p (fun i => r i x) (wf x)) (assocXi q rd wd) := by
  obtain ⟨L, v, vd, hv, hvd, hvr⟩ := hw.n2v
  have hs := ρ.sumFin le hw.n0i
  have hn2 := rep_assocN2Total le hp hr hw
  refine rep_branch_below le hs N0_CUTOFF (CR.sci le _ _ _) (by rw [sumFin_real]; exact hne)
    (fun _ => ρ.constOf (CR.sci le _ _ _)) (fun h => ?_)
  rw [sumFin_real] at h
  have hsum : ρ.R (fun x => (wf x).n2v.foldl (fun acc v => acc + sumFin v * sumFin v) (c (0.0 : ℝ)))
      (wd.n2v.foldl (fun acc v => acc + sumFin v * sumFin v) (c (0.0 : F))) := by
    simp only [hv, hvd, List.foldl_map]
    exact foldl_rel ρ.R (fun d x acc => acc + sumFin (fun i => v d i x) * sumFin (fun i => v d i x))
      (fun d acc => acc + sumFin (vd d) * sumFin (vd d))
      (fun d f e hh => ρ.add hh (ρ.mul (ρ.sumFin le (hvr d)) (ρ.sumFin le (hvr d)))) L _ _
      (ρ.constOf (CR.sci le _ _ _))
  refine ρ.add (ρ.div hsum (ρ.neg (ρ.mul hn2 hn2)) ?_) (ρ.constOf (CR.sci le _ _ _))
  have := ((C55_empty_regions p (fun i => r i x0) (wf x0) hm hr0 h0).2.2.2 h).1
  exact neg_ne_zero.mpr this.ne'

/-- association strength times density of the single associating component, /repo/src/dft/association.rs:129-139 -/
def dftDeltaRho (p : PcSaftParameters n F) (temperature : D) (a : Fin n) (wd : AssocDensities n D) : D :=
  let r := fun i => hsDiameter p temperature i * c 0.5
  let n3i := DualNum.recip (-wd.n3 + c 1.0)
  let k := assocN2Total p r wd * n3i * r a
  ((k / c 18.0 + c 0.5) * k * assocXi p r wd + c 1.0) * n3i
    * (DualNum.expm1 (DualNum.recip temperature * c (p.epsilon_k_aibj a a))
      * c (F64.powi (p.sigma a) 3 * p.kappa_aibj a a))
    * assocRho0 p r wd a

/-- energy density of a single associating component, given strength times density -/
def dftSites (deltarho rho0 : D) (na nb : F) : D :=
  if F64.lt 0.0 nb then
    (assocF (assocSiteFracAB deltarho na nb) * c na
      + assocF ((assocSiteFracAB deltarho na nb - c 1.0) * c (na / nb) + c 1.0) * c nb) * rho0
  else assocF (assocSiteFracA deltarho na) * c na * rho0

omit le hp [TopologicalSpace X] in
theorem assocFunctionalSingle_eq (q : PcSaftParameters n F) (T : D) (a : Fin n) (wd : AssocDensities n D) :
    assocFunctionalSingle q T a wd = dftSites (dftDeltaRho q T a wd)
      (assocRho0 q (fun i => hsDiameter q T i * c 0.5) wd a) (q.na a) (q.nb a) := rfl

/-- positivity of the non-bonded site fractions -/
structure SitesPos (dr na nb : ℝ) : Prop where
  sites : 0 < na
  xa : 0 < nb → 0 < assocSiteFracAB dr na nb
  xb : 0 < nb → 0 < (assocSiteFracAB dr na nb - 1) * (na / nb) + 1
  x : nb ≤ 0 → 0 < assocSiteFracA dr na

omit hp in
theorem rep_dftSites {dr N : X → ℝ} {d Nd : D} (hd : ρ.R dr d) (hN : ρ.R N Nd) {na nb : ℝ} {na' nb' : F}
    (hna : CR emb na na') (hnb : CR emb nb nb') (hlt : F64.lt (0.0 : F) nb' = decide (0 < nb))
    (hne : Apart x0 (dr x0) (Real.sqrt f64EPSILON)) (hpos : SitesPos (dr x0) na nb) :
    ρ.R (fun x => dftSites (dr x) (N x) na nb) (dftSites d Nd na' nb') := by
  have e0 : (0.0 : ℝ) = 0 := by norm_num
  have e1 : (1.0 : ℝ) = 1 := by norm_num
  have hlt' : F64.lt (0.0 : ℝ) nb = decide (0 < nb) := by rw [lt_real, e0]
  unfold dftSites
  simp only [hlt, hlt']
  by_cases h : 0 < nb
  · simp only [h, decide_true, if_true]
    have hA := rep_assocSiteFracAB le hd hna hnb hpos.sites h hne
    have hB : ρ.R (fun x => (assocSiteFracAB (dr x) na nb - c 1.0) * c (na / nb) + c 1.0)
        ((assocSiteFracAB d na' nb' - c 1.0) * c (na' / nb') + c 1.0) := by
      have := CR.div le hna hnb h.ne'
      rep
    have hFA := rep_assocF le hA (hpos.xa h)
    have hFB := rep_assocF le hB (by simp only [c, ofF_real, e1]; exact hpos.xb h)
    exact ρ.mul (ρ.add (ρ.mul hFA (ρ.constOf hna)) (ρ.mul hFB (ρ.constOf hnb))) hN
  · simp only [h, decide_false, Bool.false_eq_true, if_false]
    have hA := rep_assocSiteFracA le hd hna hpos.sites hne
    have hFA := rep_assocF le hA (hpos.x (not_lt.mp h))
    exact ρ.mul (ρ.mul hFA (ρ.constOf hna)) hN

/-- the association strength, given the density and the vector correction -/
theorem rep_dftDeltaRho_of {T : X → ℝ} {Td : D} (hT : ρ.R T Td) (hT0 : T x0 ≠ 0)
    {wf : X → AssocDensities n ℝ} {wd : AssocDensities n D} (hw : DensitiesRel ρ wf wd) (a : Fin n)
    (hxi : ρ.R (fun x => assocXi p (fun i => hsDiameter p (T x) i * c 0.5) (wf x))
      (assocXi q (fun i => hsDiameter q Td i * c 0.5) wd))
    (hrho : ρ.R (fun x => assocRho0 p (fun i => hsDiameter p (T x) i * c 0.5) (wf x) a)
      (assocRho0 q (fun i => hsDiameter q Td i * c 0.5) wd a)) (h3 : (wf x0).n3 ≠ 1) :
    ρ.R (fun x => dftDeltaRho p (T x) a (wf x)) (dftDeltaRho q Td a wd) := by
  have hr := rep_radius le hp hT hT0
  have hTi := ρ.recip' hT hT0
  have hn2 := rep_assocN2Total le hp hr hw
  have hn3 := ρ.recip' (ρ.add (ρ.neg hw.n3) (ρ.constOf (CR.sci le 10 true 1))) (by
    simp only [c, ofF_real]
    norm_num
    intro h
    exact h3 (by linarith))
  have hk := ρ.mul (ρ.mul hn2 hn3) (hr a)
  have hk18 := ρ.div hk (ρ.constOf (CR.sci le 180 true 1)) (by norm_num [c])
  unfold dftDeltaRho
  dsimp only
  rep

theorem rep_dftDeltaRho {T : X → ℝ} {Td : D} (hT : ρ.R T Td) (hT0 : T x0 ≠ 0)
    {wf : X → AssocDensities n ℝ} {wd : AssocDensities n D} (hw : DensitiesRel ρ wf wd) (a : Fin n)
    (hm : ∀ i, 0 < p.m i) (hd : ∀ i, 0 < hsDiameter p (T x0) i) (h0 : ∀ i, 0 ≤ (wf x0).n0i i)
    (hna : Apart x0 ((wf x0).n0i a) N0_CUTOFF) (hne : Apart x0 (∑ i, (wf x0).n0i i) N0_CUTOFF) (h3 : (wf x0).n3 ≠ 1) :
    ρ.R (fun x => dftDeltaRho p (T x) a (wf x)) (dftDeltaRho q Td a wd) := by
  have hr := rep_radius le hp hT hT0
  have hr0 : ∀ i, 0 < hsDiameter p (T x0) i * (c 0.5 : ℝ) := fun i => mul_pos (hd i) (by norm_num [c])
  exact rep_dftDeltaRho_of le hp hT hT0 hw a (rep_assocXi le hp hr hw hm hr0 h0 hne)
    (rep_assocRho0 le hp hr hw a (hm a).ne' (hr0 a).ne' hna) h3

/-- conditions at a grid point `x0` of weighted densities for the association functional of one component: below
close packing, and not exactly at one of the three switching points unless only the value matters -/
structure DftAssocRegular (x0 : X) (p : PcSaftParameters n ℝ) (T : ℝ) (a : Fin n) (wd : AssocDensities n ℝ) :
    Prop where
  n0_nonneg : ∀ i, 0 ≤ wd.n0i i
  n3_lt_one : wd.n3 < 1
  n0_ne : Apart x0 (wd.n0i a) N0_CUTOFF
  total_ne : Apart x0 (∑ i, wd.n0i i) N0_CUTOFF
  strength_ne : Apart x0 (dftDeltaRho p T a wd) (Real.sqrt f64EPSILON)
  sites : SitesPos (dftDeltaRho p T a wd) (p.na a) (p.nb a)

theorem rep_assocFunctionalSingle {T : X → ℝ} {Td : D} (hT : ρ.R T Td) (hT0 : T x0 ≠ 0)
    {wf : X → AssocDensities n ℝ} {wd : AssocDensities n D} (hw : DensitiesRel ρ wf wd) (a : Fin n)
    (hm : ∀ i, 0 < p.m i) (hd : ∀ i, 0 < hsDiameter p (T x0) i) (hreg : DftAssocRegular x0 p (T x0) a (wf x0)) :
    ρ.R (fun x => assocFunctionalSingle p (T x) a (wf x)) (assocFunctionalSingle q Td a wd) := by
  have hr := rep_radius le hp hT hT0
  have hr0 : ∀ i, 0 < hsDiameter p (T x0) i * (c 0.5 : ℝ) := fun i => mul_pos (hd i) (by norm_num [c])
  exact rep_dftSites le (rep_dftDeltaRho le hp hT hT0 hw a hm hd hreg.n0_nonneg hreg.n0_ne hreg.total_ne
    hreg.n3_lt_one.ne) (rep_assocRho0 le hp hr hw a (hm a).ne' (hr0 a).ne' hreg.n0_ne) (hp.na a) (hp.nb a)
    (hp.nb_pos a) hreg.strength_ne hreg.sites

end model

end PcSaft
