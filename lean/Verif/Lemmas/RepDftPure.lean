import Verif.Lemmas.RepDft

/-! # The functional for pure components preserves representations -/

open Filter Topology

namespace PcSaft
open Props
variable {F D X : Type} [F64 F] [DualNum F D] [TopologicalSpace X]

section model
variable {x0 : X} {emb : ℝ → F → Prop} {ρ : Rep x0 emb D} (le : LawfulEmb emb)
include le

/-! ### Chain -/

variable {p : PcSaftParameters 1 ℝ} {q : PcSaftParameters 1 F} (hp : ParamRel emb p q)
include hp

theorem rep_pureChainFunctional {rho l eta : X → ℝ} {rhod ld etad : D} (hrho : ρ.R rho rhod) (hl : ρ.R l ld)
    (heta : ρ.R eta etad) (hl0 : Apart x0 (l x0) 0) (heta1 : eta x0 < 1) :
    ∃ (A : X → ℝ) (d : D), (∀ x, pureChainFunctional p [rho x, l x, eta x] = .ok (A x))
      ∧ pureChainFunctional q [rhod, ld, etad] = .ok d ∧ ρ.R A d := by
  refine ⟨_, _, fun x => rfl, rfl, ?_⟩
  have e1 : (1.0 : ℝ) = 1 := by norm_num
  have hnum : ρ.R (fun x => eta x * c 0.5 - c 1.0) (etad * c 0.5 - c 1.0) := by rep
  have hden : ρ.R (fun x => DualNum.powi (eta x - c 1.0) 3) (DualNum.powi (etad - c 1.0) 3) := by rep
  have hneg : (eta x0 - 1) ^ 3 < 0 := Odd.pow_neg (by decide) (by linarith)
  have hy := ρ.div hnum hden (by simp only [c, ofF_real, dpowi_real, e1]; exact hneg.ne)
  have hln := ρ.ln (ρ.mul hy (rep_chainLambda le hl hl0)) (by
    refine mul_pos ?_ (chainLambda_pos _)
    refine div_pos_of_neg_of_neg ?_ (by simp only [c, ofF_real, dpowi_real, e1]; exact hneg)
    simp only [c, ofF_real]
    norm_num
    linarith)
  rep

/-! ### Attraction -/

theorem rep_pureEta {T rho : X → ℝ} {Td rhod : D} (hT : ρ.R T Td) (hT0 : T x0 ≠ 0) (hrho : ρ.R rho rhod) :
    ρ.R (fun x => pureEta p (T x) (rho x)) (pureEta q Td rhod) := by
  have hd := rep_hsDiameter le hp hT hT0 0
  unfold pureEta
  rep
  norm_num

omit hp in
theorem rep_pureDispersionIntegral {a0 a1 a2 : Fin 7 → ℝ} {a0' a1' a2' : Fin 7 → F} (h0 : ∀ i, CR emb (a0 i) (a0' i))
    (h1 : ∀ i, CR emb (a1 i) (a1' i)) (h2 : ∀ i, CR emb (a2 i) (a2' i)) {m1 m2 : ℝ} {m1' m2' : F}
    (hm1 : CR emb m1 m1') (hm2 : CR emb m2 m2') {eta : X → ℝ} {etad : D} (heta : ρ.R eta etad) :
    ρ.R (fun x => pureDispersionIntegral a0 a1 a2 m1 m2 (eta x)) (pureDispersionIntegral a0' a1' a2' m1' m2' etad) := by
  refine ρ.sumFin le (fun i => ?_)
  have := h0 i
  have := h1 i
  have := h2 i
  rep

omit hp in
theorem rep_pureC1 {m : ℝ} {m' : F} (hm : CR emb m m') {eta : X → ℝ} {etad : D} (heta : ρ.R eta etad)
    (h1 : eta x0 ≠ 1) (h2 : eta x0 ≠ 2)
    (h0 : m * (eta x0 * 8 - eta x0 ^ 2 * 2) / (eta x0 - 1) ^ 4
      + (1 - m) * (eta x0 * 20 - eta x0 ^ 2 * 27 + eta x0 ^ 3 * 12 - eta x0 ^ 4 * 2)
        / ((eta x0 - 1) * (eta x0 - 2)) ^ 2 + 1 ≠ 0) :
    ρ.R (fun x => pureC1 m (eta x)) (pureC1 m' etad) := by
  have e1 : (1.0 : ℝ) = 1 := by norm_num
  have e2 : (2.0 : ℝ) = 2 := by norm_num
  have q1 := sub_ne_zero.mpr h1
  have q2 := sub_ne_zero.mpr h2
  have hden1 : ρ.R (fun x => DualNum.powi (eta x - c 1.0) 4) (DualNum.powi (etad - c 1.0) 4) := by rep
  have hden2 : ρ.R (fun x => DualNum.powi ((eta x - c 1.0) * (eta x - c 2.0)) 2)
      (DualNum.powi ((etad - c 1.0) * (etad - c 2.0)) 2) := by rep
  have hnum1 : ρ.R (fun x => eta x * c 8.0 - DualNum.powi (eta x) 2 * c 2.0)
      (etad * c 8.0 - DualNum.powi etad 2 * c 2.0) := by rep
  have hnum2 : ρ.R (fun x => eta x * c 20.0 - DualNum.powi (eta x) 2 * c 27.0
        + DualNum.powi (eta x) 3 * c 12.0 - DualNum.powi (eta x) 4 * c 2.0)
      (etad * c 20.0 - DualNum.powi etad 2 * c 27.0 + DualNum.powi etad 3 * c 12.0
          - DualNum.powi etad 4 * c 2.0) := by rep
  have hd1 := ρ.mul (ρ.div hnum1 hden1 (by
    simp only [c, ofF_real, dpowi_real, e1]; exact pow_ne_zero _ q1)) (ρ.constOf hm)
  have hd2 := ρ.mul (ρ.div hnum2 hden2 (by
    simp only [c, ofF_real, dpowi_real, e1, e2]; exact pow_ne_zero _ (mul_ne_zero q1 q2)))
    (ρ.constOf (CR.sub le (CR.sci le 10 true 1) hm))
  refine ρ.recip' (ρ.add (ρ.add hd1 hd2) (ρ.constOf (CR.sci le 10 true 1))) ?_
  simp only [c, ofF_real, dpowi_real]
  norm_num
  intro h
  apply h0
  rw [← h]
  ring

theorem rep_pureDispersion {T rho : X → ℝ} {Td rhod : D} (hT : ρ.R T Td) (hT0 : T x0 ≠ 0) (hrho : ρ.R rho rhod)
    (hm : 0 < p.m 0) (he0 : 0 ≤ pureEta p (T x0) (rho x0)) (he1 : pureEta p (T x0) (rho x0) < 1) :
    ρ.R (fun x => pureDispersion p (T x) (rho x)) (pureDispersion q Td rhod) := by
  have heta := rep_pureEta le hp hT hT0 hrho
  have hTi := ρ.recip' hT hT0
  have hmc := hp.m 0
  have hm1 := CR.div le (CR.sub le hmc (CR.sci le 10 true 1)) hmc hm.ne'
  have hm2 := CR.div le (CR.mul le hm1 (CR.sub le hmc (CR.sci le 20 true 1))) hmc hm.ne'
  obtain ⟨ha0, ha1, ha2, hb0, hb1, hb2⟩ := CR.table le
  have hi1 := rep_pureDispersionIntegral le ha0 ha1 ha2 hm1 hm2 heta
  have hi2 := rep_pureDispersionIntegral le hb0 hb1 hb2 hm1 hm2 heta
  have hc1 := rep_pureC1 le hmc heta he1.ne (by linarith) (by
    rcases he0.eq_or_lt with h | h
    · rw [← h]
      norm_num
    · exact (c1_denominator_pos hm h he1).ne')
  unfold pureDispersion
  dsimp only
  rep

/-- the second and third order terms of the polar functionals satisfy the condition -/
structure PurePolarRegular (cond : ℝ → ℝ → Prop) (p : PcSaftParameters 1 ℝ) (T rho : ℝ) : Prop where
  dipole : 0 < p.ndipole →
    let e := DualNum.recip T * (c (p.epsilon_k 0) : ℝ)
    let s3 := F64.powi (p.sigma 0) 3
    let mu2_term := e * c s3 * c (p.mu2 0)
    let m := F64.min (p.m 0) 2.0
    let m1 := (m - 1.0) / m
    let m2 := m1 * (m - 2.0) / m
    cond ((-(rho * rho)) * dftPairIntegral (by decide) m1 m2 (pureEta p T rho) AD BD e
      * (mu2_term * mu2_term / c s3 * c F64.pi))
    ((-(rho * rho * rho)) * dftTripletIntegral m1 m2 (pureEta p T rho) CD
      * (mu2_term * mu2_term * mu2_term / c s3 * c PI_SQ_43))
  quadrupole : 0 < p.nquadpole →
    let e := DualNum.recip T * (c (p.epsilon_k 0) : ℝ)
    let s3 := F64.powi (p.sigma 0) 3
    let q2_term := e * c (F64.powi (p.sigma 0) 5) * c (p.q2 0)
    let m := F64.min (p.m 0) 2.0
    let m1 := (m - 1.0) / m
    let m2 := m1 * (m - 2.0) / m
    cond ((-(rho * rho)) * dftPairIntegral (by decide) m1 m2 (pureEta p T rho) AQ BQ e
      * (q2_term * q2_term / c (F64.powi (p.sigma 0) 7) * c F64.pi * c 0.5625))
    ((rho * rho * rho) * dftTripletIntegral m1 m2 (pureEta p T rho) CQ
      * (q2_term * q2_term * q2_term / c (F64.powi s3 3) * c F64.pi * c F64.pi * c 0.5625))

theorem rep_pureAttFunctional {T rho : X → ℝ} {Td rhod : D} (hT : ρ.R T Td) (hT0 : T x0 ≠ 0) (hrho : ρ.R rho rhod)
    (hm : 0 < p.m 0) (hs : p.sigma 0 ≠ 0) (he0 : 0 ≤ pureEta p (T x0) (rho x0))
    (he1 : pureEta p (T x0) (rho x0) < 1) {cond : ℝ → ℝ → Prop} (hpade : PadeRule ρ cond)
    (hreg : PurePolarRegular cond p (T x0) (rho x0)) :
    ∃ (A : X → ℝ) (d : D), (∀ x, pureAttFunctional p (T x) [rho x] = .ok (A x))
      ∧ pureAttFunctional q Td [rhod] = .ok d ∧ ρ.R A d := by
  refine ⟨_, _, fun x => rfl, rfl, ?_⟩
  have e1 : q.ndipole = p.ndipole := congrArg List.length hp.dipole_comp
  have e2 : q.nquadpole = p.nquadpole := congrArg List.length hp.quadpole_comp
  have heta := rep_pureEta le hp hT hT0 hrho
  have hdisp := rep_pureDispersion le hp hT hT0 hrho hm he0 he1
  have he := ρ.mul (ρ.recip' hT hT0) (ρ.constOf (hp.epsilon_k 0))
  have hσ := hp.sigma 0
  have hs3 := CR.powi le hσ 3
  have hs5 := CR.powi le hσ 5
  have hs7 := CR.powi le hσ 7
  have hs9 := CR.powi le hs3 3
  have hmin := CR.min2 le (hp.m 0)
  have hmin0 : F64.min (p.m 0) 2.0 ≠ 0 := (min_two_pos hm).ne'
  have hm1 := CR.div le (CR.sub le hmin (CR.sci le 10 true 1)) hmin hmin0
  have hm2 := CR.div le (CR.mul le hm1 (CR.sub le hmin (CR.sci le 20 true 1))) hmin hmin0
  obtain ⟨hAD, hBD, hCD, hAQ, hBQ, hCQ, -⟩ := CR.polarTables le
  have hpiSq := CR.piSq le
  have hdip : 0 < p.ndipole → ρ.R (fun x => pureDipole p (T x) (rho x)) (pureDipole q Td rhod) := by
    intro hd
    have hI2 := rep_dftPairIntegral le (by decide : 5 ≤ 5) hm1 hm2 heta he hAD hBD
    have hI3 := rep_dftTripletIntegral le hm1 hm2 heta hCD
    have hmu := ρ.mul (ρ.mul he (ρ.constOf hs3)) (ρ.constOf (hp.mu2 0))
    have hq2 := ρ.div (ρ.mul hmu hmu) (ρ.constOf hs3) (pow_ne_zero _ hs)
    have hq3 := ρ.div (ρ.mul (ρ.mul hmu hmu) hmu) (ρ.constOf hs3) (pow_ne_zero _ hs)
    exact hpade (by rep) (by rep) (hreg.dipole hd)
  have hquad : 0 < p.nquadpole → ρ.R (fun x => pureQuadrupole p (T x) (rho x)) (pureQuadrupole q Td rhod) := by
    intro hd
    have hI2 := rep_dftPairIntegral le (by decide : 5 ≤ 5) hm1 hm2 heta he hAQ hBQ
    have hI3 := rep_dftTripletIntegral le hm1 hm2 heta hCQ
    have hmu := ρ.mul (ρ.mul he (ρ.constOf hs5)) (ρ.constOf (hp.q2 0))
    have hq2 := ρ.div (ρ.mul hmu hmu) (ρ.constOf hs7) (pow_ne_zero _ hs)
    have hq3 := ρ.div (ρ.mul (ρ.mul hmu hmu) hmu) (ρ.constOf hs9) (pow_ne_zero _ (pow_ne_zero _ hs))
    exact hpade (by rep) (by rep) (hreg.quadrupole hd)
  rw [e1, e2]
  by_cases d1 : 0 < p.ndipole <;> by_cases d2 : 0 < p.nquadpole <;>
    simp only [d1, d2, if_true, if_false]
  · exact ρ.add (ρ.add hdisp (hdip d1)) (hquad d2)
  · exact ρ.add hdisp (hdip d1)
  · exact ρ.add hdisp (hquad d2)
  · exact hdisp

/-! ### Hard spheres and association -/

omit hp in
theorem rep_pureF3 {n3 : X → ℝ} {n3d : D} (h : ρ.R n3 n3d) (hne : Apart x0 (n3 x0) N3_CUTOFF) (h1 : n3 x0 < 1) :
    ρ.R (fun x => pureF3 (n3 x)) (pureF3 n3d) := by
  have e1 : (1.0 : ℝ) = 1 := by norm_num
  refine rep_branch_below le h N3_CUTOFF (CR.sci le _ _ _) hne (fun _ => ?_) (fun hc => ?_)
  · have := ρ.div (ρ.mul h (ρ.constOf (CR.sci le 350 true 1))) (ρ.constOf (CR.sci le 60 true 1)) (by norm_num [c])
    have h83 : CR emb ((8.0 : ℝ) / 3.0) (8.0 / 3.0) :=
      CR.div le (CR.sci le 80 true 1) (CR.sci le 30 true 1) (by norm_num)
    rep
  · have hpos : 0 < n3 x0 := lt_of_lt_of_le (by norm_num [N3_CUTOFF]) hc
    have hln := ρ.ln1p (ρ.neg h) (by linarith)
    have hrec := ρ.recip' h hpos.ne'
    have hu : ρ.R (fun x => -n3 x + (c 1.0 : ℝ)) (-n3d + c 1.0) := by rep
    have hurec := ρ.recip' hu (by simp only [c, ofF_real, e1]; linarith)
    dsimp only
    rep

omit hp in
theorem rep_sumSq (L : List ℕ) {v : ℕ → X → ℝ} {vd : ℕ → D} (hv : ∀ d, ρ.R (v d) (vd d)) :
    ρ.R (fun x => sumSq (L.map (fun d => v d x))) (sumSq (L.map vd)) := by
  simp only [sumSq, List.foldl_map]
  exact foldl_rel ρ.R (fun d x acc => acc + v d x * v d x) (fun d acc => acc + vd d * vd d)
    (fun d f e hh => ρ.add hh (ρ.mul (hv d) (hv d))) L _ _ (ρ.constOf (CR.sci le _ _ _))

/-- conditions of the anti-symmetrized version -/
def N2Regular (x0 : X) (version : FMTVersion) (n2 : ℝ) (n2v : List ℝ) : Prop :=
  match version with
  | .WhiteBear => True
  | .AntiSymWhiteBear => n2 ≠ 0 ∧ Apart x0 (sumSq n2v / n2 ^ 2) 1
  | .KierlikRosinberg => False

omit hp in
theorem rep_pureN2n2 (version : FMTVersion) (L : List ℕ) {n2 : X → ℝ} {n2d : D} (h2 : ρ.R n2 n2d) {v : ℕ → X → ℝ}
    {vd : ℕ → D} (hv : ∀ d, ρ.R (v d) (vd d)) (hreg : N2Regular x0 version (n2 x0) (L.map (fun d => v d x0))) :
    ∃ (A : X → ℝ) (d : D), (∀ x, pureN2n2 version (n2 x) (L.map (fun d => v d x)) = .ok (A x))
      ∧ pureN2n2 version n2d (L.map vd) = .ok d ∧ ρ.R A d := by
  have hs := rep_sumSq le L hv
  have e1 : (1.0 : ℝ) = 1 := by norm_num
  cases version with
  | KierlikRosinberg => exact hreg.elim
  | WhiteBear =>
    refine ⟨_, _, fun x => rfl, rfl, ?_⟩
    rep
  | AntiSymWhiteBear =>
    refine ⟨_, _, fun x => rfl, rfl, ?_⟩
    obtain ⟨h0, hx⟩ := hreg
    have hxi := ρ.div hs (ρ.powi h2 2) (pow_ne_zero _ h0)
    have hb := rep_branch le hxi 1.0 (CR.sci le 10 true 1) (by rw [e1]; exact hx)
      (fun _ => ρ.constOf (CR.sci le 10 true 1)) (fun _ => hxi)
    exact ρ.mul (ρ.mul h2 h2) (ρ.powi (ρ.add (ρ.neg hb) (ρ.constOf (CR.sci le 10 true 1))) 3)

omit hp in
theorem rep_pureN1n2 (L : List ℕ) {r n2 : X → ℝ} {rd n2d : D} (hr : ρ.R r rd) (h2 : ρ.R n2 n2d) {v : ℕ → X → ℝ}
    {vd : ℕ → D} (hv : ∀ d, ρ.R (v d) (vd d)) (hr0 : r x0 ≠ 0) :
    ρ.R (fun x => pureN1n2 (r x) (n2 x) (L.map (fun d => v d x))) (pureN1n2 rd n2d (L.map vd)) := by
  have hden : ρ.R (fun x => r x * c 4.0 * (c F64.pi : ℝ)) (rd * c 4.0 * c F64.pi) := by rep
  have hden0 : r x0 * c 4.0 * (c F64.pi : ℝ) ≠ 0 := by
    simp only [c, ofF_real, pi_real]
    exact mul_ne_zero (mul_ne_zero hr0 (by norm_num)) Real.pi_ne_zero
  simp only [pureN1n2, List.foldl_map]
  exact ρ.sub (ρ.mul (ρ.div h2 hden hden0) h2)
    (foldl_rel ρ.R (fun d x acc => acc + v d x / (r x * c 4.0 * (c F64.pi : ℝ)) * v d x)
      (fun d acc => acc + vd d / (rd * c 4.0 * c F64.pi) * vd d)
      (fun d f e hh => ρ.add hh (ρ.mul (ρ.div (hv d) hden hden0) (hv d))) L _ _ (ρ.constOf (CR.sci le _ _ _)))

/-- vector correction of /repo/src/dft/pure_saft_functional.rs:118-124 -/
def pureXi (p : PcSaftParameters 1 F) (r n2 : D) (n2v : List D) : D :=
  if F64.lt (DualNum.re n2) (N0_CUTOFF * 4.0 * F64.pi * p.m 0 * F64.powi (DualNum.re r) 2)
    then c (1.0 : F) else -(sumSq n2v) / (n2 * n2) + c 1.0

/-- density of molecules, corrected -/
def pureRho0 (p : PcSaftParameters 1 F) (r n2 : D) (n2v : List D) : D :=
  n2 / (r * r * c 4.0 * c F64.pi) / c (p.m 0) * pureXi p r n2 n2v

/-- association strength times density of /repo/src/dft/pure_saft_functional.rs:125-131 -/
def pureDeltaRho (p : PcSaftParameters 1 F) (temperature r n2 n3 : D) (n2v : List D) : D :=
  let n3m1rec := DualNum.recip (-n3 + c 1.0)
  let k := n2 * n3m1rec * r
  ((k / c 18.0 + c 0.5) * k * pureXi p r n2 n2v + c 1.0) * n3m1rec
    * (DualNum.expm1 (DualNum.recip temperature * c (p.epsilon_k_aibj 0 0))
      * c (F64.powi (p.sigma 0) 3 * p.kappa_aibj 0 0))
    * pureRho0 p r n2 n2v

omit le hp [TopologicalSpace X] in
theorem pureAssoc_eq (q : PcSaftParameters 1 F) (T r n2 n3 : D) (n2v : List D) :
    pureAssoc q T r n2 n3 n2v =
      if F64.lt 0.0 (q.nb 0) then
        pureRho0 q r n2 n2v * (assocF (assocSiteFracAB (pureDeltaRho q T r n2 n3 n2v) (q.na 0) (q.nb 0)) * c (q.na 0)
          + assocF ((assocSiteFracAB (pureDeltaRho q T r n2 n3 n2v) (q.na 0) (q.nb 0) - c 1.0) * c (q.na 0)
            / c (q.nb 0) + c 1.0) * c (q.nb 0))
      else pureRho0 q r n2 n2v * (assocF (assocSiteFracA (pureDeltaRho q T r n2 n3 n2v) (q.na 0)) * c (q.na 0)) := rfl

theorem rep_pureXi (L : List ℕ) {r n2 : X → ℝ} {rd n2d : D} (hr : ρ.R r rd) (h2 : ρ.R n2 n2d) {v : ℕ → X → ℝ}
    {vd : ℕ → D} (hv : ∀ d, ρ.R (v d) (vd d)) (hr0 : 0 < r x0) (hm : 0 < p.m 0)
    (hne : Apart x0 (n2 x0) (N0_CUTOFF * 4 * Real.pi * p.m 0 * r x0 ^ 2)) :
    ρ.R (fun x => pureXi p (r x) (n2 x) (L.map (fun d => v d x))) (pureXi q rd n2d (L.map vd)) := by
  have e4 : (4.0 : ℝ) = 4 := by norm_num
  have hk : CR emb (N0_CUTOFF * 4.0 * F64.pi * p.m 0) (N0_CUTOFF * 4.0 * F64.pi * q.m 0) := by
    have hmc := hp.m 0
    have hcut : CR emb N0_CUTOFF N0_CUTOFF := CR.sci le _ _ _
    rep
  have hg := ρ.mul (ρ.constOf hk) (ρ.powi hr 2)
  have hs := rep_sumSq le L hv
  have hpi := Real.pi_pos
  have hthr : (0 : ℝ) < N0_CUTOFF * 4 * Real.pi * p.m 0 * r x0 ^ 2 := by
    have : (0 : ℝ) < N0_CUTOFF := by norm_num [N0_CUTOFF]
    positivity
  refine rep_branch_lt le (g := fun x => c (N0_CUTOFF * 4.0 * F64.pi * p.m 0) * r x ^ 2) h2 hg ?_ ?_
    (fun _ => ρ.constOf (CR.sci le _ _ _)) (fun h => ?_)
  · exact CR.mul le hk (CR.powi le (ρ.re hr) 2)
  · simp only [c, ofF_real, pi_real, e4]
    exact hne
  · refine ρ.add (ρ.div (ρ.neg hs) (ρ.mul h2 h2) ?_) (ρ.constOf (CR.sci le _ _ _))
    simp only [c, ofF_real, pi_real, e4] at h
    exact mul_self_ne_zero.mpr (hthr.trans_le h).ne'

/-- conditions at a grid point under which the hard sphere and association functional of a pure component is
differentiable -/
structure PureFmtRegular (x0 : X) (p : PcSaftParameters 1 ℝ) (version : FMTVersion) (T n2 n3 : ℝ) (n2v : List ℝ) :
    Prop where
  n3_lt_one : n3 < 1
  n3_ne : Apart x0 n3 N3_CUTOFF
  version : N2Regular x0 version n2 n2v
  n2_ne : p.nassoc = 1 → Apart x0 n2 (N0_CUTOFF * 4 * Real.pi * p.m 0 * (hsDiameter p T 0 * c (0.5 : ℝ)) ^ 2)
  strength_ne : p.nassoc = 1 →
    Apart x0 (pureDeltaRho p T (hsDiameter p T 0 * c 0.5) n2 n3 n2v) (Real.sqrt f64EPSILON)
  sites : p.nassoc = 1 →
    SitesPos (pureDeltaRho p T (hsDiameter p T 0 * c 0.5) n2 n3 n2v) (p.na 0) (p.nb 0)

theorem rep_pureAssoc_of (L : List ℕ) {T n2 n3 : X → ℝ} {Td n2d n3d : D} (hT : ρ.R T Td) (hT0 : T x0 ≠ 0)
    (h2 : ρ.R n2 n2d) (h3 : ρ.R n3 n3d) {v : ℕ → X → ℝ} {vd : ℕ → D} (hm : 0 < p.m 0)
    (hd : 0 < hsDiameter p (T x0) 0) (h31 : n3 x0 < 1)
    (hxi : ρ.R (fun x => pureXi p (hsDiameter p (T x) 0 * c 0.5) (n2 x) (L.map (fun d => v d x)))
      (pureXi q (hsDiameter q Td 0 * c 0.5) n2d (L.map vd)))
    (hne : Apart x0 (pureDeltaRho p (T x0) (hsDiameter p (T x0) 0 * c 0.5) (n2 x0) (n3 x0) (L.map (fun d => v d x0)))
      (Real.sqrt f64EPSILON))
    (hpos : SitesPos (pureDeltaRho p (T x0) (hsDiameter p (T x0) 0 * c 0.5) (n2 x0) (n3 x0) (L.map (fun d => v d x0)))
      (p.na 0) (p.nb 0)) :
    ρ.R (fun x => pureAssoc p (T x) (hsDiameter p (T x) 0 * c 0.5) (n2 x) (n3 x) (L.map (fun d => v d x)))
      (pureAssoc q Td (hsDiameter q Td 0 * c 0.5) n2d n3d (L.map vd)) := by
  have e0 : (0.0 : ℝ) = 0 := by norm_num
  have e1 : (1.0 : ℝ) = 1 := by norm_num
  have hr := rep_radius le hp hT hT0 0
  have hr0 : 0 < hsDiameter p (T x0) 0 * (c 0.5 : ℝ) := mul_pos hd (by norm_num [c])
  have hTi := ρ.recip' hT hT0
  have hrho : ρ.R (fun x => pureRho0 p (hsDiameter p (T x) 0 * c 0.5) (n2 x) (L.map (fun d => v d x)))
      (pureRho0 q (hsDiameter q Td 0 * c 0.5) n2d (L.map vd)) := by
    refine ρ.mul (ρ.div (ρ.div h2 (by rep) ?_) (ρ.constOf (hp.m 0)) hm.ne') hxi
    refine mul_ne_zero (mul_ne_zero (mul_ne_zero hr0.ne' hr0.ne') ?_) Real.pi_ne_zero
    norm_num [c]
  have hn3 := ρ.recip' (ρ.add (ρ.neg h3) (ρ.constOf (CR.sci le 10 true 1))) (by
    simp only [c, ofF_real, e1]
    linarith)
  have hk := ρ.mul (ρ.mul h2 hn3) hr
  have hk18 := ρ.div hk (ρ.constOf (CR.sci le 180 true 1)) (by norm_num [c])
  have hdr : ρ.R (fun x => pureDeltaRho p (T x) (hsDiameter p (T x) 0 * c 0.5) (n2 x) (n3 x) (L.map (fun d => v d x)))
      (pureDeltaRho q Td (hsDiameter q Td 0 * c 0.5) n2d n3d (L.map vd)) := by
    unfold pureDeltaRho
    dsimp only
    rep
  have hna := hp.na 0
  have hnb := hp.nb 0
  have hlt := hp.nb_pos 0
  have hlt' : F64.lt (0.0 : ℝ) (p.nb 0) = decide (0 < p.nb 0) := by rw [lt_real, e0]
  simp only [pureAssoc_eq, hlt, hlt']
  by_cases h : 0 < p.nb 0
  · simp only [h, decide_true, if_true]
    have hA := rep_assocSiteFracAB le hdr hna hnb hpos.sites h hne
    have hB := ρ.add (ρ.div (ρ.mul (ρ.sub hA (ρ.constOf (CR.sci le 10 true 1))) (ρ.constOf hna)) (ρ.constOf hnb) h.ne')
      (ρ.constOf (CR.sci le 10 true 1))
    have hFA := rep_assocF le hA (hpos.xa h)
    have hFB := rep_assocF le hB (by
      simp only [c, ofF_real, e1]
      rw [mul_div_assoc]
      exact hpos.xb h)
    exact ρ.mul hrho (ρ.add (ρ.mul hFA (ρ.constOf hna)) (ρ.mul hFB (ρ.constOf hnb)))
  · simp only [h, decide_false, Bool.false_eq_true, if_false]
    have hA := rep_assocSiteFracA le hdr hna hpos.sites hne
    have hFA := rep_assocF le hA (hpos.x (not_lt.mp h))
    exact ρ.mul hrho (ρ.mul hFA (ρ.constOf hna))

theorem rep_pureAssoc (L : List ℕ) {T n2 n3 : X → ℝ} {Td n2d n3d : D} (hT : ρ.R T Td) (hT0 : T x0 ≠ 0)
    (h2 : ρ.R n2 n2d) (h3 : ρ.R n3 n3d) {v : ℕ → X → ℝ} {vd : ℕ → D} (hv : ∀ d, ρ.R (v d) (vd d)) (hm : 0 < p.m 0)
    (hd : 0 < hsDiameter p (T x0) 0) {version : FMTVersion}
    (hreg : PureFmtRegular x0 p version (T x0) (n2 x0) (n3 x0) (L.map (fun d => v d x0))) (ha : p.nassoc = 1) :
    ρ.R (fun x => pureAssoc p (T x) (hsDiameter p (T x) 0 * c 0.5) (n2 x) (n3 x) (L.map (fun d => v d x)))
      (pureAssoc q Td (hsDiameter q Td 0 * c 0.5) n2d n3d (L.map vd)) :=
  rep_pureAssoc_of le hp L hT hT0 h2 h3 hm hd hreg.n3_lt_one
    (rep_pureXi le hp L (rep_radius le hp hT hT0 0) h2 hv (mul_pos hd (by norm_num [c])) hm (hreg.n2_ne ha))
    (hreg.strength_ne ha) (hreg.sites ha)

theorem rep_pureFmtAssocPoint_of (version : FMTVersion) (L : List ℕ) {T n2 n3 : X → ℝ} {Td n2d n3d : D} (hT : ρ.R T Td)
    (hT0 : T x0 ≠ 0) (h2 : ρ.R n2 n2d) (h3 : ρ.R n3 n3d) {v : ℕ → X → ℝ} {vd : ℕ → D} (hv : ∀ d, ρ.R (v d) (vd d))
    (hd : 0 < hsDiameter p (T x0) 0) (h31 : n3 x0 < 1) (h3ne : Apart x0 (n3 x0) N3_CUTOFF)
    (hversion : N2Regular x0 version (n2 x0) (L.map (fun d => v d x0)))
    (hassoc : p.nassoc = 1 →
      ρ.R (fun x => pureAssoc p (T x) (hsDiameter p (T x) 0 * c 0.5) (n2 x) (n3 x) (L.map (fun d => v d x)))
        (pureAssoc q Td (hsDiameter q Td 0 * c 0.5) n2d n3d (L.map vd))) :
    ∃ (A : X → ℝ) (d : D), (∀ x, pureFmtAssocPoint p version (T x) (n2 x) (n3 x) (L.map (fun d => v d x)) = .ok (A x))
      ∧ pureFmtAssocPoint q version Td n2d n3d (L.map vd) = .ok d ∧ ρ.R A d := by
  obtain ⟨A, d, hA, hd2, hAd⟩ := rep_pureN2n2 le version L h2 hv hversion
  have e1 : (1.0 : ℝ) = 1 := by norm_num
  have en : q.nassoc = p.nassoc := congrArg List.length hp.assoc_comp
  have hr := rep_radius le hp hT hT0 0
  have hr0 : 0 < hsDiameter p (T x0) 0 * (c 0.5 : ℝ) := mul_pos hd (by norm_num [c])
  have hn3 := ρ.recip' (ρ.add (ρ.neg h3) (ρ.constOf (CR.sci le 10 true 1))) (by
    simp only [c, ofF_real, e1]
    linarith)
  have hln := ρ.ln1p (ρ.neg h3) (by
    linarith)
  have hden : ρ.R (fun x => hsDiameter p (T x) 0 * (c 0.5 : ℝ) * (hsDiameter p (T x) 0 * (c 0.5 : ℝ)) * c 4.0
      * (c F64.pi : ℝ)) (hsDiameter q Td 0 * c 0.5 * (hsDiameter q Td 0 * c 0.5) * c 4.0 * c F64.pi) := by rep
  have hn0 := ρ.div h2 hden (by
    refine mul_ne_zero (mul_ne_zero (mul_ne_zero hr0.ne' hr0.ne') ?_) Real.pi_ne_zero
    norm_num [c])
  have h12 := rep_pureN1n2 le L hr h2 hv hr0.ne'
  have hF3 := rep_pureF3 le h3 h3ne h31
  have h36 : CR emb PI36M1 PI36M1 := by
    unfold PI36M1
    refine CR.div le (CR.sci le _ _ _) (CR.mul le (CR.sci le _ _ _) (CR.pi le)) ?_
    exact mul_ne_zero (by norm_num) Real.pi_ne_zero
  have hphi := ρ.add (ρ.add (ρ.neg (ρ.mul hn0 hln)) (ρ.mul h12 hn3))
    (ρ.mul (ρ.mul (ρ.mul hAd h2) (ρ.constOf h36)) hF3)
  unfold pureFmtAssocPoint
  simp only [hA, hd2, en]
  refine ⟨_, _, fun x => rfl, rfl, ?_⟩
  by_cases ha : p.nassoc = 1
  · simp only [ha, if_true]
    exact ρ.add hphi (hassoc ha)
  · simp only [ha, if_false]
    exact hphi

theorem rep_pureFmtAssocPoint (version : FMTVersion) (L : List ℕ) {T n2 n3 : X → ℝ} {Td n2d n3d : D} (hT : ρ.R T Td)
    (hT0 : T x0 ≠ 0) (h2 : ρ.R n2 n2d) (h3 : ρ.R n3 n3d) {v : ℕ → X → ℝ} {vd : ℕ → D} (hv : ∀ d, ρ.R (v d) (vd d))
    (hm : 0 < p.m 0) (hd : 0 < hsDiameter p (T x0) 0)
    (hreg : PureFmtRegular x0 p version (T x0) (n2 x0) (n3 x0) (L.map (fun d => v d x0))) :
    ∃ (A : X → ℝ) (d : D), (∀ x, pureFmtAssocPoint p version (T x) (n2 x) (n3 x) (L.map (fun d => v d x)) = .ok (A x))
      ∧ pureFmtAssocPoint q version Td n2d n3d (L.map vd) = .ok d ∧ ρ.R A d :=
  rep_pureFmtAssocPoint_of le hp version L hT hT0 h2 h3 hv hd hreg.n3_lt_one hreg.n3_ne hreg.version
    (rep_pureAssoc le hp L hT hT0 h2 h3 hv hm hd hreg)

end model

end PcSaft
