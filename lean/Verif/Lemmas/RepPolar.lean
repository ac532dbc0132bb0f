import Verif.Lemmas.RepModel

/-! # The polar contributions preserve representations -/

open Filter Topology

namespace PcSaft
variable {F D X : Type} [F64 F] [DualNum F D] [TopologicalSpace X] {n : ℕ}

omit [TopologicalSpace X] in
theorem foldUpper_rel {S S' : Type} (Q : (X → S) → S' → Prop) {k : ℕ} (i : Fin k) (step : Fin k → X → S → S)
    (step' : Fin k → S' → S') (hs : ∀ j f d, Q f d → Q (fun x => step j x (f x)) (step' j d))
    (f0 : X → S) (d0 : S') (h0 : Q f0 d0) :
    Q (fun x => foldUpper i (fun acc j => step j x acc) (f0 x)) (foldUpper i (fun acc j => step' j acc) d0) := by
  refine fold_rel Q (fun j x acc => if i < j then step j x acc else acc)
    (fun j acc => if i < j then step' j acc else acc) (fun j f d h => ?_) f0 d0 h0
  by_cases hij : i < j
  · simp only [hij, if_true]; exact hs j f d h
  · simp only [hij, if_false]; exact h

section model
variable {x0 : X} {emb : ℝ → F → Prop} {ρ : Rep x0 emb D} (le : LawfulEmb emb)
include le

theorem CR.polarTables : (∀ i j, CR emb (AD i j) (AD i j)) ∧ (∀ i j, CR emb (BD i j) (BD i j))
    ∧ (∀ i j, CR emb (CD i j) (CD i j)) ∧ (∀ i j, CR emb (AQ i j) (AQ i j)) ∧ (∀ i j, CR emb (BQ i j) (BQ i j))
    ∧ (∀ i j, CR emb (CQ i j) (CQ i j)) ∧ (∀ i j, CR emb (ADQ i j) (ADQ i j)) ∧ (∀ i j, CR emb (BDQ i j) (BDQ i j))
    ∧ (∀ i j, CR emb (CDQ i j) (CDQ i j)) := by
  refine ⟨?_, ?_, ?_, ?_, ?_, ?_, ?_, ?_, ?_⟩ <;> intro i j <;> fin_cases i <;> fin_cases j
  all_goals first | exact CR.sci le _ _ _ | exact CR.neg le (CR.sci le _ _ _)

theorem CR.meanSeg1 {m : ℝ} {m' : F} (h : CR emb m m') (h0 : m ≠ 0) : CR emb (meanSeg1 m) (meanSeg1 m') := by
  unfold PcSaft.meanSeg1
  rep

theorem CR.meanSeg2 {m : ℝ} {m' : F} (h : CR emb m m') (h0 : m ≠ 0) : CR emb (meanSeg2 m) (meanSeg2 m') := by
  have := CR.meanSeg1 le h h0
  unfold PcSaft.meanSeg2
  rep

omit le [F64 F] in
theorem cbrt_ne_zero {x : ℝ} (h : 0 < x) : F64.cbrt x ≠ 0 := by
  rw [cbrt_real, sign_pos h]
  simp only [SignType.coe_one, one_mul]
  exact (Real.rpow_pos_of_pos (abs_pos.mpr h.ne') _).ne'

omit [F64 F] le in
theorem min_two_pos {m : ℝ} (h : 0 < m) : 0 < F64.min m 2.0 := by
  rw [min_real]
  exact lt_min h (by norm_num)

theorem CR.min2 {m : ℝ} {m' : F} (h : CR emb m m') : CR emb (F64.min m 2.0) (F64.min m' 2.0) :=
  CR.min le h (CR.sci le _ _ _)

theorem CR.meanSegmentNumbers {m : Fin n → ℝ} {m' : Fin n → F} (hm : ∀ i, CR emb (m i) (m' i))
    (h0 : ∀ i, 0 < m i) (comp : List (Fin n)) :
    (∀ i j, CR emb ((MeanSegmentNumbers.new m comp).mij1 i j) ((MeanSegmentNumbers.new m' comp).mij1 i j))
    ∧ (∀ i j, CR emb ((MeanSegmentNumbers.new m comp).mij2 i j) ((MeanSegmentNumbers.new m' comp).mij2 i j))
    ∧ (∀ i j k, CR emb ((MeanSegmentNumbers.new m comp).mijk1 i j k) ((MeanSegmentNumbers.new m' comp).mijk1 i j k))
    ∧ (∀ i j k, CR emb ((MeanSegmentNumbers.new m comp).mijk2 i j k)
        ((MeanSegmentNumbers.new m' comp).mijk2 i j k)) := by
  have h1 : ∀ i : Fin comp.length, CR emb (F64.min (m (comp.get i)) 2.0) (F64.min (m' (comp.get i)) 2.0) :=
    fun i => CR.min2 le (hm _)
  have h1p : ∀ i : Fin comp.length, 0 < F64.min (m (comp.get i)) 2.0 := fun i => min_two_pos (h0 _)
  have h2 : ∀ i j : Fin comp.length, CR emb (F64.sqrt (F64.min (m (comp.get i)) 2.0 * F64.min (m (comp.get j)) 2.0))
      (F64.sqrt (F64.min (m' (comp.get i)) 2.0 * F64.min (m' (comp.get j)) 2.0)) :=
    fun i j => CR.sqrt le (CR.mul le (h1 i) (h1 j)) (mul_pos (h1p i) (h1p j))
  have h2p : ∀ i j : Fin comp.length, F64.sqrt (F64.min (m (comp.get i)) 2.0 * F64.min (m (comp.get j)) 2.0) ≠ 0 :=
    fun i j => (Real.sqrt_pos.mpr (mul_pos (h1p i) (h1p j))).ne'
  have h3 : ∀ i j k : Fin comp.length,
      CR emb (F64.cbrt (F64.min (m (comp.get i)) 2.0 * F64.min (m (comp.get j)) 2.0 * F64.min (m (comp.get k)) 2.0))
      (F64.cbrt (F64.min (m' (comp.get i)) 2.0 * F64.min (m' (comp.get j)) 2.0 * F64.min (m' (comp.get k)) 2.0)) :=
    fun i j k => CR.cbrt le (CR.mul le (CR.mul le (h1 i) (h1 j)) (h1 k))
      (mul_pos (mul_pos (h1p i) (h1p j)) (h1p k))
  have h3p : ∀ i j k : Fin comp.length,
      F64.cbrt (F64.min (m (comp.get i)) 2.0 * F64.min (m (comp.get j)) 2.0 * F64.min (m (comp.get k)) 2.0) ≠ 0 :=
    fun i j k => cbrt_ne_zero (mul_pos (mul_pos (h1p i) (h1p j)) (h1p k))
  refine ⟨fun i j => ?_, fun i j => ?_, fun i j k => ?_, fun i j k => ?_⟩
  · simp only [MeanSegmentNumbers.new]
    split_ifs
    · exact CR.meanSeg1 le (h1 i) (h1p i).ne'
    · exact CR.meanSeg1 le (h2 i j) (h2p i j)
    · exact CR.sci le _ _ _
  · simp only [MeanSegmentNumbers.new]
    split_ifs
    · exact CR.meanSeg2 le (h1 i) (h1p i).ne'
    · exact CR.meanSeg2 le (h2 i j) (h2p i j)
    · exact CR.sci le _ _ _
  · simp only [MeanSegmentNumbers.new]
    split_ifs
    · exact CR.meanSeg1 le (h1 i) (h1p i).ne'
    · exact CR.meanSeg1 le (h3 _ _ _) (h3p _ _ _)
    · exact CR.meanSeg1 le (h3 _ _ _) (h3p _ _ _)
    · exact CR.meanSeg1 le (h3 _ _ _) (h3p _ _ _)
    · exact CR.sci le _ _ _
  · simp only [MeanSegmentNumbers.new]
    split_ifs
    · exact CR.meanSeg2 le (h1 i) (h1p i).ne'
    · exact CR.meanSeg2 le (h3 _ _ _) (h3p _ _ _)
    · exact CR.meanSeg2 le (h3 _ _ _) (h3p _ _ _)
    · exact CR.meanSeg2 le (h3 _ _ _) (h3p _ _ _)
    · exact CR.sci le _ _ _

theorem rep_etas {eta : X → ℝ} {etad : D} (h : ρ.R eta etad) (i : Fin 5) :
    ρ.R (fun x => etas (eta x) i) (etas etad i) := by
  fin_cases i
  · exact ρ.constOf (CR.sci le _ _ _)
  · exact h
  · exact ρ.mul h h
  · exact ρ.mul (ρ.mul h h) h
  · exact ρ.mul (ρ.mul h h) (ρ.mul h h)

theorem rep_pairIntegral {k : ℕ} (hk : k ≤ 5) {m1 m2 : ℝ} {m1' m2' : F} (h1 : CR emb m1 m1') (h2 : CR emb m2 m2')
    {eta e : X → ℝ} {etad ed : D} (heta : ρ.R eta etad) (he : ρ.R e ed) {a b : Fin k → Fin 3 → ℝ}
    {a' b' : Fin k → Fin 3 → F} (ha : ∀ i j, CR emb (a i j) (a' i j)) (hb : ∀ i j, CR emb (b i j) (b' i j)) :
    ρ.R (fun x => pairIntegral hk m1 m2 (eta x) a b (e x)) (pairIntegral hk m1' m2' etad a' b' ed) := by
  refine ρ.sumFin le (fun i => ?_)
  have := rep_etas le heta (i.castLE hk)
  have := ha i 0
  have := ha i 1
  have := ha i 2
  have := hb i 0
  have := hb i 1
  have := hb i 2
  rep

theorem rep_tripletIntegral {m1 m2 : ℝ} {m1' m2' : F} (h1 : CR emb m1 m1') (h2 : CR emb m2 m2')
    {eta : X → ℝ} {etad : D} (heta : ρ.R eta etad) {a : Fin 4 → Fin 3 → ℝ}
    {a' : Fin 4 → Fin 3 → F} (ha : ∀ i j, CR emb (a i j) (a' i j)) :
    ρ.R (fun x => tripletIntegral m1 m2 (eta x) a) (tripletIntegral m1' m2' etad a') := by
  refine ρ.sumFin le (fun i => ?_)
  have := rep_etas le heta (i.castLE (by decide))
  have := ha i 0
  have := ha i 1
  have := ha i 2
  rep

theorem rep_tripletIntegralDQ {m1 : ℝ} {m1' : F} (h1 : CR emb m1 m1')
    {eta : X → ℝ} {etad : D} (heta : ρ.R eta etad) {a : Fin 3 → Fin 2 → ℝ}
    {a' : Fin 3 → Fin 2 → F} (ha : ∀ i j, CR emb (a i j) (a' i j)) :
    ρ.R (fun x => tripletIntegralDQ m1 (eta x) a) (tripletIntegralDQ m1' etad a') := by
  refine ρ.sumFin le (fun i => ?_)
  have := rep_etas le heta (i.castLE (by decide))
  have := ha i 0
  have := ha i 1
  rep

theorem rep_padeVolume {phi2 phi3 V : X → ℝ} {phi2d phi3d Vd : D} (h2 : ρ.R phi2 phi2d) (h3 : ρ.R phi3 phi3d)
    (hV : ρ.R V Vd) (hne : phi2 x0 ≠ phi3 x0) :
    ρ.R (fun x => padeVolume (phi2 x) (phi3 x) (V x)) (padeVolume phi2d phi3d Vd) := by
  have h := ρ.mul (ρ.div (ρ.mul h2 h2) (ρ.sub h2 h3) (sub_ne_zero.mpr hne)) hV
  have hn : F64.isNan (DualNum.re (phi2d * phi2d / (phi2d - phi3d) * Vd)) = false :=
    le.isNan (ρ.re h)
  unfold padeVolume
  simp only [hn, isNan_real]
  exact h

variable {p : PcSaftParameters n ℝ} {q : PcSaftParameters n F} (hp : ParamRel emb p q)
include hp

theorem rep_dipoleTerm {t : X → ℝ} {td : D} (ht : ρ.R t td) (i : Fin n) :
    ρ.R (fun x => dipoleTerm p (t x) i) (dipoleTerm q td i) := by
  unfold dipoleTerm
  rep

theorem rep_quadrupoleTerm {t : X → ℝ} {td : D} (ht : ρ.R t td) (i : Fin n) :
    ρ.R (fun x => quadrupoleTerm p (t x) i) (quadrupoleTerm q td i) := by
  unfold quadrupoleTerm
  rep

theorem rep_dipolePhi2 (hm : ∀ i, 0 < p.m i) (hs : ∀ i j, p.sigma_ij i j ≠ 0) {T eta : X → ℝ} {Td etad : D}
    (hT : ρ.R T Td) (h0 : T x0 ≠ 0) (heta : ρ.R eta etad) {rho : Fin n → X → ℝ} {rhod : Fin n → D}
    (hrho : ∀ i, ρ.R (rho i) (rhod i)) :
    ρ.R (fun x => dipolePhi2 p (T x) (fun i => rho i x) (eta x)) (dipolePhi2 q Td rhod etad) := by
  have hTi := ρ.recip' hT h0
  unfold dipolePhi2
  dsimp only
  rw [hp.dipole_comp]
  generalize p.dipole_comp = comp
  obtain ⟨hm1, hm2, -, -⟩ := CR.meanSegmentNumbers le hp.m hm comp
  obtain ⟨hA, hB, -⟩ := CR.polarTables le
  have hI := fun i j (e : X → ℝ) (ed : D) (he : ρ.R e ed) =>
    rep_pairIntegral le (by decide : 5 ≤ 5) (hm1 i j) (hm2 i j) heta he hA hB
  have ht := rep_dipoleTerm le hp hTi
  have hs3 : ∀ i j, F64.powi (p.sigma_ij i j) 3 ≠ 0 := fun i j => pow_ne_zero _ (hs i j)
  refine fold_rel ρ.R _ _ ?_ _ _ (ρ.constOf (CR.sci le _ _ _))
  intro i f d hfd
  have ri := hrho (comp.get i)
  have ti := ht (comp.get i)
  have ii := hI i i _ _ (ρ.mul hTi (ρ.constOf (hp.e_k_ij (comp.get i) (comp.get i))))
  refine foldUpper_rel ρ.R i _ _ ?_ _ _ ?_
  · intro j f d hfd
    have rj := hrho (comp.get j)
    have tj := ht (comp.get j)
    have ij := hI i j _ _ (ρ.mul hTi (ρ.constOf (hp.e_k_ij (comp.get i) (comp.get j))))
    exact ρ.sub hfd (ρ.mul (ρ.div (ρ.mul (ρ.mul (ρ.mul (ρ.mul ri rj) ti) tj) ij)
      (ρ.constOf (CR.powi le (hp.sigma_ij _ _) 3)) (hs3 _ _)) (ρ.constOf (CR.sci le _ _ _)))
  · exact ρ.sub hfd (ρ.div (ρ.mul (ρ.mul (ρ.mul (ρ.mul ri ri) ti) ti) ii)
      (ρ.constOf (CR.powi le (hp.sigma_ij _ _) 3)) (hs3 _ _))

theorem rep_dipolePhi3 (hm : ∀ i, 0 < p.m i) (hs : ∀ i j, p.sigma_ij i j ≠ 0) {T eta : X → ℝ} {Td etad : D}
    (hT : ρ.R T Td) (h0 : T x0 ≠ 0) (heta : ρ.R eta etad) {rho : Fin n → X → ℝ} {rhod : Fin n → D}
    (hrho : ∀ i, ρ.R (rho i) (rhod i)) :
    ρ.R (fun x => dipolePhi3 p (T x) (fun i => rho i x) (eta x)) (dipolePhi3 q Td rhod etad) := by
  have hTi := ρ.recip' hT h0
  unfold dipolePhi3
  dsimp only
  rw [hp.dipole_comp]
  generalize p.dipole_comp = comp
  obtain ⟨-, -, hm1, hm2⟩ := CR.meanSegmentNumbers le hp.m hm comp
  obtain ⟨-, -, hC, -⟩ := CR.polarTables le
  have hI := fun i j k => rep_tripletIntegral le (hm1 i j k) (hm2 i j k) heta hC
  have ht := rep_dipoleTerm le hp hTi
  have hss : ∀ i j k l m o, p.sigma_ij i j * p.sigma_ij k l * p.sigma_ij m o ≠ 0 :=
    fun i j k l m o => mul_ne_zero (mul_ne_zero (hs _ _) (hs _ _)) (hs _ _)
  have hcs : ∀ i j k l m o, ρ.R (fun _ => (c (p.sigma_ij i j * p.sigma_ij k l * p.sigma_ij m o) : ℝ))
      (c (q.sigma_ij i j * q.sigma_ij k l * q.sigma_ij m o)) :=
    fun i j k l m o => ρ.constOf (CR.mul le (CR.mul le (hp.sigma_ij _ _) (hp.sigma_ij _ _)) (hp.sigma_ij _ _))
  refine fold_rel ρ.R _ _ ?_ _ _ (ρ.constOf (CR.sci le _ _ _))
  intro i f d hfd
  have ri := hrho (comp.get i)
  have ti := ht (comp.get i)
  refine foldUpper_rel ρ.R i _ _ ?_ _ _ ?_
  · intro j f d hfd
    have rj := hrho (comp.get j)
    have tj := ht (comp.get j)
    refine foldUpper_rel ρ.R j _ _ ?_ _ _ ?_
    · intro k f d hfd
      have rk := hrho (comp.get k)
      have tk := ht (comp.get k)
      exact ρ.sub hfd (ρ.mul (ρ.mul (ρ.div (ρ.mul (ρ.mul (ρ.mul (ρ.mul (ρ.mul ri rj) rk) ti) tj) tk)
        (hcs _ _ _ _ _ _) (hss _ _ _ _ _ _)) (hI i j k)) (ρ.constOf (CR.sci le _ _ _)))
    · exact ρ.sub (ρ.sub hfd (ρ.mul (ρ.mul (ρ.div (ρ.mul (ρ.mul (ρ.mul (ρ.mul (ρ.mul ri ri) rj) ti) ti) tj)
        (hcs _ _ _ _ _ _) (hss _ _ _ _ _ _)) (hI i i j)) (ρ.constOf (CR.sci le _ _ _))))
        (ρ.mul (ρ.mul (ρ.div (ρ.mul (ρ.mul (ρ.mul (ρ.mul (ρ.mul ri rj) rj) ti) tj) tj)
        (hcs _ _ _ _ _ _) (hss _ _ _ _ _ _)) (hI i j j)) (ρ.constOf (CR.sci le _ _ _)))
  · exact ρ.sub hfd (ρ.div (ρ.mul (ρ.mul (ρ.mul (ρ.mul (ρ.mul (ρ.mul ri ri) ri) ti) ti) ti) (hI i i i))
      (ρ.constOf (CR.powi le (hp.sigma_ij _ _) 3)) (pow_ne_zero _ (hs _ _)))

theorem rep_quadrupolePhi2 (hm : ∀ i, 0 < p.m i) (hs : ∀ i j, p.sigma_ij i j ≠ 0) {T eta : X → ℝ} {Td etad : D}
    (hT : ρ.R T Td) (h0 : T x0 ≠ 0) (heta : ρ.R eta etad) {rho : Fin n → X → ℝ} {rhod : Fin n → D}
    (hrho : ∀ i, ρ.R (rho i) (rhod i)) :
    ρ.R (fun x => quadrupolePhi2 p (T x) (fun i => rho i x) (eta x)) (quadrupolePhi2 q Td rhod etad) := by
  have hTi := ρ.recip' hT h0
  unfold quadrupolePhi2
  dsimp only
  rw [hp.quadpole_comp]
  generalize p.quadpole_comp = comp
  obtain ⟨hm1, hm2, -, -⟩ := CR.meanSegmentNumbers le hp.m hm comp
  obtain ⟨-, -, -, hA, hB, -⟩ := CR.polarTables le
  have hI := fun i j (e : X → ℝ) (ed : D) (he : ρ.R e ed) =>
    rep_pairIntegral le (by decide : 5 ≤ 5) (hm1 i j) (hm2 i j) heta he hA hB
  have ht := rep_quadrupoleTerm le hp hTi
  have hs7 : ∀ i j, F64.powi (p.sigma_ij i j) 7 ≠ 0 := fun i j => pow_ne_zero _ (hs i j)
  refine fold_rel ρ.R _ _ ?_ _ _ (ρ.constOf (CR.sci le _ _ _))
  intro i f d hfd
  have ri := hrho (comp.get i)
  have ti := ht (comp.get i)
  have ii := hI i i _ _ (ρ.mul hTi (ρ.constOf (hp.e_k_ij (comp.get i) (comp.get i))))
  refine foldUpper_rel ρ.R i _ _ ?_ _ _ ?_
  · intro j f d hfd
    have rj := hrho (comp.get j)
    have tj := ht (comp.get j)
    have ij := hI i j _ _ (ρ.mul hTi (ρ.constOf (hp.e_k_ij (comp.get i) (comp.get j))))
    exact ρ.sub hfd (ρ.mul (ρ.div (ρ.mul (ρ.mul (ρ.mul (ρ.mul ri rj) ti) tj) ij)
      (ρ.constOf (CR.powi le (hp.sigma_ij _ _) 7)) (hs7 _ _)) (ρ.constOf (CR.sci le _ _ _)))
  · exact ρ.sub hfd (ρ.div (ρ.mul (ρ.mul (ρ.mul (ρ.mul ri ri) ti) ti) ii)
      (ρ.constOf (CR.powi le (hp.sigma_ij _ _) 7)) (hs7 _ _))

theorem rep_quadrupolePhi3 (hm : ∀ i, 0 < p.m i) (hs : ∀ i j, p.sigma_ij i j ≠ 0) {T eta : X → ℝ} {Td etad : D}
    (hT : ρ.R T Td) (h0 : T x0 ≠ 0) (heta : ρ.R eta etad) {rho : Fin n → X → ℝ} {rhod : Fin n → D}
    (hrho : ∀ i, ρ.R (rho i) (rhod i)) :
    ρ.R (fun x => quadrupolePhi3 p (T x) (fun i => rho i x) (eta x)) (quadrupolePhi3 q Td rhod etad) := by
  have hTi := ρ.recip' hT h0
  unfold quadrupolePhi3
  dsimp only
  rw [hp.quadpole_comp]
  generalize p.quadpole_comp = comp
  obtain ⟨-, -, hm1, hm2⟩ := CR.meanSegmentNumbers le hp.m hm comp
  obtain ⟨-, -, -, -, -, hC, -⟩ := CR.polarTables le
  have hI := fun i j k => rep_tripletIntegral le (hm1 i j k) (hm2 i j k) heta hC
  have ht := rep_quadrupoleTerm le hp hTi
  have hs3 : ∀ i j, F64.powi (p.sigma_ij i j) 3 ≠ 0 := fun i j => pow_ne_zero _ (hs i j)
  have hc3 : ∀ i j, CR emb (F64.powi (p.sigma_ij i j) 3) (F64.powi (q.sigma_ij i j) 3) :=
    fun i j => CR.powi le (hp.sigma_ij _ _) 3
  have hss : ∀ i j k l m o, F64.powi (p.sigma_ij i j) 3 * F64.powi (p.sigma_ij k l) 3
      * F64.powi (p.sigma_ij m o) 3 ≠ 0 :=
    fun i j k l m o => mul_ne_zero (mul_ne_zero (hs3 _ _) (hs3 _ _)) (hs3 _ _)
  have hcs : ∀ i j k l m o, ρ.R (fun _ => (c (F64.powi (p.sigma_ij i j) 3 * F64.powi (p.sigma_ij k l) 3
      * F64.powi (p.sigma_ij m o) 3) : ℝ))
      (c (F64.powi (q.sigma_ij i j) 3 * F64.powi (q.sigma_ij k l) 3 * F64.powi (q.sigma_ij m o) 3)) :=
    fun i j k l m o => ρ.constOf (CR.mul le (CR.mul le (hc3 _ _) (hc3 _ _)) (hc3 _ _))
  refine fold_rel ρ.R _ _ ?_ _ _ (ρ.constOf (CR.sci le _ _ _))
  intro i f d hfd
  have ri := hrho (comp.get i)
  have ti := ht (comp.get i)
  refine foldUpper_rel ρ.R i _ _ ?_ _ _ ?_
  · intro j f d hfd
    have rj := hrho (comp.get j)
    have tj := ht (comp.get j)
    refine foldUpper_rel ρ.R j _ _ ?_ _ _ ?_
    · intro k f d hfd
      have rk := hrho (comp.get k)
      have tk := ht (comp.get k)
      exact ρ.add hfd (ρ.mul (ρ.mul (ρ.div (ρ.mul (ρ.mul (ρ.mul (ρ.mul (ρ.mul ri rj) rk) ti) tj) tk)
        (hcs _ _ _ _ _ _) (hss _ _ _ _ _ _)) (hI i j k)) (ρ.constOf (CR.sci le _ _ _)))
    · exact ρ.add (ρ.add hfd (ρ.mul (ρ.mul (ρ.div (ρ.mul (ρ.mul (ρ.mul (ρ.mul (ρ.mul ri ri) rj) ti) ti) tj)
        (hcs _ _ _ _ _ _) (hss _ _ _ _ _ _)) (hI i i j)) (ρ.constOf (CR.sci le _ _ _))))
        (ρ.mul (ρ.mul (ρ.div (ρ.mul (ρ.mul (ρ.mul (ρ.mul (ρ.mul ri rj) rj) ti) tj) tj)
        (hcs _ _ _ _ _ _) (hss _ _ _ _ _ _)) (hI i j j)) (ρ.constOf (CR.sci le _ _ _)))
  · exact ρ.add hfd (ρ.div (ρ.mul (ρ.mul (ρ.mul (ρ.mul (ρ.mul (ρ.mul ri ri) ri) ti) ti) ti) (hI i i i))
      (ρ.constOf (CR.powi le (hc3 _ _) 3)) (pow_ne_zero _ (hs3 _ _)))

/-- the two expansion terms of the dipole contribution -/
noncomputable def dipolePhis (p : PcSaftParameters n ℝ) (s : StateHD n ℝ) : ℝ × ℝ :=
  (dipolePhi2 p s.temperature s.partial_density (stateEta p s) * c F64.pi,
   dipolePhi3 p s.temperature s.partial_density (stateEta p s) * c PI_SQ_43)

omit hp in
theorem CR.piSq : CR emb PI_SQ_43 PI_SQ_43 := by
  unfold PI_SQ_43
  rep
  norm_num

theorem rep_dipole (hm : ∀ i, 0 < p.m i) (hs : ∀ i j, p.sigma_ij i j ≠ 0) {sf : X → StateHD n ℝ}
    {sd : StateHD n D} (hst : StateRel ρ sf sd) (hT : (sf x0).temperature ≠ 0)
    (hphi : (dipolePhis p (sf x0)).1 ≠ (dipolePhis p (sf x0)).2) :
    ρ.R (fun x => dipole p (sf x)) (dipole q sd) := by
  have heta := rep_eta le hp hst hT
  exact rep_padeVolume le
    (ρ.mul (rep_dipolePhi2 le hp hm hs hst.temperature hT heta hst.partial_density) (ρ.constOf (CR.pi le)))
    (ρ.mul (rep_dipolePhi3 le hp hm hs hst.temperature hT heta hst.partial_density) (ρ.constOf (CR.piSq le)))
    hst.volume hphi

/-- the two expansion terms of the quadrupole contribution -/
noncomputable def quadrupolePhis (p : PcSaftParameters n ℝ) (s : StateHD n ℝ) : ℝ × ℝ :=
  (quadrupolePhi2 p s.temperature s.partial_density (stateEta p s) * c (F64.pi * 0.5625),
   quadrupolePhi3 p s.temperature s.partial_density (stateEta p s) * c (F64.pi * F64.pi * 0.5625))

theorem rep_quadrupole (hm : ∀ i, 0 < p.m i) (hs : ∀ i j, p.sigma_ij i j ≠ 0) {sf : X → StateHD n ℝ}
    {sd : StateHD n D} (hst : StateRel ρ sf sd) (hT : (sf x0).temperature ≠ 0)
    (hphi : (quadrupolePhis p (sf x0)).1 ≠ (quadrupolePhis p (sf x0)).2) :
    ρ.R (fun x => quadrupole p (sf x)) (quadrupole q sd) := by
  have heta := rep_eta le hp hst hT
  exact rep_padeVolume le
    (ρ.mul (rep_quadrupolePhi2 le hp hm hs hst.temperature hT heta hst.partial_density)
      (ρ.constOf (CR.mul le (CR.pi le) (CR.sci le _ _ _))))
    (ρ.mul (rep_quadrupolePhi3 le hp hm hs hst.temperature hT heta hst.partial_density)
      (ρ.constOf (CR.mul le (CR.mul le (CR.pi le) (CR.pi le)) (CR.sci le _ _ _))))
    hst.volume hphi

theorem rep_dqTerm {x2 : Fin n → ℝ} {x2' : Fin n → F} (hx : ∀ i, CR emb (x2 i) (x2' i)) {t : X → ℝ} {td : D}
    (ht : ρ.R t td) (i : Fin n) : ρ.R (fun x => dqTerm p x2 (t x) i) (dqTerm q x2' td i) := by
  have := hx i
  unfold dqTerm
  rep

theorem rep_muQTerm (v : DQVariants) (hs : ∀ i, p.sigma i ≠ 0) {t : X → ℝ} {td : D} (ht : ρ.R t td) (i j : Fin n) :
    ρ.R (fun x => muQTerm v p (t x) i j) (muQTerm v q td i j) := by
  have h1 := rep_dqTerm le hp hp.mu2 ht
  have h2 := rep_dqTerm le hp hp.q2 ht
  cases v with
  | DQ35 =>
    exact ρ.mul (ρ.mul (ρ.div (h1 i) (ρ.constOf (hp.sigma i)) (hs i)) (h2 j)) (ρ.constOf (hp.sigma j))
  | DQ44 => exact ρ.mul (h1 i) (h2 j)

omit [DualNum F D] [TopologicalSpace X] in
theorem CR.mdqPair (hm : ∀ i, 0 < p.m i) (i j : Fin n) :
    CR emb (mdqPair p i j) (mdqPair q i j) ∧ mdqPair p i j ≠ 0 :=
  ⟨CR.sqrt le (CR.mul le (CR.min2 le (hp.m i)) (CR.min2 le (hp.m j)))
    (mul_pos (min_two_pos (hm i)) (min_two_pos (hm j))),
   (Real.sqrt_pos.mpr (mul_pos (min_two_pos (hm i)) (min_two_pos (hm j)))).ne'⟩

theorem CR.mdqTriplet (hm : ∀ i, 0 < p.m i) (i j k : Fin n) :
    CR emb (mdqTriplet p i j k) (mdqTriplet q i j k) ∧ mdqTriplet p i j k ≠ 0 :=
  ⟨CR.cbrt le (CR.mul le (CR.mul le (CR.min2 le (hp.m i)) (CR.min2 le (hp.m j))) (CR.min2 le (hp.m k)))
    (mul_pos (mul_pos (min_two_pos (hm i)) (min_two_pos (hm j))) (min_two_pos (hm k))),
   cbrt_ne_zero (mul_pos (mul_pos (min_two_pos (hm i)) (min_two_pos (hm j))) (min_two_pos (hm k)))⟩

theorem rep_dipoleQuadrupolePhi2 (v : DQVariants) (hm : ∀ i, 0 < p.m i) (hs : ∀ i j, p.sigma_ij i j ≠ 0)
    (hs1 : ∀ i, p.sigma i ≠ 0) {T eta : X → ℝ} {Td etad : D}
    (hT : ρ.R T Td) (h0 : T x0 ≠ 0) (heta : ρ.R eta etad) {rho : Fin n → X → ℝ} {rhod : Fin n → D}
    (hrho : ∀ i, ρ.R (rho i) (rhod i)) :
    ρ.R (fun x => dipoleQuadrupolePhi2 v p (T x) (fun i => rho i x) (eta x))
      (dipoleQuadrupolePhi2 v q Td rhod etad) := by
  have hTi := ρ.recip' hT h0
  unfold dipoleQuadrupolePhi2
  dsimp only
  rw [hp.dipole_comp, hp.quadpole_comp]
  generalize p.dipole_comp = dc
  generalize p.quadpole_comp = qc
  obtain ⟨-, -, -, -, -, -, hA, hB, -⟩ := CR.polarTables le
  refine fold_rel ρ.R _ _ ?_ _ _ (ρ.constOf (CR.sci le _ _ _))
  intro i f d hfd
  refine fold_rel ρ.R _ _ ?_ _ _ hfd
  intro j f d hfd
  have ri := hrho (dc.get i)
  have rj := hrho (qc.get j)
  obtain ⟨hc, hne⟩ := CR.mdqPair le hp hm (dc.get i) (qc.get j)
  exact ρ.sub hfd (ρ.mul (ρ.div (ρ.mul (ρ.mul ri rj) (rep_muQTerm le hp v hs1 hTi _ _))
    (ρ.constOf (CR.powi le (hp.sigma_ij _ _) 5)) (pow_ne_zero _ (hs _ _)))
    (rep_pairIntegral le (by decide) (CR.meanSeg1 le hc hne) (CR.meanSeg2 le hc hne) heta
      (ρ.mul hTi (ρ.constOf (hp.e_k_ij _ _))) hA hB))

theorem rep_dipoleQuadrupolePhi3 (hm : ∀ i, 0 < p.m i) (hs : ∀ i j, p.sigma_ij i j ≠ 0)
    {T eta : X → ℝ} {Td etad : D}
    (hT : ρ.R T Td) (h0 : T x0 ≠ 0) (heta : ρ.R eta etad) {rho : Fin n → X → ℝ} {rhod : Fin n → D}
    (hrho : ∀ i, ρ.R (rho i) (rhod i)) :
    ρ.R (fun x => dipoleQuadrupolePhi3 p (T x) (fun i => rho i x) (eta x)) (dipoleQuadrupolePhi3 q Td rhod etad) := by
  have hTi := ρ.recip' hT h0
  unfold dipoleQuadrupolePhi3
  dsimp only
  rw [hp.dipole_comp, hp.quadpole_comp]
  generalize p.dipole_comp = dc
  generalize p.quadpole_comp = qc
  obtain ⟨-, -, -, -, -, -, -, -, hC⟩ := CR.polarTables le
  have h1 := rep_dqTerm le hp hp.mu2 hTi
  have h2 := rep_dqTerm le hp hp.q2 hTi
  have hss : ∀ i j k l m o, F64.powi (p.sigma_ij i j * p.sigma_ij k l * p.sigma_ij m o) 2 ≠ 0 :=
    fun i j k l m o => pow_ne_zero _ (mul_ne_zero (mul_ne_zero (hs _ _) (hs _ _)) (hs _ _))
  have hcs : ∀ i j k l m o, ρ.R (fun _ => (c (F64.powi (p.sigma_ij i j * p.sigma_ij k l * p.sigma_ij m o) 2) : ℝ))
      (c (F64.powi (q.sigma_ij i j * q.sigma_ij k l * q.sigma_ij m o) 2)) :=
    fun i j k l m o => ρ.constOf (CR.powi le
      (CR.mul le (CR.mul le (hp.sigma_ij _ _) (hp.sigma_ij _ _)) (hp.sigma_ij _ _)) 2)
  have hI := fun i j k => rep_tripletIntegralDQ le
    (CR.meanSeg1 le (CR.mdqTriplet le hp hm i j k).1 (CR.mdqTriplet le hp hm i j k).2) heta hC
  refine fold_rel ρ.R _ _ ?_ _ _ (ρ.constOf (CR.sci le _ _ _))
  intro i f d hfd
  refine fold_rel ρ.R _ _ ?_ _ _ hfd
  intro j f d hfd
  have ri := hrho (dc.get i)
  have rj := hrho (qc.get j)
  refine fold_rel ρ.R _ _ ?_ _ _ ?_
  · intro k f d hfd
    exact ρ.add hfd (ρ.mul (ρ.mul (ρ.div (ρ.mul (ρ.mul (ρ.mul (ρ.mul (ρ.mul ri rj) (hrho _)) (h1 _)) (h2 _)) (h2 _))
      (hcs _ _ _ _ _ _) (hss _ _ _ _ _ _)) (ρ.constOf (CR.sci le _ _ _))) (hI _ _ _))
  · refine fold_rel ρ.R _ _ ?_ _ _ hfd
    intro k f d hfd
    exact ρ.add hfd (ρ.mul (ρ.div (ρ.mul (ρ.mul (ρ.mul (ρ.mul (ρ.mul ri rj) (hrho _)) (h1 _)) (h2 _)) (h1 _))
      (hcs _ _ _ _ _ _) (hss _ _ _ _ _ _)) (hI _ _ _))

/-- the two expansion terms of the dipole-quadrupole contribution -/
noncomputable def dipoleQuadrupolePhis (v : DQVariants) (p : PcSaftParameters n ℝ) (s : StateHD n ℝ) : ℝ × ℝ :=
  (dipoleQuadrupolePhi2 v p s.temperature s.partial_density (stateEta p s) * c (F64.pi * 2.25),
   dipoleQuadrupolePhi3 p s.temperature s.partial_density (stateEta p s) * c (F64.pi * F64.pi))

theorem rep_dipoleQuadrupole (v : DQVariants) (hm : ∀ i, 0 < p.m i) (hs : ∀ i j, p.sigma_ij i j ≠ 0)
    (hs1 : ∀ i, p.sigma i ≠ 0) {sf : X → StateHD n ℝ}
    {sd : StateHD n D} (hst : StateRel ρ sf sd) (hT : (sf x0).temperature ≠ 0)
    (hphi : (dipoleQuadrupolePhis v p (sf x0)).1 ≠ (dipoleQuadrupolePhis v p (sf x0)).2) :
    ρ.R (fun x => dipoleQuadrupole v p (sf x)) (dipoleQuadrupole v q sd) := by
  have heta := rep_eta le hp hst hT
  exact rep_padeVolume le
    (ρ.mul (rep_dipoleQuadrupolePhi2 le hp v hm hs hs1 hst.temperature hT heta hst.partial_density)
      (ρ.constOf (CR.mul le (CR.pi le) (CR.sci le _ _ _))))
    (ρ.mul (rep_dipoleQuadrupolePhi3 le hp hm hs hst.temperature hT heta hst.partial_density)
      (ρ.constOf (CR.mul le (CR.pi le) (CR.pi le))))
    hst.volume hphi

end model

end PcSaft
