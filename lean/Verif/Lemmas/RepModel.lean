import Verif.Lemmas.Rep
import Verif.Lemmas.RealForms
import Verif.Model.Eos

/-! # The contributions preserve representations -/

open Filter Topology

namespace PcSaft
variable {F D X : Type} [F64 F] [DualNum F D] [TopologicalSpace X] {n : ℕ}

/-- the parameters `q` stand for the real parameters `p` -/
structure ParamRel (emb : ℝ → F → Prop) (p : PcSaftParameters n ℝ) (q : PcSaftParameters n F) : Prop where
  m : ∀ i, emb (p.m i) (q.m i)
  sigma : ∀ i, emb (p.sigma i) (q.sigma i)
  epsilon_k : ∀ i, emb (p.epsilon_k i) (q.epsilon_k i)
  mu2 : ∀ i, emb (p.mu2 i) (q.mu2 i)
  q2 : ∀ i, emb (p.q2 i) (q.q2 i)
  na : ∀ i, emb (p.na i) (q.na i)
  nb : ∀ i, emb (p.nb i) (q.nb i)
  sigma_ij : ∀ i j, emb (p.sigma_ij i j) (q.sigma_ij i j)
  epsilon_k_ij : ∀ i j, emb (p.epsilon_k_ij i j) (q.epsilon_k_ij i j)
  e_k_ij : ∀ i j, emb (p.e_k_ij i j) (q.e_k_ij i j)
  kappa_aibj : ∀ i j, emb (p.kappa_aibj i j) (q.kappa_aibj i j)
  epsilon_k_aibj : ∀ i j, emb (p.epsilon_k_aibj i j) (q.epsilon_k_aibj i j)
  dipole_comp : q.dipole_comp = p.dipole_comp
  quadpole_comp : q.quadpole_comp = p.quadpole_comp
  assoc_comp : q.assoc_comp = p.assoc_comp
  /-- the test for sites of type B gives the same answer -/
  nb_pos : ∀ i, F64.lt (0.0 : F) (q.nb i) = decide (0 < p.nb i)

theorem ParamRel.refl (p : PcSaftParameters n ℝ) : ParamRel Same p p where
  m _ := rfl
  sigma _ := rfl
  epsilon_k _ := rfl
  mu2 _ := rfl
  q2 _ := rfl
  na _ := rfl
  nb _ := rfl
  sigma_ij _ _ := rfl
  epsilon_k_ij _ _ := rfl
  e_k_ij _ _ := rfl
  kappa_aibj _ _ := rfl
  epsilon_k_aibj _ _ := rfl
  dipole_comp := rfl
  quadpole_comp := rfl
  assoc_comp := rfl
  nb_pos i := by rw [lt_real, show (0.0 : ℝ) = 0 by norm_num]

/-! ### Relation on constants -/

/-- `a'` stands for the constant `a` -/
def CR (emb : ℝ → F → Prop) (a : ℝ) (a' : F) : Prop := emb a a'

section CR
variable {emb : ℝ → F → Prop} (le : LawfulEmb emb) {a b : ℝ} {a' b' : F}
include le
theorem CR.add (h : CR emb a a') (h' : CR emb b b') : CR emb (a + b) (a' + b') := le.add h h'
theorem CR.sub (h : CR emb a a') (h' : CR emb b b') : CR emb (a - b) (a' - b') := le.sub h h'
theorem CR.mul (h : CR emb a a') (h' : CR emb b b') : CR emb (a * b) (a' * b') := le.mul h h'
theorem CR.neg (h : CR emb a a') : CR emb (-a) (-a') := le.neg h
theorem CR.div (h : CR emb a a') (h' : CR emb b b') (hb : b ≠ 0) : CR emb (a / b) (a' / b') := le.div h h' hb
theorem CR.sci (m : ℕ) (s : Bool) (e : ℕ) :
    CR emb (OfScientific.ofScientific m s e) (OfScientific.ofScientific m s e) := le.sci m s e
theorem CR.powi (h : CR emb a a') (k : ℕ) : CR emb (F64.powi a k) (F64.powi a' k) := le.powi h k
theorem CR.pi : CR emb F64.pi F64.pi := le.pi
theorem CR.sqrt (h : CR emb a a') (ha : 0 < a) : CR emb (F64.sqrt a) (F64.sqrt a') := le.sqrt h ha
theorem CR.cbrt (h : CR emb a a') (ha : 0 < a) : CR emb (F64.cbrt a) (F64.cbrt a') := le.cbrt h ha
theorem CR.min (h : CR emb a a') (h' : CR emb b b') : CR emb (F64.min a b) (F64.min a' b') := le.min h h'
end CR

/-! ### Derived rules -/

section rules
variable {x0 : X} {emb : ℝ → F → Prop} (ρ : Rep x0 emb D)

theorem Rep.constOf {a : ℝ} {a' : F} (h : CR emb a a') : ρ.R (fun _ => (c a : ℝ)) (c a') := by
  exact ρ.constRel h

theorem Rep.recip' {f : X → ℝ} {d : D} (h : ρ.R f d) (hne : f x0 ≠ 0) :
    ρ.R (fun x => DualNum.recip (f x)) (DualNum.recip d) :=
  ρ.congr (ρ.recip h hne) (.of_forall fun _ => (recip_real _).symm)

omit [TopologicalSpace X] in
/-- folds preserve every relation that the steps preserve -/
theorem fold_rel {S S' : Type} (Q : (X → S) → S' → Prop) {k : ℕ} (step : Fin k → X → S → S)
    (step' : Fin k → S' → S') (hs : ∀ i f d, Q f d → Q (fun x => step i x (f x)) (step' i d))
    (f0 : X → S) (d0 : S') (h0 : Q f0 d0) :
    Q (fun x => Fin.foldl k (fun acc i => step i x acc) (f0 x)) (Fin.foldl k (fun acc i => step' i acc) d0) := by
  induction k with
  | zero => simpa using h0
  | succ k ih =>
    simp only [Fin.foldl_succ_last]
    exact hs _ _ _ (ih (fun i => step i.castSucc) (fun i => step' i.castSucc) (fun i f d h => hs _ f d h))

theorem Rep.sumFin (le : LawfulEmb emb) {k : ℕ} {f : Fin k → X → ℝ} {d : Fin k → D}
    (h : ∀ i, ρ.R (f i) (d i)) : ρ.R (fun x => sumFin (fun i => f i x)) (sumFin d) := by
  exact fold_rel ρ.R (fun i x acc => acc + f i x) (fun i acc => acc + d i) (fun i _ _ hh => ρ.add hh (h i)) _ _
    (ρ.constOf (CR.sci le _ _ _))

theorem Rep.sumFin2 (le : LawfulEmb emb) {k l : ℕ} {f : Fin k → Fin l → X → ℝ} {d : Fin k → Fin l → D}
    (h : ∀ i j, ρ.R (f i j) (d i j)) : ρ.R (fun x => sumFin2 (fun i j => f i j x)) (sumFin2 d) := by
  refine fold_rel ρ.R (fun i x acc => Fin.foldl l (fun acc j => acc + f i j x) acc)
    (fun i acc => Fin.foldl l (fun acc j => acc + d i j) acc) (fun i g e hh => ?_) _ _
    (ρ.constOf (CR.sci le _ _ _))
  exact fold_rel ρ.R (fun j x acc => acc + f i j x) (fun j acc => acc + d i j) (fun j _ _ hh => ρ.add hh (h i j)) _ _ hh

end rules

/-- proves that an expression is represented, up to the conditions on divisors and arguments -/
macro "rep" : tactic => `(tactic| repeat' first
  | assumption
  | apply Rep.constOf
  | apply CR.sci
  | apply CR.pi
  | apply ParamRel.m
  | apply ParamRel.sigma
  | apply ParamRel.epsilon_k
  | apply ParamRel.mu2
  | apply ParamRel.q2
  | apply ParamRel.na
  | apply ParamRel.nb
  | apply ParamRel.sigma_ij
  | apply ParamRel.epsilon_k_ij
  | apply ParamRel.e_k_ij
  | apply ParamRel.kappa_aibj
  | apply ParamRel.epsilon_k_aibj
  | apply CR.add
  | apply CR.sub
  | apply CR.mul
  | apply CR.neg
  | apply CR.div
  | apply CR.powi
  | apply Rep.add
  | apply Rep.sub
  | apply Rep.mul
  | apply Rep.neg
  | apply Rep.powi
  | apply Rep.exp
  | apply Rep.expm1)

/-- the state `sd` represents the family of states `sf` -/
structure StateRel {x0 : X} {emb : ℝ → F → Prop} (ρ : Rep x0 emb D) (sf : X → StateHD n ℝ) (sd : StateHD n D) : Prop where
  temperature : ρ.R (fun x => (sf x).temperature) sd.temperature
  volume : ρ.R (fun x => (sf x).volume) sd.volume
  moles : ∀ i, ρ.R (fun x => (sf x).moles i) (sd.moles i)
  molefracs : ∀ i, ρ.R (fun x => (sf x).molefracs i) (sd.molefracs i)
  partial_density : ∀ i, ρ.R (fun x => (sf x).partial_density i) (sd.partial_density i)

section model
variable {x0 : X} {emb : ℝ → F → Prop} {ρ : Rep x0 emb D} (le : LawfulEmb emb)
  {p : PcSaftParameters n ℝ} {q : PcSaftParameters n F} (hp : ParamRel emb p q)
include le

theorem StateRel.new {T V : X → ℝ} {N : Fin n → X → ℝ} {Td Vd : D} {Nd : Fin n → D} (hT : ρ.R T Td)
    (hV : ρ.R V Vd) (hN : ∀ i, ρ.R (N i) (Nd i)) (hV0 : V x0 ≠ 0) (hN0 : ∑ i, N i x0 ≠ 0) :
    StateRel ρ (fun x => StateHD.new (T x) (V x) (fun i => N i x)) (StateHD.new Td Vd Nd) where
  temperature := hT
  volume := hV
  moles := hN
  molefracs := fun i => ρ.div (hN i) (ρ.sumFin le hN) (by rw [sumFin_real]; exact hN0)
  partial_density := fun i => ρ.div (hN i) hV hV0

include hp

theorem rep_hsDiameter {T : X → ℝ} {Td : D} (hT : ρ.R T Td) (h0 : T x0 ≠ 0) (i : Fin n) :
    ρ.R (fun x => hsDiameter p (T x) i) (hsDiameter q Td i) := by
  have h1 := ρ.recip' hT h0
  unfold hsDiameter
  rep

omit hp in
theorem rep_zeta {m : Fin n → ℝ} {m' : Fin n → F} (hm : ∀ i, CR emb (m i) (m' i)) {rho d : Fin n → X → ℝ}
    {rhod dd : Fin n → D} (hrho : ∀ i, ρ.R (rho i) (rhod i)) (hd : ∀ i, ρ.R (d i) (dd i)) (k : Fin 4) :
    ρ.R (fun x => zeta m (fun i => rho i x) (fun i => d i x) k) (zeta m' rhod dd k) := by
  refine ρ.sumFin le (fun i => ?_)
  have h1 := hrho i
  have h2 := hd i
  have h3 := hm i
  rep
  norm_num

omit hp in
theorem rep_zeta23 {m : Fin n → ℝ} {m' : Fin n → F} (hm : ∀ i, CR emb (m i) (m' i)) {x' d : Fin n → X → ℝ}
    {xd dd : Fin n → D} (hx : ∀ i, ρ.R (x' i) (xd i)) (hd : ∀ i, ρ.R (d i) (dd i))
    (h0 : ∑ i, x' i x0 * d i x0 ^ 3 * m i ≠ 0) :
    ρ.R (fun x => zeta23 m (fun i => x' i x) (fun i => d i x)) (zeta23 m' xd dd) := by
  have hz : ∀ k, ρ.R (fun x => sumFin (fun i => x' i x * DualNum.powi (d i x) (k + 2) * c (m i)))
      (sumFin (fun i => xd i * DualNum.powi (dd i) (k + 2) * c (m' i))) := by
    intro k
    refine ρ.sumFin le (fun i => ?_)
    have h1 := hx i
    have h2 := hd i
    have h3 := hm i
    rep
  refine ρ.div (hz 0) (hz 1) ?_
  beta_reduce
  rw [sumFin_real]
  exact h0

theorem rep_hardSphere {sf : X → StateHD n ℝ} {sd : StateHD n D} (hs : StateRel ρ sf sd)
    (hT : (sf x0).temperature ≠ 0)
    (h3 : zeta p.m (sf x0).partial_density (hsDiameter p (sf x0).temperature) 3 < 1)
    (h23 : ∑ i, (sf x0).molefracs i * hsDiameter p (sf x0).temperature i ^ 3 * p.m i ≠ 0) :
    ρ.R (fun x => hardSphere p (sf x)) (hardSphere q sd) := by
  have hd := rep_hsDiameter le hp hs.temperature hT
  have hz := rep_zeta le hp.m hs.partial_density hd
  have hz23 := rep_zeta23 le hp.m hs.molefracs hd h23
  have z0 := hz 0
  have z1 := hz 1
  have z2 := hz 2
  have z3 := hz 3
  have hV := hs.volume
  unfold hardSphere
  have hf := ρ.recip' (ρ.sub z3 (ρ.constOf (CR.sci le 10 true 1))) (by
    simp only [c, ofF_real]; norm_num; exact (sub_neg.mpr h3).ne)
  have hl := ρ.ln1p (ρ.mul z3 (ρ.constOf (CR.neg le (CR.sci le 10 true 1)))) (by
    simp only [c, ofF_real]; norm_num; exact h3)
  have hv6 := ρ.div (ρ.mul hV (ρ.constOf (CR.sci le 60 true 1))) (ρ.constOf (CR.pi le)) Real.pi_ne_zero
  rep

omit hp in
theorem rep_gHs {z2 z3 d : X → ℝ} {z2d z3d dd : D} (h2 : ρ.R z2 z2d) (h3 : ρ.R z3 z3d) (hd : ρ.R d dd)
    (h1 : z3 x0 ≠ 1) : ρ.R (fun x => gHs (z2 x) (z3 x) (d x)) (gHs z2d z3d dd) := by
  have hf := ρ.recip' (ρ.sub h3 (ρ.constOf (CR.sci le 10 true 1))) (by
    simp only [c, ofF_real]; norm_num; exact sub_ne_zero.mpr h1)
  unfold gHs
  rep

theorem rep_hardChain {sf : X → StateHD n ℝ} {sd : StateHD n D} (hs : StateRel ρ sf sd)
    (hT : (sf x0).temperature ≠ 0)
    (h3 : zeta p.m (sf x0).partial_density (hsDiameter p (sf x0).temperature) 3 ≠ 1)
    (hg : ∀ i, 0 < gHs (zeta p.m (sf x0).partial_density (hsDiameter p (sf x0).temperature) 2)
      (zeta p.m (sf x0).partial_density (hsDiameter p (sf x0).temperature) 3)
      (hsDiameter p (sf x0).temperature i)) :
    ρ.R (fun x => hardChain p (sf x)) (hardChain q sd) := by
  have hd := rep_hsDiameter le hp hs.temperature hT
  have hz := rep_zeta le hp.m hs.partial_density hd
  have hV := hs.volume
  unfold hardChain
  refine ρ.mul (ρ.sumFin le (fun i => ?_)) hV
  have hg := ρ.ln (rep_gHs le (hz 2) (hz 3) (hd i) h3) (hg i)
  have h1 := hs.partial_density i
  rep

omit hp in
theorem rep_packingFraction {m : Fin n → ℝ} {m' : Fin n → F} (hm : ∀ i, CR emb (m i) (m' i))
    {rho r : Fin n → X → ℝ} {rhod rd : Fin n → D} (hrho : ∀ i, ρ.R (rho i) (rhod i))
    (hr : ∀ i, ρ.R (r i) (rd i)) :
    ρ.R (fun x => packingFraction m (fun i => rho i x) (fun i => r i x)) (packingFraction m' rhod rd) := by
  have := ρ.sumFin le (f := fun i x => rho i x * c (m i) * r i x * r i x * r i x)
    (d := fun i => rhod i * c (m' i) * rd i * rd i * rd i) (fun i => by
      have h1 := hrho i
      have h2 := hr i
      have h3 := hm i
      rep)
  unfold packingFraction
  rep
  norm_num

omit hp in
theorem rep_dispersionIntegral {a0 a1 a2 : Fin 7 → ℝ} {a0' a1' a2' : Fin 7 → F} (h0 : ∀ i, CR emb (a0 i) (a0' i))
    (h1 : ∀ i, CR emb (a1 i) (a1' i)) (h2 : ∀ i, CR emb (a2 i) (a2' i)) {m eta : X → ℝ} {md etad : D}
    (hm : ρ.R m md) (heta : ρ.R eta etad) (hne : m x0 ≠ 0) :
    ρ.R (fun x => dispersionIntegral a0 a1 a2 (m x) (eta x)) (dispersionIntegral a0' a1' a2' md etad) := by
  have hm1 := ρ.div (ρ.sub hm (ρ.constOf (CR.sci le 10 true 1))) hm hne
  have hm2 := ρ.div (ρ.sub hm (ρ.constOf (CR.sci le 20 true 1))) hm hne
  refine (fold_rel (fun f d => ρ.R (fun x => (f x).1) d.1 ∧ ρ.R (fun x => (f x).2) d.2)
    (fun i x acc => (acc.1 + ((m x - c 1.0) / m x * ((m x - c 2.0) / m x * c (a2 i) + c (a1 i)) + c (a0 i)) * acc.2,
     acc.2 * eta x)) (fun i acc => (acc.1 + ((md - c 1.0) / md * ((md - c 2.0) / md * c (a2' i) + c (a1' i))
      + c (a0' i)) * acc.2, acc.2 * etad)) ?_ (fun _ => (c (0.0 : ℝ), c (1.0 : ℝ))) (c (0.0 : F), c (1.0 : F)) ?_).1
  · rintro i f d ⟨hf, hf2⟩
    have h0 := h0 i
    have h1 := h1 i
    have h2 := h2 i
    dsimp only
    constructor <;> rep
  · dsimp only
    constructor <;> rep

omit hp in
theorem rep_dispersionC1 {m eta : X → ℝ} {md etad : D} (hm : ρ.R m md) (heta : ρ.R eta etad)
    (h1 : eta x0 ≠ 1) (h2 : eta x0 ≠ 2)
    (h0 : m x0 * (eta x0 * 8 - eta x0 ^ 2 * 2) / (eta x0 - 1) ^ 4
      + (1 - m x0) * (eta x0 * 20 - eta x0 ^ 2 * 27 + eta x0 ^ 3 * 12 - eta x0 ^ 4 * 2)
        / ((eta x0 - 1) * (eta x0 - 2)) ^ 2 + 1 ≠ 0) :
    ρ.R (fun x => dispersionC1 (m x) (eta x)) (dispersionC1 md etad) := by
  have e1 : (1.0 : ℝ) = 1 := by norm_num
  have e2 : (2.0 : ℝ) = 2 := by norm_num
  have q1 := sub_ne_zero.mpr h1
  have q2 := sub_ne_zero.mpr h2
  have hden1 : ρ.R (fun x => DualNum.powi (eta x - c 1.0) 4) (DualNum.powi (etad - c 1.0) 4) := by rep
  have hden2 : ρ.R (fun x => DualNum.powi ((eta x - c 1.0) * (eta x - c 2.0)) 2)
      (DualNum.powi ((etad - c 1.0) * (etad - c 2.0)) 2) := by rep
  have hnum1 : ρ.R (fun x => m x * (eta x * c 8.0 - DualNum.powi (eta x) 2 * c 2.0))
      (md * (etad * c 8.0 - DualNum.powi etad 2 * c 2.0)) := by rep
  have hnum2 : ρ.R (fun x => (c 1.0 - m x) * (eta x * c 20.0 - DualNum.powi (eta x) 2 * c 27.0
        + DualNum.powi (eta x) 3 * c 12.0 - DualNum.powi (eta x) 4 * c 2.0))
      ((c 1.0 - md) * (etad * c 20.0 - DualNum.powi etad 2 * c 27.0 + DualNum.powi etad 3 * c 12.0
          - DualNum.powi etad 4 * c 2.0)) := by rep
  have hd1 := ρ.div hnum1 hden1 (by
    simp only [c, ofF_real, dpowi_real, e1]; exact pow_ne_zero _ q1)
  have hd2 := ρ.div hnum2 hden2 (by
    simp only [c, ofF_real, dpowi_real, e1, e2]; exact pow_ne_zero _ (mul_ne_zero q1 q2))
  refine ρ.recip' (ρ.add (ρ.add hd1 hd2) (ρ.constOf (CR.sci le 10 true 1))) ?_
  simp only [c, ofF_real, dpowi_real]
  norm_num
  exact h0

theorem rep_rho1mix {T : X → ℝ} {Td : D} (hT : ρ.R T Td) (h0 : T x0 ≠ 0) {rho : Fin n → X → ℝ} {rhod : Fin n → D}
    (hrho : ∀ i, ρ.R (rho i) (rhod i)) :
    ρ.R (fun x => rho1mix p (T x) (fun i => rho i x)) (rho1mix q Td rhod) := by
  have hTi := ρ.recip' hT h0
  refine ρ.sumFin2 le (fun i j => ?_)
  have h1 := hrho i
  have h2 := hrho j
  rep

theorem rep_rho2mix {T : X → ℝ} {Td : D} (hT : ρ.R T Td) (h0 : T x0 ≠ 0) {rho : Fin n → X → ℝ} {rhod : Fin n → D}
    (hrho : ∀ i, ρ.R (rho i) (rhod i)) :
    ρ.R (fun x => rho2mix p (T x) (fun i => rho i x)) (rho2mix q Td rhod) := by
  have hTi := ρ.recip' hT h0
  refine ρ.sumFin2 le (fun i j => ?_)
  have h1 := hrho i
  have h2 := hrho j
  rep

omit hp in
theorem CR.table : (∀ i, CR emb (A0 i) (A0 i)) ∧ (∀ i, CR emb (A1 i) (A1 i)) ∧ (∀ i, CR emb (A2 i) (A2 i))
    ∧ (∀ i, CR emb (B0 i) (B0 i)) ∧ (∀ i, CR emb (B1 i) (B1 i)) ∧ (∀ i, CR emb (B2 i) (B2 i)) := by
  refine ⟨?_, ?_, ?_, ?_, ?_, ?_⟩ <;> intro i <;> fin_cases i
  all_goals first | exact CR.sci le _ _ _ | exact CR.neg le (CR.sci le _ _ _)

/-- the mean segment number -/
noncomputable def meanSegment (p : PcSaftParameters n ℝ) (s : StateHD n ℝ) : ℝ := ∑ i, s.molefracs i * p.m i

/-- the packing fraction used in dispersion, polar and association contributions -/
noncomputable def stateEta (p : PcSaftParameters n ℝ) (s : StateHD n ℝ) : ℝ :=
  packingFraction p.m s.partial_density (fun i => hsDiameter p s.temperature i * (c 0.5 : ℝ))

theorem rep_radius {T : X → ℝ} {Td : D} (hT : ρ.R T Td) (h0 : T x0 ≠ 0) (i : Fin n) :
    ρ.R (fun x => hsDiameter p (T x) i * (c 0.5 : ℝ)) (hsDiameter q Td i * c 0.5) :=
  ρ.mul (rep_hsDiameter le hp hT h0 i) (ρ.constOf (CR.sci le _ _ _))

theorem rep_eta {sf : X → StateHD n ℝ} {sd : StateHD n D} (hs : StateRel ρ sf sd)
    (hT : (sf x0).temperature ≠ 0) :
    ρ.R (fun x => stateEta p (sf x))
      (packingFraction q.m sd.partial_density (fun i => hsDiameter q sd.temperature i * c 0.5)) :=
  rep_packingFraction le hp.m hs.partial_density (rep_radius le hp hs.temperature hT)

theorem rep_dispersion {sf : X → StateHD n ℝ} {sd : StateHD n D} (hs : StateRel ρ sf sd)
    (hT : (sf x0).temperature ≠ 0) (hm : meanSegment p (sf x0) ≠ 0)
    (h1 : stateEta p (sf x0) ≠ 1) (h2 : stateEta p (sf x0) ≠ 2)
    (h0 : meanSegment p (sf x0) * (stateEta p (sf x0) * 8 - stateEta p (sf x0) ^ 2 * 2)
        / (stateEta p (sf x0) - 1) ^ 4
      + (1 - meanSegment p (sf x0)) * (stateEta p (sf x0) * 20 - stateEta p (sf x0) ^ 2 * 27
          + stateEta p (sf x0) ^ 3 * 12 - stateEta p (sf x0) ^ 4 * 2)
        / ((stateEta p (sf x0) - 1) * (stateEta p (sf x0) - 2)) ^ 2 + 1 ≠ 0) :
    ρ.R (fun x => dispersion p (sf x)) (dispersion q sd) := by
  have heta := rep_eta le hp hs hT
  have hmm : ρ.R (fun x => meanSegment p (sf x)) (sumFin (fun i => sd.molefracs i * c (q.m i))) := by
    refine ρ.congr (ρ.sumFin le (f := fun i x => (sf x).molefracs i * (c (p.m i) : ℝ))
      (fun i => ρ.mul (hs.molefracs i) (ρ.constOf (hp.m i)))) (.of_forall fun x => ?_)
    beta_reduce
    rw [sumFin_real]
    rfl
  obtain ⟨ha0, ha1, ha2, hb0, hb1, hb2⟩ := CR.table le
  have hi1 := rep_dispersionIntegral le ha0 ha1 ha2 hmm heta hm
  have hi2 := rep_dispersionIntegral le hb0 hb1 hb2 hmm heta hm
  have hc1 := rep_dispersionC1 le hmm heta h1 h2 h0
  have hr1 := rep_rho1mix le hp hs.temperature hT hs.partial_density
  have hr2 := rep_rho2mix le hp hs.temperature hT hs.partial_density
  have hV := hs.volume
  have e : ∀ x, sumFin (fun i => (sf x).molefracs i * (c (p.m i) : ℝ)) = meanSegment p (sf x) := by
    intro x
    rw [sumFin_real]
    rfl
  simp only [dispersion, e]
  change ρ.R (fun x => (-(rho1mix p (sf x).temperature (sf x).partial_density)
    * dispersionIntegral A0 A1 A2 (meanSegment p (sf x)) (stateEta p (sf x)) * c 2.0
    - rho2mix p (sf x).temperature (sf x).partial_density * meanSegment p (sf x)
      * dispersionC1 (meanSegment p (sf x)) (stateEta p (sf x))
      * dispersionIntegral B0 B1 B2 (meanSegment p (sf x)) (stateEta p (sf x))) * c F64.pi * (sf x).volume) _
  rep

end model

end PcSaft
