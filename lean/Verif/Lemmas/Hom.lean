import Verif.Model.Eos
import Verif.Model.Dual

/-!
# Maps between number types that commute with all operations

If two number types are related by maps that commute with the operations, then every function of the model
commutes with these maps. Comparisons are not part of the assumption: where the code branches on a
comparison, the lemma asks for the comparison to have the same outcome on both sides.
-/

set_option linter.unusedSimpArgs false

namespace PcSaft
variable {F G D E : Type} [F64 F] [F64 G] [DualNum F D] [DualNum G E] {n : Nat}

/-- a map of constants that commutes with the operations -/
structure FHom (ψ : F → G) : Prop where
  add : ∀ a b, ψ (a + b) = ψ a + ψ b
  sub : ∀ a b, ψ (a - b) = ψ a - ψ b
  mul : ∀ a b, ψ (a * b) = ψ a * ψ b
  div : ∀ a b, ψ (a / b) = ψ a / ψ b
  neg : ∀ a, ψ (-a) = -ψ a
  sci : ∀ m s e, ψ (OfScientific.ofScientific m s e) = OfScientific.ofScientific m s e
  powi : ∀ a k, ψ (F64.powi a k) = F64.powi (ψ a) k
  powf : ∀ a b, ψ (F64.powf a b) = F64.powf (ψ a) (ψ b)
  sqrt : ∀ a, ψ (F64.sqrt a) = F64.sqrt (ψ a)
  cbrt : ∀ a, ψ (F64.cbrt a) = F64.cbrt (ψ a)
  ln : ∀ a, ψ (F64.ln a) = F64.ln (ψ a)
  exp : ∀ a, ψ (F64.exp a) = F64.exp (ψ a)
  expm1 : ∀ a, ψ (F64.expm1 a) = F64.expm1 (ψ a)
  ln1p : ∀ a, ψ (F64.ln1p a) = F64.ln1p (ψ a)
  abs : ∀ a, ψ (F64.abs a) = F64.abs (ψ a)
  min : ∀ a b, ψ (F64.min a b) = F64.min (ψ a) (ψ b)
  pi : ψ F64.pi = F64.pi
  isNan : ∀ a, F64.isNan (ψ a) = F64.isNan a

/-- a map of a number type over a map of its constants that commutes with the operations -/
structure NumHom (ψ : F → G) (φ : D → E) : Prop where
  f : FHom ψ
  const : ∀ x, φ (DualNum.ofF x) = DualNum.ofF (ψ x)
  add : ∀ a b, φ (a + b) = φ a + φ b
  sub : ∀ a b, φ (a - b) = φ a - φ b
  mul : ∀ a b, φ (a * b) = φ a * φ b
  div : ∀ a b, φ (a / b) = φ a / φ b
  neg : ∀ a, φ (-a) = -φ a
  recip : ∀ a, φ (DualNum.recip a) = DualNum.recip (φ a)
  powi : ∀ a k, φ (DualNum.powi a k) = DualNum.powi (φ a) k
  sqrt : ∀ a, φ (DualNum.sqrt a) = DualNum.sqrt (φ a)
  ln : ∀ a, φ (DualNum.ln a) = DualNum.ln (φ a)
  exp : ∀ a, φ (DualNum.exp a) = DualNum.exp (φ a)
  expm1 : ∀ a, φ (DualNum.expm1 a) = DualNum.expm1 (φ a)
  ln1p : ∀ a, φ (DualNum.ln1p a) = DualNum.ln1p (φ a)
  re : ∀ a, ψ (DualNum.re a) = DualNum.re (φ a)

/-- push a map of number types through the operations -/
syntax "hom" "[" ident "]" : tactic
macro_rules
  | `(tactic| hom [$h]) => `(tactic| simp only [NumHom.const $h, NumHom.add $h, NumHom.sub $h,
      NumHom.mul $h, NumHom.div $h, NumHom.neg $h, NumHom.recip $h, NumHom.powi $h, NumHom.sqrt $h,
      NumHom.ln $h, NumHom.exp $h, NumHom.expm1 $h, NumHom.ln1p $h, FHom.add (NumHom.f $h),
      FHom.sub (NumHom.f $h), FHom.mul (NumHom.f $h), FHom.div (NumHom.f $h), FHom.neg (NumHom.f $h),
      FHom.sci (NumHom.f $h), FHom.powi (NumHom.f $h), FHom.powf (NumHom.f $h), FHom.sqrt (NumHom.f $h),
      FHom.cbrt (NumHom.f $h), FHom.min (NumHom.f $h), FHom.pi (NumHom.f $h)])

theorem FHom.self {ψ : F → G} (h : FHom ψ) : NumHom ψ ψ where
  f := h
  const _ := rfl
  add := h.add
  sub := h.sub
  mul := h.mul
  div := h.div
  neg := h.neg
  recip a := by
    show ψ ((1.0 : F) / a) = (1.0 : G) / ψ a
    rw [h.div, h.sci]
  powi := h.powi
  sqrt := h.sqrt
  ln := h.ln
  exp := h.exp
  expm1 := h.expm1
  ln1p := h.ln1p
  re _ := rfl

/-- the map on dual numbers -/
def Dual.map (φ : D → E) (x : Dual D) : Dual E := ⟨φ x.re, φ x.eps⟩

theorem NumHom.dual {ψ : F → G} {φ : D → E} (h : NumHom ψ φ) : NumHom ψ (Dual.map φ) where
  f := h.f
  const x := by
    show (⟨φ (c x), φ (c (0.0 : F))⟩ : Dual E) = ⟨c (ψ x), c (0.0 : G)⟩
    hom [h]
  add a b := by
    show (⟨φ (a.re + b.re), φ (a.eps + b.eps)⟩ : Dual E) = ⟨φ a.re + φ b.re, φ a.eps + φ b.eps⟩
    hom [h]
  sub a b := by
    show (⟨φ (a.re - b.re), φ (a.eps - b.eps)⟩ : Dual E) = ⟨φ a.re - φ b.re, φ a.eps - φ b.eps⟩
    hom [h]
  mul a b := by
    show (⟨φ (a.re * b.re), φ (a.eps * b.re + b.eps * a.re)⟩ : Dual E)
      = ⟨φ a.re * φ b.re, φ a.eps * φ b.re + φ b.eps * φ a.re⟩
    hom [h]
  div a b := by
    show (⟨φ (a.re * DualNum.recip b.re),
        φ ((a.eps * b.re - b.eps * a.re) * DualNum.recip b.re * DualNum.recip b.re)⟩ : Dual E)
      = ⟨φ a.re * DualNum.recip (φ b.re),
        (φ a.eps * φ b.re - φ b.eps * φ a.re) * DualNum.recip (φ b.re) * DualNum.recip (φ b.re)⟩
    hom [h]
  neg a := by
    show (⟨φ (-a.re), φ (-a.eps)⟩ : Dual E) = ⟨-φ a.re, -φ a.eps⟩
    hom [h]
  recip a := by
    show (⟨φ (DualNum.recip a.re), φ (a.eps * -(DualNum.recip a.re * DualNum.recip a.re))⟩ : Dual E)
      = ⟨DualNum.recip (φ a.re), φ a.eps * -(DualNum.recip (φ a.re) * DualNum.recip (φ a.re))⟩
    hom [h]
  powi a k := by
    match k with
    | 0 =>
      show (⟨φ (c (1.0 : F)), φ (c (0.0 : F))⟩ : Dual E) = ⟨c (1.0 : G), c (0.0 : G)⟩
      hom [h]
    | 1 => rfl
    | k + 2 =>
      show (⟨φ (DualNum.powi a.re (k + 2)), φ (a.eps * (DualNum.powi a.re (k + 1)
          * c (OfScientific.ofScientific (k + 2) false 0 : F)))⟩ : Dual E)
        = ⟨DualNum.powi (φ a.re) (k + 2), φ a.eps * (DualNum.powi (φ a.re) (k + 1)
          * c (OfScientific.ofScientific (k + 2) false 0 : G))⟩
      hom [h]
  sqrt a := by
    show (⟨φ (DualNum.sqrt a.re), φ (a.eps * (DualNum.recip a.re * DualNum.sqrt a.re * c (0.5 : F)))⟩ :
        Dual E)
      = ⟨DualNum.sqrt (φ a.re), φ a.eps * (DualNum.recip (φ a.re) * DualNum.sqrt (φ a.re) * c (0.5 : G))⟩
    hom [h]
  ln a := by
    show (⟨φ (DualNum.ln a.re), φ (a.eps * DualNum.recip a.re)⟩ : Dual E)
      = ⟨DualNum.ln (φ a.re), φ a.eps * DualNum.recip (φ a.re)⟩
    hom [h]
  exp a := by
    show (⟨φ (DualNum.exp a.re), φ (a.eps * DualNum.exp a.re)⟩ : Dual E)
      = ⟨DualNum.exp (φ a.re), φ a.eps * DualNum.exp (φ a.re)⟩
    hom [h]
  expm1 a := by
    show (⟨φ (DualNum.expm1 a.re), φ (a.eps * DualNum.exp a.re)⟩ : Dual E)
      = ⟨DualNum.expm1 (φ a.re), φ a.eps * DualNum.exp (φ a.re)⟩
    hom [h]
  ln1p a := by
    show (⟨φ (DualNum.ln1p a.re), φ (a.eps * DualNum.recip (a.re + c (1.0 : F)))⟩ : Dual E)
      = ⟨DualNum.ln1p (φ a.re), φ a.eps * DualNum.recip (φ a.re + c (1.0 : G))⟩
    hom [h]
  re a := h.re a.re

/-! ### Loops -/

theorem hom_foldl {S T : Type} (φ : S → T) {k : Nat} {f : S → Fin k → S} {g : T → Fin k → T}
    (h : ∀ s i, φ (f s i) = g (φ s) i) (s : S) : φ (Fin.foldl k f s) = Fin.foldl k g (φ s) := by
  induction k generalizing s with
  | zero => simp only [Fin.foldl_zero]
  | succ k ih =>
    rw [Fin.foldl_succ, Fin.foldl_succ, ih (g := fun s i => g s i.succ) (fun s i => h s i.succ), h]

theorem hom_foldUpper {S T : Type} (φ : S → T) {k : Nat} {f : S → Fin k → S} {g : T → Fin k → T}
    (h : ∀ s i, φ (f s i) = g (φ s) i) (i : Fin k) (s : S) :
    φ (foldUpper i f s) = foldUpper i g (φ s) := by
  unfold foldUpper
  refine hom_foldl φ (fun s j => ?_) s
  split
  · exact h s j
  · rfl

theorem hom_foldl' {S T : Type} (φ : S → T) {k : Nat} {f : S → Fin k → S} {g : T → Fin k → T} {s : S} {t : T}
    (h : ∀ s i, φ (f s i) = g (φ s) i) (hs : φ s = t) : φ (Fin.foldl k f s) = Fin.foldl k g t := by
  rw [hom_foldl φ h, hs]

theorem hom_foldUpper' {S T : Type} (φ : S → T) {k : Nat} {f : S → Fin k → S} {g : T → Fin k → T} {i : Fin k}
    {s : S} {t : T} (h : ∀ s i, φ (f s i) = g (φ s) i) (hs : φ s = t) :
    φ (foldUpper i f s) = foldUpper i g t := by
  rw [hom_foldUpper φ h, hs]

namespace NumHom
variable {ψ : F → G} {φ : D → E}

theorem sumFin (h : NumHom ψ φ) {k : Nat} (f : Fin k → D) :
    φ (PcSaft.sumFin f) = PcSaft.sumFin (fun i => φ (f i)) := by
  unfold PcSaft.sumFin
  rw [hom_foldl φ (g := fun acc i => acc + φ (f i)) (fun s i => h.add _ _)]
  hom [h]

theorem sumFin2 (h : NumHom ψ φ) {k l : Nat} (f : Fin k → Fin l → D) :
    φ (PcSaft.sumFin2 f) = PcSaft.sumFin2 (fun i j => φ (f i j)) := by
  unfold PcSaft.sumFin2
  rw [hom_foldl φ (g := fun acc i => Fin.foldl l (fun acc j => acc + φ (f i j)) acc)
    (fun s i => hom_foldl φ (fun s j => h.add _ _) s)]
  hom [h]

end NumHom

/-! ### Parameters and states -/

def PcSaftRecord.mapHom (ψ : F → G) (r : PcSaftRecord F) : PcSaftRecord G :=
  { m := ψ r.m, sigma := ψ r.sigma, epsilon_k := ψ r.epsilon_k, mu := r.mu.map ψ, q := r.q.map ψ
    kappa_ab := r.kappa_ab.map ψ, epsilon_k_ab := r.epsilon_k_ab.map ψ
    na := r.na.map ψ, nb := r.nb.map ψ, viscosity := r.viscosity.map (fun v i => ψ (v i))
    diffusion := r.diffusion.map (fun v i => ψ (v i))
    thermal_conductivity := r.thermal_conductivity.map (fun v i => ψ (v i)) }

def JobackRecord.mapHom (ψ : F → G) (r : JobackRecord F) : JobackRecord G :=
  ⟨ψ r.a, ψ r.b, ψ r.c, ψ r.d, ψ r.e⟩

def PureRecord.mapHom (ψ : F → G) (r : PureRecord F) : PureRecord G :=
  { identifier := r.identifier, molarweight := ψ r.molarweight, model_record := r.model_record.mapHom ψ
    ideal_gas_record := r.ideal_gas_record.map (JobackRecord.mapHom ψ) }

/-- the parameters with all numbers mapped; the lists of components are kept -/
def PcSaftParameters.mapHom (ψ : F → G) (p : PcSaftParameters n F) : PcSaftParameters n G :=
  { molarweight := fun i => ψ (p.molarweight i)
    m := fun i => ψ (p.m i)
    sigma := fun i => ψ (p.sigma i)
    epsilon_k := fun i => ψ (p.epsilon_k i)
    mu := fun i => ψ (p.mu i)
    q := fun i => ψ (p.q i)
    mu2 := fun i => ψ (p.mu2 i)
    q2 := fun i => ψ (p.q2 i)
    kappa_ab := fun i => ψ (p.kappa_ab i)
    epsilon_k_ab := fun i => ψ (p.epsilon_k_ab i)
    na := fun i => ψ (p.na i)
    nb := fun i => ψ (p.nb i)
    kappa_aibj := fun i j => ψ (p.kappa_aibj i j)
    epsilon_k_aibj := fun i j => ψ (p.epsilon_k_aibj i j)
    k_ij := fun i j => ψ (p.k_ij i j)
    sigma_ij := fun i j => ψ (p.sigma_ij i j)
    epsilon_k_ij := fun i j => ψ (p.epsilon_k_ij i j)
    e_k_ij := fun i j => ψ (p.e_k_ij i j)
    dipole_comp := p.dipole_comp
    quadpole_comp := p.quadpole_comp
    assoc_comp := p.assoc_comp
    viscosity := p.viscosity.map (fun v k i => ψ (v k i))
    diffusion := p.diffusion.map (fun v k i => ψ (v k i))
    thermal_conductivity := p.thermal_conductivity.map (fun v k i => ψ (v k i))
    pure_records := fun i => (p.pure_records i).mapHom ψ
    binary_records := fun i j => ψ (p.binary_records i j)
    joback_records := p.joback_records.map (fun r i => (r i).mapHom ψ) }

def StateHD.mapHom (φ : D → E) (s : StateHD n D) : StateHD n E :=
  { temperature := φ s.temperature
    volume := φ s.volume
    moles := fun i => φ (s.moles i)
    molefracs := fun i => φ (s.molefracs i)
    partial_density := fun i => φ (s.partial_density i) }

namespace NumHom
variable {ψ : F → G} {φ : D → E}

theorem state (h : NumHom ψ φ) (T V : D) (N : Fin n → D) :
    (StateHD.new T V N).mapHom φ = StateHD.new (φ T) (φ V) (fun i => φ (N i)) := by
  simp only [StateHD.mapHom, StateHD.new, h.div, h.sumFin]

/-! ### Hard spheres, chains and dispersion -/

theorem hsDiameter (h : NumHom ψ φ) (p : PcSaftParameters n F) (T : D) (i : Fin n) :
    φ (PcSaft.hsDiameter p T i) = PcSaft.hsDiameter (p.mapHom ψ) (φ T) i := by
  unfold PcSaft.hsDiameter
  hom [h]
  rfl

theorem zeta (h : NumHom ψ φ) (m : Fin n → F) (rho d : Fin n → D) (k : Fin 4) :
    φ (PcSaft.zeta m rho d k) = PcSaft.zeta (fun i => ψ (m i)) (fun i => φ (rho i)) (fun i => φ (d i)) k := by
  unfold PcSaft.zeta
  rw [h.sumFin]
  hom [h]

theorem zeta23 (h : NumHom ψ φ) (m : Fin n → F) (x d : Fin n → D) :
    φ (PcSaft.zeta23 m x d) = PcSaft.zeta23 (fun i => ψ (m i)) (fun i => φ (x i)) (fun i => φ (d i)) := by
  unfold PcSaft.zeta23
  simp only [h.div, h.sumFin]
  hom [h]

theorem hardSphere (h : NumHom ψ φ) (p : PcSaftParameters n F) (s : StateHD n D) :
    φ (PcSaft.hardSphere p s) = PcSaft.hardSphere (p.mapHom ψ) (s.mapHom φ) := by
  unfold PcSaft.hardSphere
  hom [h]
  simp only [h.zeta, h.zeta23, h.hsDiameter]
  rfl

theorem gHs (h : NumHom ψ φ) (z2 z3 d : D) : φ (PcSaft.gHs z2 z3 d) = PcSaft.gHs (φ z2) (φ z3) (φ d) := by
  unfold PcSaft.gHs
  hom [h]

theorem hardChain (h : NumHom ψ φ) (p : PcSaftParameters n F) (s : StateHD n D) :
    φ (PcSaft.hardChain p s) = PcSaft.hardChain (p.mapHom ψ) (s.mapHom φ) := by
  unfold PcSaft.hardChain
  simp only [h.mul, h.sumFin]
  hom [h]
  simp only [h.gHs, h.zeta, h.hsDiameter]
  rfl

theorem packingFraction (h : NumHom ψ φ) (m : Fin n → F) (rho r : Fin n → D) :
    φ (PcSaft.packingFraction m rho r)
      = PcSaft.packingFraction (fun i => ψ (m i)) (fun i => φ (rho i)) (fun i => φ (r i)) := by
  unfold PcSaft.packingFraction
  hom [h]
  rw [h.sumFin]
  hom [h]

theorem dispersionIntegral (h : NumHom ψ φ) (a0 a1 a2 : Fin 7 → F) (m eta : D) :
    φ (PcSaft.dispersionIntegral a0 a1 a2 m eta)
      = PcSaft.dispersionIntegral (fun i => ψ (a0 i)) (fun i => ψ (a1 i)) (fun i => ψ (a2 i)) (φ m) (φ eta) := by
  unfold PcSaft.dispersionIntegral
  refine (congrArg Prod.fst (hom_foldl (fun s : D × D => (φ s.1, φ s.2))
    (g := fun acc i => (acc.1 + ((φ m - c 1.0) / φ m * ((φ m - c 2.0) / φ m * c (ψ (a2 i)) + c (ψ (a1 i)))
      + c (ψ (a0 i))) * acc.2, acc.2 * φ eta)) (fun s i => ?_) _)).trans ?_
  · dsimp only
    hom [h]
  · dsimp only
    hom [h]

theorem dispersionC1 (h : NumHom ψ φ) (m eta : D) :
    φ (PcSaft.dispersionC1 m eta) = PcSaft.dispersionC1 (φ m) (φ eta) := by
  unfold PcSaft.dispersionC1
  hom [h]

theorem rho1mix (h : NumHom ψ φ) (p : PcSaftParameters n F) (T : D) (rho : Fin n → D) :
    φ (PcSaft.rho1mix p T rho) = PcSaft.rho1mix (p.mapHom ψ) (φ T) (fun i => φ (rho i)) := by
  unfold PcSaft.rho1mix
  rw [h.sumFin2]
  hom [h]
  rfl

theorem rho2mix (h : NumHom ψ φ) (p : PcSaftParameters n F) (T : D) (rho : Fin n → D) :
    φ (PcSaft.rho2mix p T rho) = PcSaft.rho2mix (p.mapHom ψ) (φ T) (fun i => φ (rho i)) := by
  unfold PcSaft.rho2mix
  rw [h.sumFin2]
  hom [h]
  rfl

theorem _root_.PcSaft.FHom.dispersionTables (h : FHom ψ) :
    (fun i => ψ (A0 i)) = A0 ∧ (fun i => ψ (A1 i)) = A1 ∧ (fun i => ψ (A2 i)) = A2
      ∧ (fun i => ψ (B0 i)) = B0 ∧ (fun i => ψ (B1 i)) = B1 ∧ (fun i => ψ (B2 i)) = B2 := by
  refine ⟨?_, ?_, ?_, ?_, ?_, ?_⟩ <;>
  · funext i
    fin_cases i <;>
    first
    | exact h.sci _ _ _
    | exact (h.neg _).trans (congrArg _ (h.sci _ _ _))

theorem dispersion (h : NumHom ψ φ) (p : PcSaftParameters n F) (s : StateHD n D) :
    φ (PcSaft.dispersion p s) = PcSaft.dispersion (p.mapHom ψ) (s.mapHom φ) := by
  obtain ⟨a0, a1, a2, b0, b1, b2⟩ := h.f.dispersionTables
  unfold PcSaft.dispersion
  hom [h]
  simp only [h.rho1mix, h.rho2mix, h.dispersionIntegral, h.dispersionC1, h.packingFraction, h.sumFin,
    a0, a1, a2, b0, b1, b2]
  hom [h]
  simp only [h.hsDiameter]
  rfl

/-! ### Polar contributions -/

theorem _root_.PcSaft.FHom.meanSeg1 (h : FHom ψ) (m : F) : ψ (PcSaft.meanSeg1 m) = PcSaft.meanSeg1 (ψ m) := by
  unfold PcSaft.meanSeg1
  rw [h.div, h.sub, h.sci]

theorem _root_.PcSaft.FHom.meanSeg2 (h : FHom ψ) (m : F) : ψ (PcSaft.meanSeg2 m) = PcSaft.meanSeg2 (ψ m) := by
  unfold PcSaft.meanSeg2
  rw [h.div, h.mul, h.meanSeg1, h.sub, h.sci]

theorem _root_.PcSaft.FHom.mij1 (h : FHom ψ) (m : Fin n → F) (comp : List (Fin n)) (i j : Fin comp.length) :
    ψ ((MeanSegmentNumbers.new m comp).mij1 i j) = (MeanSegmentNumbers.new (fun i => ψ (m i)) comp).mij1 i j := by
  simp only [MeanSegmentNumbers.new]
  split_ifs <;> simp only [h.meanSeg1, h.sqrt, h.mul, h.min, h.sci]

theorem _root_.PcSaft.FHom.mij2 (h : FHom ψ) (m : Fin n → F) (comp : List (Fin n)) (i j : Fin comp.length) :
    ψ ((MeanSegmentNumbers.new m comp).mij2 i j) = (MeanSegmentNumbers.new (fun i => ψ (m i)) comp).mij2 i j := by
  simp only [MeanSegmentNumbers.new]
  split_ifs <;> simp only [h.meanSeg2, h.sqrt, h.mul, h.min, h.sci]

theorem _root_.PcSaft.FHom.mijk1 (h : FHom ψ) (m : Fin n → F) (comp : List (Fin n))
    (i j k : Fin comp.length) :
    ψ ((MeanSegmentNumbers.new m comp).mijk1 i j k)
      = (MeanSegmentNumbers.new (fun i => ψ (m i)) comp).mijk1 i j k := by
  simp only [MeanSegmentNumbers.new]
  split_ifs <;> simp only [h.meanSeg1, h.cbrt, h.mul, h.min, h.sci]

theorem _root_.PcSaft.FHom.mijk2 (h : FHom ψ) (m : Fin n → F) (comp : List (Fin n))
    (i j k : Fin comp.length) :
    ψ ((MeanSegmentNumbers.new m comp).mijk2 i j k)
      = (MeanSegmentNumbers.new (fun i => ψ (m i)) comp).mijk2 i j k := by
  simp only [MeanSegmentNumbers.new]
  split_ifs <;> simp only [h.meanSeg2, h.cbrt, h.mul, h.min, h.sci]

theorem etas (h : NumHom ψ φ) (eta : D) (i : Fin 5) : φ (PcSaft.etas eta i) = PcSaft.etas (φ eta) i := by
  fin_cases i
  · show φ (c (1.0 : F)) = c (1.0 : G)
    hom [h]
  · rfl
  · exact h.mul _ _
  · show φ (eta * eta * eta) = φ eta * φ eta * φ eta
    hom [h]
  · show φ (eta * eta * (eta * eta)) = φ eta * φ eta * (φ eta * φ eta)
    hom [h]

theorem pairIntegral (h : NumHom ψ φ) {k : Nat} (hk : k ≤ 5) (m1 m2 : F) (eta : D) (a b : Fin k → Fin 3 → F)
    (e : D) :
    φ (PcSaft.pairIntegral hk m1 m2 eta a b e)
      = PcSaft.pairIntegral hk (ψ m1) (ψ m2) (φ eta) (fun i j => ψ (a i j)) (fun i j => ψ (b i j)) (φ e) := by
  unfold PcSaft.pairIntegral
  rw [h.sumFin]
  hom [h]
  simp only [h.etas]

theorem tripletIntegral (h : NumHom ψ φ) (m1 m2 : F) (eta : D) (a : Fin 4 → Fin 3 → F) :
    φ (PcSaft.tripletIntegral m1 m2 eta a)
      = PcSaft.tripletIntegral (ψ m1) (ψ m2) (φ eta) (fun i j => ψ (a i j)) := by
  unfold PcSaft.tripletIntegral
  rw [h.sumFin]
  hom [h]
  simp only [h.etas]

theorem tripletIntegralDQ (h : NumHom ψ φ) (m1 : F) (eta : D) (a : Fin 3 → Fin 2 → F) :
    φ (PcSaft.tripletIntegralDQ m1 eta a)
      = PcSaft.tripletIntegralDQ (ψ m1) (φ eta) (fun i j => ψ (a i j)) := by
  unfold PcSaft.tripletIntegralDQ
  rw [h.sumFin]
  hom [h]
  simp only [h.etas]

theorem padeVolume (h : NumHom ψ φ) (phi2 phi3 v : D) :
    φ (PcSaft.padeVolume phi2 phi3 v) = PcSaft.padeVolume (φ phi2) (φ phi3) (φ v) := by
  have hn : F64.isNan (DualNum.re (phi2 * phi2 / (phi2 - phi3) * v))
      = F64.isNan (DualNum.re (φ (phi2 * phi2 / (phi2 - phi3) * v))) := by
    rw [← h.re, h.f.isNan]
  unfold PcSaft.padeVolume
  rw [apply_ite φ, hn]
  hom [h]

theorem _root_.PcSaft.FHom.polarTables (h : FHom ψ) :
    (fun i j => ψ (AD i j)) = AD ∧ (fun i j => ψ (BD i j)) = BD ∧ (fun i j => ψ (CD i j)) = CD
      ∧ (fun i j => ψ (AQ i j)) = AQ ∧ (fun i j => ψ (BQ i j)) = BQ ∧ (fun i j => ψ (CQ i j)) = CQ
      ∧ (fun i j => ψ (ADQ i j)) = ADQ ∧ (fun i j => ψ (BDQ i j)) = BDQ ∧ (fun i j => ψ (CDQ i j)) = CDQ := by
  refine ⟨?_, ?_, ?_, ?_, ?_, ?_, ?_, ?_, ?_⟩ <;>
  · funext i j
    fin_cases i <;> fin_cases j <;>
    first
    | exact h.sci _ _ _
    | exact (h.neg _).trans (congrArg _ (h.sci _ _ _))

theorem dipoleTerm (h : NumHom ψ φ) (p : PcSaftParameters n F) (t : D) (i : Fin n) :
    φ (PcSaft.dipoleTerm p t i) = PcSaft.dipoleTerm (p.mapHom ψ) (φ t) i := by
  unfold PcSaft.dipoleTerm
  hom [h]
  rfl

theorem quadrupoleTerm (h : NumHom ψ φ) (p : PcSaftParameters n F) (t : D) (i : Fin n) :
    φ (PcSaft.quadrupoleTerm p t i) = PcSaft.quadrupoleTerm (p.mapHom ψ) (φ t) i := by
  unfold PcSaft.quadrupoleTerm
  hom [h]
  rfl

theorem dipolePhi2 (h : NumHom ψ φ) (p : PcSaftParameters n F) (T : D) (rho : Fin n → D) (eta : D) :
    φ (PcSaft.dipolePhi2 p T rho eta) = PcSaft.dipolePhi2 (p.mapHom ψ) (φ T) (fun i => φ (rho i)) (φ eta) := by
  obtain ⟨ad, bd, cd, aq, bq, cq, adq, bdq, cdq⟩ := h.f.polarTables
  unfold PcSaft.dipolePhi2
  refine hom_foldl' φ (fun s i => ?_) ?_
  · dsimp only
    refine hom_foldUpper' φ (fun s j => ?_) ?_
    · hom [h]
      simp only [h.dipoleTerm, h.quadrupoleTerm, h.pairIntegral, h.tripletIntegral, h.f.mij1, h.f.mij2,
        h.f.mijk1, h.f.mijk2, ad, bd, cd, aq, bq, cq]
      hom [h]
      rfl
    · hom [h]
      simp only [h.dipoleTerm, h.quadrupoleTerm, h.pairIntegral, h.tripletIntegral, h.f.mij1, h.f.mij2,
        h.f.mijk1, h.f.mijk2, ad, bd, cd, aq, bq, cq]
      hom [h]
      rfl
  · hom [h]

theorem dipolePhi3 (h : NumHom ψ φ) (p : PcSaftParameters n F) (T : D) (rho : Fin n → D) (eta : D) :
    φ (PcSaft.dipolePhi3 p T rho eta) = PcSaft.dipolePhi3 (p.mapHom ψ) (φ T) (fun i => φ (rho i)) (φ eta) := by
  obtain ⟨ad, bd, cd, aq, bq, cq, adq, bdq, cdq⟩ := h.f.polarTables
  unfold PcSaft.dipolePhi3
  refine hom_foldl' φ (fun s i => ?_) ?_
  · dsimp only
    refine hom_foldUpper' φ (fun s j => ?_) ?_
    · refine hom_foldUpper' φ (fun s k => ?_) ?_
      · hom [h]
        simp only [h.dipoleTerm, h.quadrupoleTerm, h.pairIntegral, h.tripletIntegral, h.f.mij1, h.f.mij2,
          h.f.mijk1, h.f.mijk2, ad, bd, cd, aq, bq, cq]
        hom [h]
        rfl
      · hom [h]
        simp only [h.dipoleTerm, h.quadrupoleTerm, h.pairIntegral, h.tripletIntegral, h.f.mij1, h.f.mij2,
          h.f.mijk1, h.f.mijk2, ad, bd, cd, aq, bq, cq]
        hom [h]
        rfl
    · hom [h]
      simp only [h.dipoleTerm, h.quadrupoleTerm, h.pairIntegral, h.tripletIntegral, h.f.mij1, h.f.mij2,
        h.f.mijk1, h.f.mijk2, ad, bd, cd, aq, bq, cq]
      hom [h]
      rfl
  · hom [h]

theorem quadrupolePhi2 (h : NumHom ψ φ) (p : PcSaftParameters n F) (T : D) (rho : Fin n → D) (eta : D) :
    φ (PcSaft.quadrupolePhi2 p T rho eta) = PcSaft.quadrupolePhi2 (p.mapHom ψ) (φ T) (fun i => φ (rho i)) (φ eta) := by
  obtain ⟨ad, bd, cd, aq, bq, cq, adq, bdq, cdq⟩ := h.f.polarTables
  unfold PcSaft.quadrupolePhi2
  refine hom_foldl' φ (fun s i => ?_) ?_
  · dsimp only
    refine hom_foldUpper' φ (fun s j => ?_) ?_
    · hom [h]
      simp only [h.dipoleTerm, h.quadrupoleTerm, h.pairIntegral, h.tripletIntegral, h.f.mij1, h.f.mij2,
        h.f.mijk1, h.f.mijk2, ad, bd, cd, aq, bq, cq]
      hom [h]
      rfl
    · hom [h]
      simp only [h.dipoleTerm, h.quadrupoleTerm, h.pairIntegral, h.tripletIntegral, h.f.mij1, h.f.mij2,
        h.f.mijk1, h.f.mijk2, ad, bd, cd, aq, bq, cq]
      hom [h]
      rfl
  · hom [h]

theorem quadrupolePhi3 (h : NumHom ψ φ) (p : PcSaftParameters n F) (T : D) (rho : Fin n → D) (eta : D) :
    φ (PcSaft.quadrupolePhi3 p T rho eta) = PcSaft.quadrupolePhi3 (p.mapHom ψ) (φ T) (fun i => φ (rho i)) (φ eta) := by
  obtain ⟨ad, bd, cd, aq, bq, cq, adq, bdq, cdq⟩ := h.f.polarTables
  unfold PcSaft.quadrupolePhi3
  refine hom_foldl' φ (fun s i => ?_) ?_
  · dsimp only
    refine hom_foldUpper' φ (fun s j => ?_) ?_
    · refine hom_foldUpper' φ (fun s k => ?_) ?_
      · hom [h]
        simp only [h.dipoleTerm, h.quadrupoleTerm, h.pairIntegral, h.tripletIntegral, h.f.mij1, h.f.mij2,
          h.f.mijk1, h.f.mijk2, ad, bd, cd, aq, bq, cq]
        hom [h]
        rfl
      · hom [h]
        simp only [h.dipoleTerm, h.quadrupoleTerm, h.pairIntegral, h.tripletIntegral, h.f.mij1, h.f.mij2,
          h.f.mijk1, h.f.mijk2, ad, bd, cd, aq, bq, cq]
        hom [h]
        rfl
    · hom [h]
      simp only [h.dipoleTerm, h.quadrupoleTerm, h.pairIntegral, h.tripletIntegral, h.f.mij1, h.f.mij2,
        h.f.mijk1, h.f.mijk2, ad, bd, cd, aq, bq, cq]
      hom [h]
      rfl
  · hom [h]

theorem dipole (h : NumHom ψ φ) (p : PcSaftParameters n F) (s : StateHD n D) :
    φ (PcSaft.dipole p s) = PcSaft.dipole (p.mapHom ψ) (s.mapHom φ) := by
  unfold PcSaft.dipole PI_SQ_43
  dsimp only
  rw [h.padeVolume]
  hom [h]
  simp only [h.dipolePhi2, h.dipolePhi3, h.packingFraction]
  hom [h]
  simp only [h.hsDiameter]
  rfl

theorem quadrupole (h : NumHom ψ φ) (p : PcSaftParameters n F) (s : StateHD n D) :
    φ (PcSaft.quadrupole p s) = PcSaft.quadrupole (p.mapHom ψ) (s.mapHom φ) := by
  unfold PcSaft.quadrupole
  dsimp only
  rw [h.padeVolume]
  hom [h]
  simp only [h.quadrupolePhi2, h.quadrupolePhi3, h.packingFraction]
  hom [h]
  simp only [h.hsDiameter]
  rfl

theorem dqTerm (h : NumHom ψ φ) (p : PcSaftParameters n F) (x2 : Fin n → F) (t : D) (i : Fin n) :
    φ (PcSaft.dqTerm p x2 t i) = PcSaft.dqTerm (p.mapHom ψ) (fun i => ψ (x2 i)) (φ t) i := by
  unfold PcSaft.dqTerm
  hom [h]
  rfl

theorem muQTerm (h : NumHom ψ φ) (v : DQVariants) (p : PcSaftParameters n F) (t : D) (i j : Fin n) :
    φ (PcSaft.muQTerm v p t i j) = PcSaft.muQTerm v (p.mapHom ψ) (φ t) i j := by
  cases v <;> simp only [PcSaft.muQTerm] <;> hom [h] <;> simp only [h.dqTerm] <;> rfl

theorem _root_.PcSaft.FHom.mdqPair (h : FHom ψ) (p : PcSaftParameters n F) (i j : Fin n) :
    ψ (PcSaft.mdqPair p i j) = PcSaft.mdqPair (p.mapHom ψ) i j := by
  simp only [PcSaft.mdqPair, h.sqrt, h.mul, h.min, h.sci]
  rfl

theorem _root_.PcSaft.FHom.mdqTriplet (h : FHom ψ) (p : PcSaftParameters n F) (i j k : Fin n) :
    ψ (PcSaft.mdqTriplet p i j k) = PcSaft.mdqTriplet (p.mapHom ψ) i j k := by
  simp only [PcSaft.mdqTriplet, h.cbrt, h.mul, h.min, h.sci]
  rfl

theorem dipoleQuadrupolePhi2 (h : NumHom ψ φ) (v : DQVariants) (p : PcSaftParameters n F) (T : D)
    (rho : Fin n → D) (eta : D) :
    φ (PcSaft.dipoleQuadrupolePhi2 v p T rho eta)
      = PcSaft.dipoleQuadrupolePhi2 v (p.mapHom ψ) (φ T) (fun i => φ (rho i)) (φ eta) := by
  obtain ⟨ad, bd, cd, aq, bq, cq, adq, bdq, cdq⟩ := h.f.polarTables
  unfold PcSaft.dipoleQuadrupolePhi2
  refine hom_foldl' φ (fun s i => ?_) ?_
  · refine hom_foldl' φ (fun s j => ?_) rfl
    hom [h]
    simp only [h.muQTerm, h.pairIntegral, h.f.meanSeg1, h.f.meanSeg2, h.f.mdqPair, adq, bdq]
    hom [h]
    rfl
  · hom [h]

theorem dipoleQuadrupolePhi3 (h : NumHom ψ φ) (p : PcSaftParameters n F) (T : D)
    (rho : Fin n → D) (eta : D) :
    φ (PcSaft.dipoleQuadrupolePhi3 p T rho eta)
      = PcSaft.dipoleQuadrupolePhi3 (p.mapHom ψ) (φ T) (fun i => φ (rho i)) (φ eta) := by
  obtain ⟨ad, bd, cd, aq, bq, cq, adq, bdq, cdq⟩ := h.f.polarTables
  unfold PcSaft.dipoleQuadrupolePhi3 ALPHA
  refine hom_foldl' φ (fun s i => ?_) ?_
  · refine hom_foldl' φ (fun s j => ?_) rfl
    refine hom_foldl' φ (fun s k => ?_) (hom_foldl' φ (fun s k => ?_) rfl)
    · hom [h]
      simp only [h.dqTerm, h.tripletIntegralDQ, h.f.meanSeg1, h.f.mdqTriplet, cdq]
      hom [h]
      rfl
    · hom [h]
      simp only [h.dqTerm, h.tripletIntegralDQ, h.f.meanSeg1, h.f.mdqTriplet, cdq]
      hom [h]
      rfl
  · hom [h]

theorem dipoleQuadrupole (h : NumHom ψ φ) (v : DQVariants) (p : PcSaftParameters n F) (s : StateHD n D) :
    φ (PcSaft.dipoleQuadrupole v p s) = PcSaft.dipoleQuadrupole v (p.mapHom ψ) (s.mapHom φ) := by
  unfold PcSaft.dipoleQuadrupole
  dsimp only
  rw [h.padeVolume]
  hom [h]
  simp only [h.dipoleQuadrupolePhi2, h.dipoleQuadrupolePhi3, h.packingFraction]
  hom [h]
  simp only [h.hsDiameter]
  rfl

/-! ### Association -/

theorem associationStrength (h : NumHom ψ φ) (p : PcSaftParameters n F) (T : D) (r : Fin n → D)
    (n2 n3i xi : D) (i j : Fin n) :
    φ (PcSaft.associationStrength p T r n2 n3i xi i j)
      = PcSaft.associationStrength (p.mapHom ψ) (φ T) (fun i => φ (r i)) (φ n2) (φ n3i) (φ xi) i j := by
  unfold PcSaft.associationStrength
  hom [h]
  rfl

theorem assocN2 (h : NumHom ψ φ) (m : Fin n → F) (rho r : Fin n → D) :
    φ (PcSaft.assocN2 m rho r)
      = PcSaft.assocN2 (fun i => ψ (m i)) (fun i => φ (rho i)) (fun i => φ (r i)) := by
  unfold PcSaft.assocN2
  hom [h]
  rw [h.sumFin]
  hom [h]

theorem assocF (h : NumHom ψ φ) (x : D) : φ (PcSaft.assocF x) = PcSaft.assocF (φ x) := by
  unfold PcSaft.assocF
  hom [h]

theorem assocSiteFracAB (h : NumHom ψ φ) (d : D) (na nb : F)
    (hlt : F64.lt (F64.sqrt f64EPSILON) (DualNum.re (φ d)) = F64.lt (F64.sqrt f64EPSILON) (DualNum.re d)) :
    φ (PcSaft.assocSiteFracAB d na nb) = PcSaft.assocSiteFracAB (φ d) (ψ na) (ψ nb) := by
  unfold PcSaft.assocSiteFracAB
  rw [apply_ite φ, hlt]
  hom [h]

theorem assocSiteFracA (h : NumHom ψ φ) (d : D) (na : F)
    (hlt : F64.lt (F64.sqrt f64EPSILON) (DualNum.re (φ d)) = F64.lt (F64.sqrt f64EPSILON) (DualNum.re d)) :
    φ (PcSaft.assocSiteFracA d na) = PcSaft.assocSiteFracA (φ d) (ψ na) := by
  unfold PcSaft.assocSiteFracA
  rw [apply_ite φ, hlt]
  hom [h]

theorem assocSingle (h : NumHom ψ φ) (d N : D) (na nb : F)
    (hlt : F64.lt (F64.sqrt f64EPSILON) (DualNum.re (φ d)) = F64.lt (F64.sqrt f64EPSILON) (DualNum.re d))
    (hnb : F64.lt 0.0 (ψ nb) = F64.lt 0.0 nb) :
    φ (PcSaft.assocSingle d N na nb) = PcSaft.assocSingle (φ d) (φ N) (ψ na) (ψ nb) := by
  unfold PcSaft.assocSingle
  rw [apply_ite φ, hnb]
  dsimp only
  hom [h]
  simp only [h.assocF]
  hom [h]
  simp only [h.assocSiteFracAB _ _ _ hlt, h.assocSiteFracA _ _ hlt]

/-- the product of association strength and density, as the code computes it -/
def _root_.PcSaft.codeDeltaRho (p : PcSaftParameters n F) (state : StateHD n D) (a : Fin n) : D :=
  let r := fun i => PcSaft.hsDiameter p state.temperature i * c 0.5
  let n2 := PcSaft.assocN2 p.m state.partial_density r
  let n3 := PcSaft.packingFraction p.m state.partial_density r
  let n3i := DualNum.recip (-n3 + c 1.0)
  PcSaft.associationStrength p state.temperature r n2 n3i (c (1.0 : F)) a a * state.partial_density a

theorem codeDeltaRho (h : NumHom ψ φ) (p : PcSaftParameters n F) (s : StateHD n D) (a : Fin n) :
    φ (PcSaft.codeDeltaRho p s a) = PcSaft.codeDeltaRho (p.mapHom ψ) (s.mapHom φ) a := by
  unfold PcSaft.codeDeltaRho
  hom [h]
  simp only [h.associationStrength]
  hom [h]
  simp only [h.assocN2, h.packingFraction]
  hom [h]
  simp only [h.hsDiameter]
  rfl

theorem association (h : NumHom ψ φ) (p : PcSaftParameters n F) (s : StateHD n D)
    (hlt : ∀ a ∈ p.assoc_comp, F64.lt (F64.sqrt f64EPSILON) (DualNum.re (φ (PcSaft.codeDeltaRho p s a)))
      = F64.lt (F64.sqrt f64EPSILON) (DualNum.re (PcSaft.codeDeltaRho p s a)))
    (hnb : ∀ a ∈ p.assoc_comp, F64.lt 0.0 (ψ (p.nb a)) = F64.lt 0.0 (p.nb a)) :
    PcSaft.association (p.mapHom ψ) (s.mapHom φ) = (PcSaft.association p s).map φ := by
  unfold PcSaft.association
  have e : (p.mapHom ψ).assoc_comp = p.assoc_comp := rfl
  rw [e]
  generalize hl : p.assoc_comp = l at hlt hnb
  cases l with
  | nil => rfl
  | cons a l =>
    show _ = Except.ok (φ (PcSaft.assocSingle (PcSaft.codeDeltaRho p s a) (s.moles a) (p.na a) (p.nb a)))
    rw [h.assocSingle _ _ _ _ (hlt a (by simp)) (hnb a (by simp)), h.codeDeltaRho]
    rfl

end NumHom
end PcSaft
