import Verif.Model.Interface
import Verif.Props.Transport
import Verif.Props.PairPotential
import Verif.Props.TextIO
import Verif.Props.Construction

/-!
# C73, C74, C75: diffusion coefficients of segments, the Python classes, properties of the functional
-/

namespace PcSaft.Props
open PcSaft Spec
variable {n : ℕ}

/-! ## C73 -/

/-- C73, the part that holds: diffusion coefficients are present exactly if every segment has them. Missing: the
coefficients of the segments enter the result, see `C73_counterexample`. -/
theorem C73_diffusion_partial (l : List (PcSaftRecord ℝ × ℝ)) :
    ∃ r, fromSegments l = .ok r ∧ (r.diffusion.isSome ↔ ∀ s ∈ l, s.1.diffusion.isSome) := by
  obtain ⟨r, h, -, -, -, -, h6⟩ := C05_from_segments_transport l
  exact ⟨r, h, h6⟩

/-- C73 does not hold: whatever the coefficients of the segments are, those of the molecule are zero, so that the
diffusion correlation predicts the reference value at every state. -/
theorem C73_counterexample (l : List (PcSaftRecord ℝ × ℝ)) (hl : ∀ s ∈ l, s.1.diffusion.isSome) :
    ∃ r, fromSegments l = .ok r ∧ r.diffusion = some (fun _ => 0)
      ∧ ∀ (id : Identifier) (mw s : ℝ),
        diffusionCorrelation (fromRecords (fun _ : Fin 1 => ⟨id, mw, r, none⟩) (fun _ _ => 0)) s (fun _ => 1)
          = .ok (.ok 0) := by
  have h0 : (0.0 : ℝ) = 0 := by norm_num
  have hd : (segResult l).diffusion = some (fun _ => 0) := by
    have : l.all (fun s => s.1.diffusion.isSome) = true := List.all_eq_true.2 hl
    simp only [segResult, segDiffusion, this, if_true, h0]
    congr 1
    funext i
    fin_cases i <;> rfl
  refine ⟨segResult l, fromSegments_eq l, hd, fun id mw s => ?_⟩
  have hp : (fromRecords (fun _ : Fin 1 => (⟨id, mw, segResult l, none⟩ : PureRecord ℝ)) (fun _ _ => 0)).diffusion
      = some (fun _ _ => 0) := by
    change Option.map _ (collectOption fun _ : Fin 1 => (segResult l).diffusion) = _
    simp [hd, collectOption]
  unfold diffusionCorrelation
  rw [hp]
  simp

/-- C73 on one segment with coefficients different from zero -/
example : ∃ r, fromSegments [(({ plainRecord 1 3 200 with diffusion := some ![1, 2, 3, 4, 5] } : PcSaftRecord ℝ), 1)]
    = .ok r ∧ r.diffusion = some (fun _ => 0) := by
  obtain ⟨r, h1, h2, -⟩ := C73_counterexample
    [(({ plainRecord 1 3 200 with diffusion := some ![1, 2, 3, 4, 5] } : PcSaftRecord ℝ), 1)] (by simp)
  exact ⟨r, h1, h2⟩

/-! ## C74 -/

section
variable {F : Type}

/-- C74: every getter of a Python record returns the argument of the same name. -/
theorem C74_record_getters (m sigma epsilon_k : F) (mu q kappa_ab epsilon_k_ab na nb : Option F)
    (viscosity : Option (Fin 4 → F)) (diffusion : Option (Fin 5 → F)) (thermal_conductivity : Option (Fin 4 → F)) :
    let r := PyPcSaftRecord.new m sigma epsilon_k mu q kappa_ab epsilon_k_ab na nb viscosity diffusion
      thermal_conductivity
    r.get_m = m ∧ r.get_sigma = sigma ∧ r.get_epsilon_k = epsilon_k ∧ r.get_mu = mu ∧ r.get_q = q
    ∧ r.get_kappa_ab = kappa_ab ∧ r.get_epsilon_k_ab = epsilon_k_ab ∧ r.get_na = na ∧ r.get_nb = nb
    ∧ r.get_viscosity = viscosity ∧ r.get_diffusion = diffusion
    ∧ r.get_thermal_conductivity = thermal_conductivity :=
  ⟨rfl, rfl, rfl, rfl, rfl, rfl, rfl, rfl, rfl, rfl, rfl, rfl⟩

/-- C74: a Python record rebuilt from its getters is the same record, in particular one read from a file. -/
theorem C74_record_roundtrip (r : PyPcSaftRecord F) :
    PyPcSaftRecord.new r.get_m r.get_sigma r.get_epsilon_k r.get_mu r.get_q r.get_kappa_ab r.get_epsilon_k_ab
      r.get_na r.get_nb r.get_viscosity r.get_diffusion r.get_thermal_conductivity = r := rfl

variable [F64 F]

/-- C74: parameters rebuilt from the records and the binary matrix that Python shows are the same parameters,
also after taking a subset. -/
theorem C74_parameters_roundtrip (pr : Fin n → PureRecord F) (k : Fin n → Fin n → F) {n' : ℕ} (sel : Fin n' → Fin n) :
    fromRecords (fromRecords pr k).getPureRecords (fromRecords pr k).getKij = fromRecords pr k
    ∧ ((fromRecords pr k).subset sel).getPureRecords = (fun i => pr (sel i))
    ∧ ((fromRecords pr k).subset sel).getKij = (fun i j => k (sel i) (sel j))
    ∧ fromRecords ((fromRecords pr k).subset sel).getPureRecords ((fromRecords pr k).subset sel).getKij
      = (fromRecords pr k).subset sel :=
  ⟨rfl, rfl, rfl, rfl⟩

/-- C74: without optional arguments the Python constructors build what the Rust constructors build. -/
theorem C74_defaults (p : PcSaftParameters n F) :
    pyEosNew p none none none none = .ok (Eos.new p)
    ∧ pyFunctionalNew p none none none none none = .ok (Functional.new p)
    ∧ ∀ v, pyFunctionalNew p (some v) none none none none = .ok (Functional.newFull p v) :=
  ⟨rfl, rfl, fun _ => rfl⟩

/-- C74: given arguments reach the options under their name, missing ones have the documented default, and an
unknown variant is refused. -/
theorem C74_options (p : PcSaftParameters n F) (fv : Option FMTVersion) (eta : Option F) (it : Option ℕ)
    (tol : Option F) (v : Option String) :
    (v ∈ [none, some "dq35", some "dq44"] →
      ∃ e f, pyEosNew p eta it tol v = .ok e ∧ pyFunctionalNew p fv eta it tol v = .ok f
        ∧ e = Eos.withOptions p e.options ∧ f = Functional.withOptions p f.fmt_version e.options
        ∧ (e.options.dq_variant = .DQ44 ↔ v = some "dq44")
        ∧ e.options.max_eta = eta.getD 0.5 ∧ e.options.max_iter_cross_assoc = it.getD 50
        ∧ e.options.tol_cross_assoc = tol.getD 1e-10 ∧ f.fmt_version = fv.getD .WhiteBear)
    ∧ (v ∉ [none, some "dq35", some "dq44"] →
      (∃ e, pyEosNew p eta it tol v = .error e) ∧ ∃ e, pyFunctionalNew p fv eta it tol v = .error e) := by
  constructor
  · intro hv
    simp only [List.mem_cons, List.not_mem_nil, or_false] at hv
    rcases hv with rfl | rfl | rfl
    · exact ⟨_, _, rfl, rfl, rfl, rfl, by simp [Eos.withOptions], rfl, rfl, rfl, rfl⟩
    · exact ⟨_, _, rfl, rfl, rfl, rfl, by simp [Eos.withOptions], rfl, rfl, rfl, rfl⟩
    · exact ⟨_, _, rfl, rfl, rfl, rfl, by simp [Eos.withOptions], rfl, rfl, rfl, rfl⟩
  · intro hv
    obtain _ | s := v
    · simp at hv
    · have hs : s ≠ "dq35" ∧ s ≠ "dq44" := by simpa using hv
      obtain ⟨e, he⟩ := (C51_parser s).2.2.2 hs
      unfold pyEosNew pyFunctionalNew
      simp only [Option.getD_some, he]
      exact ⟨⟨e, rfl⟩, e, rfl⟩

end

/-- C74 on a call with two arguments -/
example : ∃ e, pyEosNew (fromRecords sampleRecords (fun _ _ => 0)) (some 0.4) none none (some "dq44") = .ok e
    ∧ e.options.max_eta = 0.4 ∧ e.options.dq_variant = .DQ44 ∧ e.options.max_iter_cross_assoc = 50 := by
  obtain ⟨e, f, h1, -, -, -, h2, h3, h4, -⟩ := (C74_options (fromRecords sampleRecords (fun _ _ => (0 : ℝ))) none
    (some 0.4) none none (some "dq44")).1 (by simp)
  exact ⟨e, h1, h3, h2.2 rfl, h4⟩

/-! ## C75 -/

/-- C75: molar weights are reported in SI units: the number in the record in grams per mole; equation of state
and functional agree, also for subsets. -/
theorem C75_molar_weight (pr : Fin n → PureRecord ℝ) (k : Fin n → Fin n → ℝ) (v : FMTVersion) (o : PcSaftOptions ℝ)
    {n' : ℕ} (sel : Fin n' → Fin n) (i : Fin n) (j : Fin n') :
    let p := fromRecords pr k
    let f := Functional.withOptions p v o
    molarWeight p i = ⟨(pr i).molarweight / 1000, { kg := 1, mol := -1 }⟩
    ∧ f.molarWeight i = molarWeight p i
    ∧ (f.subset sel).molarWeight j = f.molarWeight (sel j)
    ∧ molarWeight ((Eos.withOptions p o).subset sel).parameters j = molarWeight p (sel j) := by
  refine ⟨?_, rfl, rfl, rfl⟩
  change SINumber.div (SINumber.smul (pr i).molarweight GRAM) MOL = _
  simp only [SINumber.div, SINumber.smul, GRAM, MOL, Dim.div]
  congr 1
  norm_num
  ring

/-- C75: the properties that `feos_dft` asks for are those of the records, component by component: chain length
and molecule shape are the segment number, the diameter is that of the equation of state and the
energy and length of the fluid-fluid interaction are the depth and the zero of the pair potential. -/
theorem C75_fluid_properties (pr : Fin n → PureRecord ℝ) (k : Fin n → Fin n → ℝ) (v : FMTVersion) (o : PcSaftOptions ℝ)
    (i : Fin n) (hs : 0 < (pr i).model_record.sigma) (he : 0 < (pr i).model_record.epsilon_k) :
    let p := fromRecords pr k
    let f := Functional.withOptions p v o
    p.componentIndex i = i ∧ p.chainLength i = (pr i).model_record.m ∧ f.moleculeShape i = (pr i).model_record.m
    ∧ (∀ T : ℝ, p.fmtDiameter T i
        = Spec.diameter (pr i).model_record.sigma (pr i).model_record.epsilon_k T)
    ∧ (∀ r, 0 < r → (pairPotential p i r = 0 ↔ r = f.sigmaFf i))
    ∧ IsLeast (pairPotential p i '' Set.Ioi 0) (-f.epsilonKFf i) := by
  intro p f
  obtain ⟨h1, h2, h3, h4, h5, h6, -⟩ := C44_pair_potential p i hs he
  refine ⟨rfl, rfl, rfl, fun T => ?_, fun r hr => ⟨fun h0 => ?_, fun h => ?_⟩, ?_⟩
  · refine (hsDiameter_real p T i).trans ?_
    rw [Spec.diameter, show (0.12 : ℝ) = 3 / 25 by norm_num]
    rfl
  · rcases lt_trichotomy r (p.sigma i) with hlt | heq | hgt
    · exact absurd h0 (h2 r hr hlt).ne'
    · exact heq
    · exact absurd h0 (h3 r hgt).ne
  · rw [h]
    exact h1
  · refine ⟨⟨minimumDistance (p.sigma i), (lt_trans hs h4 : (0 : ℝ) < _), h5⟩, ?_⟩
    rintro _ ⟨r, hr, rfl⟩
    exact (h6 r hr).1

end PcSaft.Props
