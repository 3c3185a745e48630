import Verif.Media.Wiring
import Verif.Media.TransProps
import Verif.Math.MatrixProps

/-!
# Every medium uses its own settings (C92)

A medium is declared with coefficients and with the names of its components. The property asks that rendering a medium
uses those, whatever other media the scene has and in whatever order the media are prepared.
-/

set_option linter.unusedSectionVars false
set_option linter.unusedSimpArgs false
set_option linter.unusedVariables false

namespace Feign.Media

/-- The components hold what the medium was declared with. -/
structure Own (w : Wires) (m : Medium) : Prop where
  estimator : w.estDensity m.transEst = some m.density ∧ w.estTransFunc m.transEst = some m.transFunc
  sampling : w.sampDensity m.sampling = some m.density ∧ w.sampTransFunc m.sampling = some m.transFunc
  sigma : w.sigma m.density = m.abs + m.sca

/-- Media that share a component agree on what they store in it. -/
def Compatible (ms : List Medium) : Prop :=
  ∀ a ∈ ms, ∀ b ∈ ms,
    (a.density = b.density → a.abs + a.sca = b.abs + b.sca) ∧
    (a.transEst = b.transEst → a.density = b.density ∧ a.transFunc = b.transFunc) ∧
    (a.sampling = b.sampling → a.density = b.density ∧ a.transFunc = b.transFunc)

@[simp] theorem set_self {α : Type} (f : ℕ → α) (i : ℕ) (a : α) : set f i a i = a := if_pos rfl

theorem own_self (w : Wires) (m : Medium) : Own (preProcess w m) m :=
  ⟨⟨set_self _ _ _, set_self _ _ _⟩, ⟨set_self _ _ _, set_self _ _ _⟩, set_self _ _ _⟩

theorem own_keep (w : Wires) (m b : Medium) (hm : Own w m)
    (h1 : m.density = b.density → m.abs + m.sca = b.abs + b.sca)
    (h2 : m.transEst = b.transEst → m.density = b.density ∧ m.transFunc = b.transFunc)
    (h3 : m.sampling = b.sampling → m.density = b.density ∧ m.transFunc = b.transFunc) :
    Own (preProcess w b) m := by
  refine ⟨⟨?_, ?_⟩, ⟨?_, ?_⟩, ?_⟩ <;> unfold preProcess set <;> dsimp only
  · split
    · next h => rw [(h2 h).1]
    · exact hm.estimator.1
  · split
    · next h => rw [(h2 h).2]
    · exact hm.estimator.2
  · split
    · next h => rw [(h3 h).1]
    · exact hm.sampling.1
  · split
    · next h => rw [(h3 h).2]
    · exact hm.sampling.2
  · split
    · next h => exact (h1 h).symm
    · exact hm.sigma

theorem own_fold (all : List Medium) (hc : Compatible all) :
    ∀ (ms : List Medium), (∀ m ∈ ms, m ∈ all) → ∀ (w : Wires) (m : Medium), m ∈ all → (Own w m ∨ m ∈ ms) →
      Own (preProcessAll ms w) m := by
  intro ms
  induction ms with
  | nil =>
    intro _ w m _ h
    rcases h with h | h
    · exact h
    · cases h
  | cons b ms ih =>
    intro hall w m hm h
    refine ih (fun x hx => hall x (List.mem_cons_of_mem _ hx)) (preProcess w b) m hm ?_
    have hcb := hc m hm b (hall b (List.mem_cons_self))
    rcases h with h | h
    · exact Or.inl (own_keep w m b h hcb.1 hcb.2.1 hcb.2.2)
    · rcases List.mem_cons.1 h with h | h
      · subst h
        exact Or.inl (own_self w m)
      · exact Or.inr h

/-- **C92, exact condition.** After preparation every medium finds its own settings in its components, in every order
of the media and whatever the components held before, exactly if media that share a component agree on what they store
in it. -/
theorem own_settings_iff (ms : List Medium) :
    (∀ order : List Medium, order.Perm ms → ∀ w, ∀ m ∈ ms, Own (preProcessAll order w) m) ↔ Compatible ms := by
  constructor
  · intro h a ha b hb
    have w : Wires := ⟨fun _ => none, fun _ => none, fun _ => none, fun _ => none, fun _ => 0⟩
    have A := h ms (List.Perm.refl _) w a ha
    have B := h ms (List.Perm.refl _) w b hb
    refine ⟨fun e => ?_, fun e => ⟨?_, ?_⟩, fun e => ⟨?_, ?_⟩⟩
    · rw [← A.sigma, ← B.sigma, e]
    · have := A.estimator.1; rw [e, B.estimator.1] at this; exact (Option.some.inj this).symm
    · have := A.estimator.2; rw [e, B.estimator.2] at this; exact (Option.some.inj this).symm
    · have := A.sampling.1; rw [e, B.sampling.1] at this; exact (Option.some.inj this).symm
    · have := A.sampling.2; rw [e, B.sampling.2] at this; exact (Option.some.inj this).symm
  · intro hc order hp w m hm
    exact own_fold ms hc order (fun x hx => hp.mem_iff.1 hx) w m hm (Or.inr (hp.mem_iff.2 hm))

/-- **C92, the part that holds.** If the media that share a component agree on what they store in it, then every
medium attenuates and scatters as it would alone: with its own density function, its own coefficients, and its density
placed by its own transform (`place t` is the point of the medium's space that the transform maps to the ray's point at
distance `t`). The order of preparation plays no part. -/
theorem media_own_settings_partial (lib : Library) (ms : List Medium) (hc : Compatible ms) (order : List Medium)
    (hp : order.Perm ms) (w : Wires) (m : Medium) (hm : m ∈ ms) (hv : m.transform.Valid) (ha : m.transform.Aff)
    (world : Ray ℝ) :
    ∃ place : ℝ → V3 ℝ, (∀ t, m.transform.point (place t) = some (world.point t)) ∧
      ∀ tMin tMax us fuel,
        mediumTransmittance lib (preProcessAll order w) m world tMin tMax us fuel =
          transmittance (lib.transEst m.transEst) (fun t => (lib.density m.density).D (m.abs + m.sca) (place t))
            (m.abs + m.sca) tMin tMax us fuel ∧
        mediumSample lib (preProcessAll order w) m world tMin tMax us fuel =
          sampleMedium (lib.sampling m.sampling) (lib.transEst m.transEst)
            (fun t => (lib.density m.density).D (m.abs + m.sca) (place t)) m.abs m.sca tMin tMax us fuel := by
  classical
  have ho := (own_settings_iff ms).2 hc order hp w m hm
  obtain ⟨r, hr, _, _, hpt⟩ := Xf.ray_points m.transform.inverse ha.2 world
  have hr' : (@Xf.ray ℝ _ (fun a b => Classical.propDecidable (a = b)) m.transform.inverse world) = some r := by
    rw [← hr]
  refine ⟨r.point, fun t => ?_, fun tMin tMax us fuel => ?_⟩
  · have := (Xf.inverse_undoes m.transform.inverse ⟨hv.2, hv.1⟩).1 _ _ (hpt t)
    exact this
  · have hD : along lib (preProcessAll order w) m.density r =
        fun t => (lib.density m.density).D (m.abs + m.sca) (r.point t) := by
      funext t
      rw [along, ho.sigma]
    constructor
    · rw [mediumTransmittance, hr']
      simp only
      rw [ho.estimator.1]
      simp only
      rw [hD, ho.sigma]
    · rw [mediumSample, hr']
      simp only
      rw [ho.estimator.1, ho.sampling.1]
      simp only
      rw [hD, ho.sigma, sampleMedium]
      rfl

/-! ## Counterexamples -/

/-- Two media that name the same estimator and have the same transform attenuate alike after preparation, whatever
their densities and coefficients are: the medium prepared last decides for both. -/
theorem shared_estimator_alike (lib : Library) (w : Wires) (ms : List Medium) (a b : Medium)
    (he : a.transEst = b.transEst) (ht : a.transform = b.transform) (world : Ray ℝ) (tMin tMax : ℝ) (us : List ℝ)
    (fuel : ℕ) :
    mediumTransmittance lib (preProcessAll ms w) a world tMin tMax us fuel =
      mediumTransmittance lib (preProcessAll ms w) b world tMin tMax us fuel := by
  rw [mediumTransmittance, mediumTransmittance, he, ht]

/-- A medium as a scene file declares it: absorption 1, no scattering, the default estimator, sampler and
transmittance function (all node 0), no transform (`src/parsers/json_parser.cpp:159-167`), and a density of its own. -/
noncomputable def fileMedium (density : ℕ) : Medium := ⟨0, 0, density, 0, Xf.one, grey 1, grey 0⟩

/-- The components of that scene file: the default estimator and sampler (`src/api/api.cpp:446`, `:472`) and
constant densities 1 and 2. -/
noncomputable def fileLibrary : Library :=
  ⟨fun n => .constant (grey (n + 1)), fun _ => .analytical, fun _ => .homogenous⟩

theorem fileMedium_tr (w : Wires) (d : ℕ) (hd : w.estDensity 0 = some d) (hs : w.sigma d = grey 1) (e : ℕ)
    (world : Ray ℝ) (len : ℝ) :
    mediumTransmittance fileLibrary w (fileMedium e) world 0 len [] 0 =
      .ok (some (grey (Real.exp (-((d + 1) * len))))) := by
  classical
  obtain ⟨r, hr, _, _, _⟩ := Xf.ray_points (Xf.one : Xf ℝ).inverse M4.Affine.one world
  have hr' : (@Xf.ray ℝ _ (fun a b => Classical.propDecidable (a = b)) (Xf.one : Xf ℝ).inverse world) = some r := by
    rw [← hr]
  rw [mediumTransmittance]
  simp only [fileMedium]
  rw [hr']
  simp only
  rw [hd]
  simp only [fileLibrary, transmittance, along, hs, Density.D]
  refine congrArg (fun v => Res.ok (some v)) ?_
  ext <;> simp only [expV, grey, V3.smul_x, V3.smul_y, V3.smul_z, V3.mul_x, V3.mul_y, V3.mul_z] <;> congr 1 <;> ring

/-- **C92 refuted.** Two media of a scene file with constant densities 1 and 2, both leaving the estimator at its
default. Each alone attenuates a segment of length `len` by its own density. Together both are attenuated by the
density of the medium that was prepared last, so one of them is wrong in either order, and the image depends on the
order in which an unordered map lists the names. -/
theorem shared_estimator_refuted (w : Wires) (world : Ray ℝ) (len : ℝ) :
    let tr := fun (order : List Medium) (m : Medium) =>
      mediumTransmittance fileLibrary (preProcessAll order w) m world 0 len [] 0
    tr [fileMedium 0] (fileMedium 0) = .ok (some (grey (Real.exp (-len)))) ∧
    tr [fileMedium 1] (fileMedium 1) = .ok (some (grey (Real.exp (-(2 * len))))) ∧
    tr [fileMedium 0, fileMedium 1] (fileMedium 0) = .ok (some (grey (Real.exp (-(2 * len))))) ∧
    tr [fileMedium 0, fileMedium 1] (fileMedium 1) = .ok (some (grey (Real.exp (-(2 * len))))) ∧
    tr [fileMedium 1, fileMedium 0] (fileMedium 0) = .ok (some (grey (Real.exp (-len)))) ∧
    tr [fileMedium 1, fileMedium 0] (fileMedium 1) = .ok (some (grey (Real.exp (-len)))) ∧
    (len ≠ 0 → Real.exp (-len) ≠ Real.exp (-(2 * len))) := by
  have hsig : (grey 1 : V3 ℝ) + grey 0 = grey 1 := by ext <;> simp [grey]
  have key : ∀ (w : Wires) (m : ℕ) (e : ℕ),
      mediumTransmittance fileLibrary (preProcess w (fileMedium m)) (fileMedium e) world 0 len [] 0 =
        .ok (some (grey (Real.exp (-((m + 1) * len))))) := by
    intro w m e
    exact fileMedium_tr _ m (own_self w (fileMedium m)).estimator.1
      ((own_self w (fileMedium m)).sigma.trans hsig) e world len
  have h0 : ((0 : ℕ) : ℝ) + 1 = 1 := by norm_num
  have h1 : ((1 : ℕ) : ℝ) + 1 = 2 := by norm_num
  have k0 := fun w e => key w 0 e
  have k1 := fun w e => key w 1 e
  simp only [h0, h1, one_mul] at k0 k1
  refine ⟨k0 _ _, k1 _ _, k1 _ _, k1 _ _, k0 _ _, k0 _ _, fun h e => h ?_⟩
  have := Real.exp_injective e
  linarith

/-- **C92 refuted for coefficients.** Two media that share a density node but have different coefficients: whichever
is prepared last, the other one's estimator works with the wrong coefficient. -/
theorem shared_density_refuted (w : Wires) (a b : Medium) (hd : a.density = b.density)
    (hs : a.abs + a.sca ≠ b.abs + b.sca) :
    ¬ Own (preProcessAll [a, b] w) a ∧ ¬ Own (preProcessAll [b, a] w) b := by
  constructor
  · intro h
    have := h.sigma
    rw [hd] at this
    exact hs (this.symm.trans (set_self _ _ _))
  · intro h
    have := h.sigma
    rw [← hd] at this
    exact hs ((set_self _ _ _).symm.trans this)

/-! ## The hypotheses are met -/

/-- Two media with components of their own, different coefficients, one of them shifted, are compatible. -/
example : Compatible [⟨0, 0, 0, 0, Xf.one, grey 1, grey 2⟩, ⟨1, 1, 1, 0, Xf.one, grey 5, grey 0⟩] := by
  intro a ha b hb
  simp only [List.mem_cons, List.not_mem_nil, or_false] at ha hb
  rcases ha with rfl | rfl <;> rcases hb with rfl | rfl <;> simp

/-- Sharing is harmless when the media agree: same density, estimator and sampler, same sum of coefficients. -/
example : Compatible [⟨0, 0, 0, 0, Xf.one, grey 1, grey 2⟩, ⟨0, 0, 0, 0, Xf.one, grey 2, grey 1⟩] := by
  have h : (grey 1 : V3 ℝ) + grey 2 = grey 2 + grey 1 := by ext <;> simp [grey] <;> norm_num
  intro a ha b hb
  simp only [List.mem_cons, List.not_mem_nil, or_false] at ha hb
  rcases ha with rfl | rfl <;> rcases hb with rfl | rfl <;> simp [h]

/-- A medium moved to one side has a transform as the theorem asks for. -/
example : ∃ t : Xf ℝ, Xf.ofMatrix (M4.translate ⟨3, 0, 0⟩) = some t ∧ t.Valid ∧ t.Aff := by
  have hd : (M4.translate (⟨3, 0, 0⟩ : V3 ℝ)).det ≠ 0 := by simp [M4.det, M4.translate]
  have h : Xf.ofMatrix (M4.translate (⟨3, 0, 0⟩ : V3 ℝ)) =
      some ⟨M4.translate ⟨3, 0, 0⟩, (M4.translate ⟨3, 0, 0⟩).inverseEntries⟩ := by
    simp [Xf.ofMatrix, M4.inverse, hd]
  have hv := Xf.valid_ofMatrix _ _ h
  exact ⟨_, h, hv.2, Xf.aff_of_valid _ hv.2 ⟨rfl, rfl, rfl, rfl⟩⟩

end Feign.Media
