import Verif.Turned.LightLemmas
import Verif.Integrators.Carried

/-!
# Turned scenes: lemmas about averages of paths
-/

set_option linter.unusedSectionVars false
set_option linter.unusedSimpArgs false

namespace Feign.Integrators
open Sampling Lights Bsdf MeasureTheory Warp
open scoped ENNReal
variable {Q : Frame} {S S' : Room}

/-- A direction whose tangential part is a multiple of that of `wi` does not depend on the tangents. -/
theorem toWorld_tangent (f : Frame) (w : V3 ℝ) (k z : ℝ) :
    f.toWorld ⟨-w.x * k, -w.y * k, z⟩ = (f.toWorld w).smul (-k) + f.n.smul (z + k * w.z) := by
  ext <;> simp only [Frame.toWorld, V3.add_x, V3.add_y, V3.add_z, V3.smul_x, V3.smul_y, V3.smul_z] <;> ring

theorem onward_tangent (hQ : Q.Orthonormal) (h : TurnedRoom Q S S') (ho : ∀ r, (S.frame r).Orthonormal)
    (ho' : ∀ r, (S'.frame r).Orthonormal) (r : Ray) (k z : ℝ) :
    (S'.frame (turnedRay Q r)).toWorld ⟨-(S'.wi (turnedRay Q r)).x * k, -(S'.wi (turnedRay Q r)).y * k, z⟩ =
      Q.toWorld ((S.frame r).toWorld ⟨-(S.wi r).x * k, -(S.wi r).y * k, z⟩) := by
  rw [toWorld_tangent, toWorld_tangent, turn_add, turn_smul, turn_smul, turned_front hQ h]
  have e1 : (S.frame r).toWorld (S.wi r) = -r.2 := Frame.toWorld_toLocal _ (ho r) _
  have e2 : (S'.frame (turnedRay Q r)).toWorld (S'.wi (turnedRay Q r)) = -(Q.toWorld r.2) := Frame.toWorld_toLocal _ (ho' _) _
  rw [e1, e2, turn_neg, h.normal]

theorem wi_sqrNorm (ho : ∀ r, (S.frame r).Orthonormal) (r : Ray) : (S.wi r).sqrNorm = (-r.2).sqrNorm := by
  rw [← Warp.toWorld_sqrNorm _ (ho r)]
  show ((S.frame r).toWorld ((S.frame r).toLocal (-r.2))).sqrNorm = _
  rw [Frame.toWorld_toLocal _ (ho r)]

theorem wi_tangent_sqr (hQ : Q.Orthonormal) (h : TurnedRoom Q S S') (ho : ∀ r, (S.frame r).Orthonormal)
    (ho' : ∀ r, (S'.frame r).Orthonormal) (r : Ray) :
    (S'.wi (turnedRay Q r)).x * (S'.wi (turnedRay Q r)).x + (S'.wi (turnedRay Q r)).y * (S'.wi (turnedRay Q r)).y =
      (S.wi r).x * (S.wi r).x + (S.wi r).y * (S.wi r).y := by
  have e1 := wi_sqrNorm ho r
  have e2 := wi_sqrNorm ho' (turnedRay Q r)
  have e3 : (-(turnedRay Q r).2).sqrNorm = (-r.2).sqrNorm := by
    show (-(Q.toWorld r.2)).sqrNorm = _
    rw [← turn_neg, turn_sqrNorm hQ]
  have e4 := turned_front hQ h r
  rw [e3, ← e1] at e2
  simp only [V3.sqrNorm, e4] at e2
  linarith

/-- A sample whose direction is made of the normal and the tangential part of the incoming direction is carried on
alike. -/
theorem onward_turned (hQ : Q.Orthonormal) (h : TurnedRoom Q S S') (ho : ∀ r, (S.frame r).Orthonormal)
    (ho' : ∀ r, (S'.frame r).Orthonormal) (r : Ray) (k z : ℝ) (a : V3 ℝ) (p e : ℝ) :
    S'.onward (turnedRay Q r) ⟨⟨-(S'.wi (turnedRay Q r)).x * k, -(S'.wi (turnedRay Q r)).y * k, z⟩, a, p, e⟩ =
      (a, p, (S.onward r ⟨⟨-(S.wi r).x * k, -(S.wi r).y * k, z⟩, a, p, e⟩).cos,
        turnedRay Q (S.onward r ⟨⟨-(S.wi r).x * k, -(S.wi r).y * k, z⟩, a, p, e⟩).ray) := by
  unfold Room.onward
  rw [h.point]
  dsimp only [Bounce.cos, Bounce.ray]
  rw [normal_toWorld (ho' _), normal_toWorld (ho _), onward_tangent hQ h ho ho']
  rfl

/-- What glass does, written with the tangential part of the incoming direction. -/
theorem dielectric_tangent (eps int ext : ℝ) (albedo wi : V3 ℝ) (u : ℝ) : ∃ k z e : ℝ, ∀ x y : ℝ,
    x * x + y * y = wi.x * wi.x + wi.y * wi.y →
    dielectricSample eps int ext albedo ⟨x, y, wi.z⟩ u = ⟨⟨-x * k, -y * k, z⟩, albedo, 1, e⟩ := by
  by_cases hb : below u (fresnel wi.z ext int)
  · refine ⟨1, wi.z, 1, fun x y _ => ?_⟩
    unfold dielectricSample
    dsimp only
    rw [if_pos hb, mul_one, mul_one]
  · have hs : ∀ η x y : ℝ, x * x + y * y = wi.x * wi.x + wi.y * wi.y →
        ((⟨-x, -y, 0⟩ : V3 ℝ).smul η).sqrNorm = η * η * (wi.x * wi.x + wi.y * wi.y) := by
      intro η x y hxy
      simp only [V3.sqrNorm, V3.smul_x, V3.smul_y, V3.smul_z]
      rw [← hxy]
      ring
    let η := if wi.z < 0 then int / ext else ext / int
    let q := SQRT eps (1 - η * η * (wi.x * wi.x + wi.y * wi.y))
    by_cases hz : wi.z < -eps
    · refine ⟨η, q, η, fun x y hxy => ?_⟩
      unfold dielectricSample
      dsimp only
      rw [if_neg hb, hs _ _ _ hxy, if_pos hz]
      congr 1
      ext <;> simp [η, q]
    · refine ⟨η, -q, η, fun x y hxy => ?_⟩
      unfold dielectricSample
      dsimp only
      rw [if_neg hb, hs _ _ _ hxy, if_neg hz]
      congr 1
      ext <;> simp [η, q]

/-- An average over the directions of a diffuse surface, as an integral over solid angle in which the tangents do not
occur. -/
theorem diffuse_average (S : Room) (h : S.Lawful) (r : Ray) (hm : S.material r = .diffuse) (hf : ¬ (S.wi r).z ≤ 0)
    (H : V3 ℝ → ℝ → ℝ → Ray → ℝ≥0∞) (hH : ∀ a, Measurable fun q : ℝ × ℝ × Ray => H a q.1 q.2.1 q.2.2) :
    ∫⁻ ω, H (S.scatter r ω).1.albedo (S.scatter r ω).1.pdf (S.scatter r ω).1.cos (S.scatter r ω).1.ray ∂uniform =
      ∫⁻ v, ENNReal.ofReal (cosHemiPdf ⟨0, 0, (S.frame r).n.dot v⟩) *
        H ((S.albedo r).smul (1 / Real.pi)) (1 / Real.pi * (S.frame r).n.dot v) ((S.frame r).n.dot v) (S.point r, v) ∂solidAngle := by
  have ho := h.frame r
  have mw := measurable_toWorld (S.frame r)
  have e : ∀ ω, S.scatter r ω = (S.onward r (lobe (S.albedo r) (next2 ω).1), (next2 ω).2) := by
    intro ω
    rw [scatter_eq, if_neg (by simp [hm]), if_neg hf, if_neg (by simp [hm])]
  let g : V3 ℝ → ℝ≥0∞ := fun w => H ((S.albedo r).smul (1 / Real.pi)) (1 / Real.pi * w.z) w.z (S.point r, (S.frame r).toWorld w)
  have mg : Measurable g :=
    (hH _).comp ((measurable_z.const_mul _).prodMk (measurable_z.prodMk (measurable_const.prodMk mw)))
  have hg : ∀ q : ℝ × ℝ, H (S.onward r (lobe (S.albedo r) q)).albedo (S.onward r (lobe (S.albedo r) q)).pdf
      (S.onward r (lobe (S.albedo r) q)).cos (S.onward r (lobe (S.albedo r) q)).ray = g (cosHemi ⟨q.1, q.2⟩) := by
    intro q
    show H ((S.albedo r).smul (1 / Real.pi)) (1 / Real.pi * (cosHemi ⟨q.1, q.2⟩).z)
      ((S.frame r).n.dot ((S.frame r).toWorld (cosHemi ⟨q.1, q.2⟩))) (S.point r, (S.frame r).toWorld (cosHemi ⟨q.1, q.2⟩)) = _
    rw [normal_toWorld ho]
  simp only [e, hg]
  rw [lintegral_next2 (fun p => g (cosHemi ⟨p.1.1, p.1.2⟩)) (mg.comp (measurable_cosHemi.comp measurable_fst))]
  simp only [lintegral_const, measure_univ, mul_one]
  have e2 : ∫⁻ q : ℝ × ℝ, g (cosHemi ⟨q.1, q.2⟩) ∂square = ∫⁻ w, g w ∂(Measure.map (fun q : ℝ × ℝ => cosHemi ⟨q.1, q.2⟩) square) := by
    rw [lintegral_map mg measurable_cosHemi]
  rw [e2, cosHemi_law, lintegral_withDensity_eq_lintegral_mul _ measurable_cosHemiPdf.ennreal_ofReal mg]
  have md : Measurable fun v : V3 ℝ => (S.frame r).n.dot v := measurable_dot measurable_const measurable_id
  have mv : Measurable fun v : V3 ℝ => ENNReal.ofReal (cosHemiPdf ⟨0, 0, (S.frame r).n.dot v⟩) *
      H ((S.albedo r).smul (1 / Real.pi)) (1 / Real.pi * (S.frame r).n.dot v) ((S.frame r).n.dot v) (S.point r, v) := by
    refine Measurable.mul ?_ ((hH _).comp ((md.const_mul _).prodMk (md.prodMk (measurable_const.prodMk measurable_id))))
    exact (measurable_cosHemiPdf.comp (measurable_of (f := fun v : V3 ℝ => (⟨0, 0, (S.frame r).n.dot v⟩ : V3 ℝ)) measurable_const measurable_const md)).ennreal_ofReal
  conv_rhs => rw [← solidAngle_toWorld (S.frame r) ho]
  rw [lintegral_map mv mw]
  refine lintegral_congr fun w => ?_
  simp only [Pi.mul_apply, normal_toWorld ho]
  rfl

/-- Averages over the sampled directions agree. -/
theorem scatter_average (hQ : Q.Orthonormal) (h : TurnedRoom Q S S') (hS : S.Lawful) (hS' : S'.Lawful) (r : Ray)
    (H H' : V3 ℝ → ℝ → ℝ → Ray → ℝ≥0∞) (hH : ∀ a, Measurable fun q : ℝ × ℝ × Ray => H a q.1 q.2.1 q.2.2)
    (hH' : ∀ a, Measurable fun q : ℝ × ℝ × Ray => H' a q.1 q.2.1 q.2.2)
    (heq : ∀ a p c r, NonNeg a → 0 ≤ p → H' a p c (turnedRay Q r) = H a p c r) :
    ∫⁻ ω, H' (S'.scatter (turnedRay Q r) ω).1.albedo (S'.scatter (turnedRay Q r) ω).1.pdf
        (S'.scatter (turnedRay Q r) ω).1.cos (S'.scatter (turnedRay Q r) ω).1.ray ∂uniform =
      ∫⁻ ω, H (S.scatter r ω).1.albedo (S.scatter r ω).1.pdf (S.scatter r ω).1.cos (S.scatter r ω).1.ray ∂uniform := by
  have hz := turned_front hQ h r
  have ht := wi_tangent_sqr hQ h hS.frame hS'.frame r
  have ha := hS.albedo_nonneg r
  have black : ∀ {a a' : Bounce Ray}, a = Room.black r → a' = Room.black (turnedRay Q r) →
      H' a'.albedo a'.pdf a'.cos a'.ray = H a.albedo a.pdf a.cos a.ray := by
    rintro _ _ rfl rfl
    exact heq _ _ _ _ NonNeg.zero le_rfl
  cases hm : S.material r with
  | diffuse =>
    have hm' : S'.material (turnedRay Q r) = .diffuse := by rw [h.material, hm]
    by_cases hf : (S.wi r).z ≤ 0
    · refine lintegral_congr fun ω => black ?_ ?_
      · rw [scatter_eq, if_neg (by simp [hm]), if_pos hf]
      · rw [scatter_eq, if_neg (by simp [hm']), if_pos (by rwa [hz])]
    · rw [diffuse_average S hS r hm hf H hH, diffuse_average S' hS' (turnedRay Q r) hm' (by rwa [hz]) H' hH', h.albedo, h.point,
        h.normal]
      have mw := measurable_toWorld Q
      have md : Measurable fun v : V3 ℝ => (Q.toWorld (S.frame r).n).dot v := measurable_dot measurable_const measurable_id
      have mv : Measurable fun v : V3 ℝ => ENNReal.ofReal (cosHemiPdf ⟨0, 0, (Q.toWorld (S.frame r).n).dot v⟩) *
          H' ((S.albedo r).smul (1 / Real.pi)) (1 / Real.pi * (Q.toWorld (S.frame r).n).dot v) ((Q.toWorld (S.frame r).n).dot v)
            (Q.toWorld (S.point r), v) := by
        refine Measurable.mul ?_ ((hH' _).comp ((md.const_mul _).prodMk (md.prodMk (measurable_const.prodMk measurable_id))))
        exact (measurable_cosHemiPdf.comp (measurable_of (f := fun v : V3 ℝ => (⟨0, 0, (Q.toWorld (S.frame r).n).dot v⟩ : V3 ℝ)) measurable_const measurable_const md)).ennreal_ofReal
      conv_lhs => rw [← solidAngle_toWorld Q hQ]
      rw [lintegral_map mv mw]
      refine lintegral_congr fun w => ?_
      rw [turn_dot hQ]
      by_cases hw : 0 < (S.frame r).n.dot w
      · have e := heq ((S.albedo r).smul (1 / Real.pi)) (1 / Real.pi * (S.frame r).n.dot w) ((S.frame r).n.dot w) (S.point r, w)
          (ha.smul (by positivity)) (by positivity)
        rw [← e]
        rfl
      · simp [cosHemiPdf, hw]
  | mirror =>
    have hm' : S'.material (turnedRay Q r) = .mirror := by rw [h.material, hm]
    by_cases hf : (S.wi r).z ≤ 0
    · refine lintegral_congr fun ω => black ?_ ?_
      · rw [scatter_eq, if_neg (by simp [hm]), if_pos hf]
      · rw [scatter_eq, if_neg (by simp [hm']), if_pos (by rwa [hz])]
    · refine lintegral_congr fun ω => ?_
      have s1 : S.scatter r ω = (S.onward r (mirrored (S.albedo r) (S.wi r)), ω) := by
        rw [scatter_eq, if_neg (by simp [hm]), if_neg hf, if_pos hm]
      have s2 : S'.scatter (turnedRay Q r) ω =
          (S'.onward (turnedRay Q r) (mirrored (S'.albedo (turnedRay Q r)) (S'.wi (turnedRay Q r))), ω) := by
        rw [scatter_eq, if_neg (by simp [hm']), if_neg (by rwa [hz]), if_pos hm']
      rw [s1, s2, h.albedo]
      have e := onward_turned hQ h hS.frame hS'.frame r 1 (S.wi r).z (S.albedo r) 1 1
      have e1 : ∀ (a w : V3 ℝ), mirrored a w = ⟨⟨-w.x * 1, -w.y * 1, w.z⟩, a, 1, 1⟩ := by
        intro a w
        simp [mirrored]
      rw [e1, e1, hz, e]
      exact heq _ _ _ _ ha zero_le_one
  | glass =>
    have hm' : S'.material (turnedRay Q r) = .glass := by rw [h.material, hm]
    refine lintegral_congr fun ω => ?_
    rw [scatter_eq, scatter_eq, if_pos hm, if_pos hm', h.albedo, h.eps, h.intIor, h.extIor]
    obtain ⟨k, z, e, hk⟩ := dielectric_tangent S.eps (S.intIor r) (S.extIor r) (S.albedo r) (S.wi r) (next ω).1
    have h1 := hk (S.wi r).x (S.wi r).y rfl
    have h2 := hk (S'.wi (turnedRay Q r)).x (S'.wi (turnedRay Q r)).y ht
    have e2 : S'.wi (turnedRay Q r) = ⟨(S'.wi (turnedRay Q r)).x, (S'.wi (turnedRay Q r)).y, (S.wi r).z⟩ := by
      rw [← hz]
    rw [show S.wi r = ⟨(S.wi r).x, (S.wi r).y, (S.wi r).z⟩ from rfl, h1, e2, h2]
    rw [onward_turned hQ h hS.frame hS'.frame]
    exact heq _ _ _ _ ha zero_le_one

end Feign.Integrators

namespace Feign.Integrators
open Sampling Lights Bsdf MeasureTheory Warp
open scoped ENNReal
variable {Q : Frame} {S S' : Room}

theorem measurable_mean {R : Type} [MeasurableSpace R] (W : World R) (h : W.Lawful) (i : Fin 3) (n : ℕ) (look : Bool) :
    Measurable fun q : V3 ℝ × R => W.mean i n q.1 look q.2 := by
  unfold World.mean
  refine Measurable.lintegral_prod_right' (f := fun p : (V3 ℝ × R) × Stream =>
    ENNReal.ofReal ((W.gather n p.1.1 look p.1.2 p.2).get i)) ?_
  exact (measurable_channel W h i n).comp ((measurable_fst.comp measurable_fst).prodMk
    (measurable_const.prodMk ((measurable_snd.comp measurable_fst).prodMk measurable_snd)))

/-- The mean of the loop is the same along the turned ray. -/
theorem mean_turned (hQ : Q.Orthonormal) (h : TurnedRoom Q S S') (hS : S.Lawful) (hS' : S'.Lawful)
    (hl : ∀ i r, S'.world.direct i (turnedRay Q r) = S.world.direct i r) (i : Fin 3) (n : ℕ) : ∀ β look r, NonNeg β →
    S'.world.mean i n β look (turnedRay Q r) = S.world.mean i n β look r := by
  induction n with
  | zero => intro β look r _; simp [World.mean, World.gather]
  | succ n ih =>
    intro β look r hβ
    by_cases hz : isZero β = true
    · rw [mean_zero _ _ _ _ _ _ hz, mean_zero _ _ _ _ _ _ hz]
    · have hz' : isZero β = false := by simpa using hz
      have hd : S'.world.delta (turnedRay Q r) = S.world.delta r := by
        show (S'.material _).isDelta = (S.material r).isDelta
        rw [h.material]
      by_cases he : S.world.escapes r = true
      · have he' : S'.world.escapes (turnedRay Q r) = true := by
          show (!S'.seen _) = true
          rw [h.seen]; exact he
        rw [mean_escape _ _ _ _ _ _ hβ hz' he, mean_escape _ _ _ _ _ _ hβ hz' he']
        show _ * ENNReal.ofReal ((S'.env _).get i) = _ * ENNReal.ofReal ((S.env r).get i)
        rw [h.env]
      · have he0 : S.world.escapes r = false := by simpa using he
        have he' : S'.world.escapes (turnedRay Q r) = false := by
          show (!S'.seen _) = false
          rw [h.seen]; exact he0
        rw [mean_surface _ (room_lawful S hS) _ _ _ _ _ hβ hz' he0, mean_surface _ (room_lawful S' hS') _ _ _ _ _ hβ hz' he', hl, hd]
        have e1 : S'.world.emitted (turnedRay Q r) = S.world.emitted r := h.emitted r
        rw [e1]
        congr 2
        let H : World Ray → V3 ℝ → ℝ → ℝ → Ray → ℝ≥0∞ := fun W a p c y =>
          if p = 0 then 0 else W.mean i n (step (S.world.delta r) β ((a, p, c, y) : Bounce Ray)) (S.world.delta r) y
        have hH : ∀ (W : World Ray), W.Lawful → ∀ a, Measurable fun q : ℝ × ℝ × Ray => H W a q.1 q.2.1 q.2.2 := by
          intro W hW a
          refine Measurable.ite (measurable_fst (measurableSet_singleton 0)) measurable_const ?_
          refine (measurable_mean W hW i n _).comp (Measurable.prodMk ?_ (measurable_snd.comp measurable_snd))
          exact measurable_step measurable_const measurable_const (measurable_const.prodMk measurable_id)
        exact scatter_average hQ h hS hS' r (H S.world) (H S'.world) (hH _ (room_lawful S hS)) (hH _ (room_lawful S' hS'))
          (fun a p c y ha hp => by
            show (if p = 0 then 0 else _) = (if p = 0 then 0 else _)
            by_cases hp0 : p = 0
            · rw [if_pos hp0, if_pos hp0]
            · rw [if_neg hp0, if_neg hp0]
              exact ih _ _ _ (NonNeg.step hβ hz' ha hp))

/-- The light carried back along the turned ray is the same. -/
theorem carried_turned (hQ : Q.Orthonormal) (h : TurnedRoom Q S S') (hS : S.Lawful) (hS' : S'.Lawful)
    (hl : ∀ i r, S'.world.direct i (turnedRay Q r) = S.world.direct i r) (i : Fin 3) (n : ℕ) : ∀ look r,
    S'.world.carried i n look (turnedRay Q r) = S.world.carried i n look r := by
  induction n with
  | zero => intro look r; rfl
  | succ n ih =>
    intro look r
    have hd : S'.world.delta (turnedRay Q r) = S.world.delta r := by
      show (S'.material _).isDelta = (S.material r).isDelta
      rw [h.material]
    have he : S'.world.escapes (turnedRay Q r) = S.world.escapes r := by
      show (!S'.seen _) = !S.seen r
      rw [h.seen]
    have e1 : S'.world.emitted (turnedRay Q r) = S.world.emitted r := h.emitted r
    have e2 : S'.world.env (turnedRay Q r) = S.world.env r := h.env r
    rw [World.carried, World.carried, he, e1, e2, hl, hd]
    congr 2
    let H : World Ray → V3 ℝ → ℝ → ℝ → Ray → ℝ≥0∞ := fun W a p c y =>
      ENNReal.ofReal (factor (S.world.delta r) i ((a, p, c, y) : Bounce Ray)) * W.carried i n (S.world.delta r) y
    have hH : ∀ (W : World Ray), W.Lawful → ∀ a, Measurable fun q : ℝ × ℝ × Ray => H W a q.1 q.2.1 q.2.2 := by
      intro W hW a
      exact ((measurable_factor i measurable_const (measurable_const.prodMk measurable_id)).ennreal_ofReal).mul
        ((measurable_carried W hW i n).comp (measurable_const.prodMk (measurable_snd.comp measurable_snd)))
    exact scatter_average hQ h hS hS' r (H S.world) (H S'.world) (hH _ (room_lawful S hS)) (hH _ (room_lawful S' hS'))
      (fun a p c y ha hp => by
        show ENNReal.ofReal (factor _ i ((a, p, c, turnedRay Q y) : Bounce Ray)) * _ = ENNReal.ofReal (factor _ i ((a, p, c, y) : Bounce Ray)) * _
        rw [ih]
        rfl)

/-- The scene with turned lamps. -/
theorem TurnedRoom.lit (h : TurnedRoom Q S S') (lamps : List Lamp) (blocked blocked' : Blocked) :
    TurnedRoom Q (S.lit lamps blocked) (S'.lit (lamps.map (turnedLamp Q)) blocked') :=
  ⟨h.eps, h.seen, h.env, h.point, h.normal, h.material, h.albedo, h.intIor, h.extIor, h.emitted⟩

theorem direct_turned (hQ : Q.Rotation) (h : TurnedRoom Q S S') (ho : ∀ r, (S.frame r).Orthonormal) (lamps : List Lamp)
    {blocked blocked' : Blocked} (hb : ∀ p d L, blocked' (Q.toWorld p) (Q.toWorld d) L = blocked p d L) (i : Fin 3) (r : Ray) :
    (S'.lit (lamps.map (turnedLamp Q)) blocked').world.direct i (turnedRay Q r) = (S.lit lamps blocked).world.direct i r := by
  have hd : (S'.lit (lamps.map (turnedLamp Q)) blocked').world.delta (turnedRay Q r) = (S.lit lamps blocked).world.delta r := by
    show (S'.material _).isDelta = (S.material r).isDelta
    rw [h.material]
  unfold World.direct
  rw [hd]
  congr 1
  refine lintegral_congr fun ω => ?_
  show ENNReal.ofReal ((total (lampLight S' _ blocked' (turnedRay Q r) ω).1).get i) = ENNReal.ofReal ((total (lampLight S _ blocked r ω).1).get i)
  rw [lampLight_turned hQ h ho lamps hb]

end Feign.Integrators
