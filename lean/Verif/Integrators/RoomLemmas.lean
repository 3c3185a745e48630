import Verif.Integrators.Room
import Verif.Integrators.WalkProps
import Verif.Bsdf.BounceProps

/-! # Scenes of diffuse, mirror and glass surfaces: lemmas -/

set_option linter.unusedSectionVars false

namespace Feign.Integrators

open Sampling MeasureTheory Warp Bsdf
open scoped ENNReal

/-- Everything in the scene depends measurably on the ray, nothing is negative, the light samples leave the sampler in
order, and the shading frames are orthonormal. -/
structure Room.Lawful (S : Room) : Prop where
  seen : Measurable S.seen
  env : Measurable S.env
  env_nonneg : ∀ r, NonNeg (S.env r)
  point : Measurable S.point
  frame_s : Measurable fun r => (S.frame r).s
  frame_t : Measurable fun r => (S.frame r).t
  frame_n : Measurable fun r => (S.frame r).n
  frame : ∀ r, (S.frame r).Orthonormal
  material : Measurable S.material
  albedo : Measurable S.albedo
  albedo_nonneg : ∀ r, NonNeg (S.albedo r)
  intIor : Measurable S.intIor
  extIor : Measurable S.extIor
  emitted : Measurable S.emitted
  emitted_nonneg : ∀ r, NonNeg (S.emitted r)
  lights : Measurable fun p : Ray × Stream => (total (S.lights p.1 p.2).1, (S.lights p.1 p.2).2)
  lights_fresh : ∀ r, Fresh fun ω => (total (S.lights r ω).1, (S.lights r ω).2)
  lights_nonneg : ∀ r ω, NonNeg (total (S.lights r ω).1)

theorem measurable_worldOf {α : Type} [MeasurableSpace α] {f : α → Frame} {v : α → V3 ℝ}
    (hs : Measurable fun a => (f a).s) (ht : Measurable fun a => (f a).t) (hn : Measurable fun a => (f a).n)
    (hv : Measurable v) : Measurable fun a => (f a).toWorld (v a) := by
  unfold Frame.toWorld
  exact measurable_V3add (measurable_V3add (measurable_V3smul hs (measurable_x.comp hv))
    (measurable_V3smul ht (measurable_y.comp hv))) (measurable_V3smul hn (measurable_z.comp hv))

theorem measurable_dot {α : Type} [MeasurableSpace α] {v w : α → V3 ℝ} (hv : Measurable v) (hw : Measurable w) :
    Measurable fun a => (v a).dot (w a) := by
  unfold V3.dot
  fun_prop

theorem measurable_mk {α : Type} [MeasurableSpace α] {x y z : α → ℝ} (hx : Measurable x) (hy : Measurable y)
    (hz : Measurable z) : Measurable fun a => (⟨x a, y a, z a⟩ : V3 ℝ) := measurable_of hx hy hz

theorem measurable_flip {α : Type} [MeasurableSpace α] {w : α → V3 ℝ} (hw : Measurable w) :
    Measurable fun a => (⟨-(w a).x, -(w a).y, (w a).z⟩ : V3 ℝ) :=
  measurable_mk (by fun_prop) (by fun_prop) (by fun_prop)

theorem measurable_V3neg {α : Type} [MeasurableSpace α] {v : α → V3 ℝ} (hv : Measurable v) :
    Measurable fun a => -(v a) := by
  apply measurable_of <;> simp only [V3.neg_x, V3.neg_y, V3.neg_z] <;> fun_prop

theorem measurable_wi (S : Room) (h : S.Lawful) : Measurable S.wi := by
  have hd : Measurable fun r : Ray => -r.2 := measurable_V3neg measurable_snd
  unfold Room.wi Frame.toLocal
  exact measurable_of (measurable_dot hd h.frame_s) (measurable_dot hd h.frame_t) (measurable_dot hd h.frame_n)

/-- Pairs of a ray and numbers, as the materials use them. -/
theorem measurable_onward (S : Room) (h : S.Lawful) {α : Type} [MeasurableSpace α] {r : α → Ray} {s : α → Sample}
    (hr : Measurable r) (hw : Measurable fun a => (s a).wo) (ha : Measurable fun a => (s a).albedo)
    (hp : Measurable fun a => (s a).pdf) : Measurable fun a => S.onward (r a) (s a) := by
  have hd := measurable_worldOf (h.frame_s.comp hr) (h.frame_t.comp hr) (h.frame_n.comp hr) hw
  unfold Room.onward
  exact ha.prodMk (hp.prodMk ((measurable_dot (h.frame_n.comp hr) hd).prodMk ((h.point.comp hr).prodMk hd)))

/-! ## When glass reflects -/

theorem below_fresnel (u c e i : ℝ) : below u (fresnel c e i) ↔
    (e = i ∧ u < 0) ∨ (e ≠ i ∧ indexTo c e i ≠ 0 ∧ ((1 < sinToSqr c e i ∧ u < 1) ∨
      (¬ 1 < sinToSqr c e i ∧ indexFrom c e i * |c| + indexTo c e i * |c| ≠ 0 ∧
        u < (((indexFrom c e i * |c| - indexTo c e i * |c|) / (indexFrom c e i * |c| + indexTo c e i * |c|)) *
            ((indexFrom c e i * |c| - indexTo c e i * |c|) / (indexFrom c e i * |c| + indexTo c e i * |c|)) +
          ((indexTo c e i * |c| - indexFrom c e i * |c|) / (indexTo c e i * |c| + indexFrom c e i * |c|)) *
            ((indexTo c e i * |c| - indexFrom c e i * |c|) / (indexTo c e i * |c| + indexFrom c e i * |c|))) / 2))) := by
  have hsame : (if c < 0 then i else e) = indexFrom c e i := rfl
  have hsame' : (if c < 0 then e else i) = indexTo c e i := rfl
  have habs : (if c < 0 then -c else c) = |c| := by
    split_ifs with h
    · exact (abs_of_neg h).symm
    · exact (abs_of_nonneg (not_lt.1 h)).symm
  have hs : indexFrom c e i / indexTo c e i * (indexFrom c e i / indexTo c e i) * (1 - |c| * |c|) = sinToSqr c e i := by
    rw [abs_mul_abs_self]; rfl
  unfold fresnel below
  simp only [hsame, hsame', habs, hs]
  by_cases h1 : e = i
  · simp [h1]
  · by_cases h2 : indexTo c e i = 0
    · simp [h1, h2]
    · by_cases h3 : sinToSqr c e i > 1
      · simp [h1, h2, h3]
      · by_cases h4 : indexFrom c e i * |c| + indexTo c e i * |c| = 0
        · simp [h1, h2, h3, h4]
        · simp [h1, h2, h3, h4]

theorem measurableSet_reflects {α : Type} [MeasurableSpace α] {u c e i : α → ℝ} (hu : Measurable u) (hc : Measurable c)
    (he : Measurable e) (hi : Measurable i) : MeasurableSet {a | below (u a) (fresnel (c a) (e a) (i a))} := by
  have hf : Measurable fun a => indexFrom (c a) (e a) (i a) := by
    unfold indexFrom
    exact Measurable.ite (measurableSet_lt hc measurable_const) hi he
  have ht : Measurable fun a => indexTo (c a) (e a) (i a) := by
    unfold indexTo
    exact Measurable.ite (measurableSet_lt hc measurable_const) he hi
  have hs : Measurable fun a => sinToSqr (c a) (e a) (i a) := by
    unfold sinToSqr
    fun_prop
  have ha : Measurable fun a => |c a| := continuous_abs.measurable.comp hc
  simp only [below_fresnel]
  refine ((measurableSet_eq_fun he hi).inter (measurableSet_lt hu measurable_const)).union
    ((measurableSet_eq_fun he hi).compl.inter ((measurableSet_eq_fun ht measurable_const).compl.inter
      (((measurableSet_lt measurable_const hs).inter (measurableSet_lt hu measurable_const)).union
        ((measurableSet_lt measurable_const hs).compl.inter
          ((measurableSet_eq_fun (by fun_prop) measurable_const).compl.inter (measurableSet_lt hu ?_))))))
  fun_prop

/-- The direction glass sends light through to, `dielectric.cpp:52-66`. -/
noncomputable def flat (n m : ℝ) (w : V3 ℝ) : V3 ℝ :=
  (⟨-w.x, -w.y, 0⟩ : V3 ℝ).smul (if w.z < 0 then n / m else m / n)

noncomputable def down (eps n m : ℝ) (w : V3 ℝ) : V3 ℝ := flat n m w + ⟨0, 0, -SQRT eps (1 - (flat n m w).sqrNorm)⟩

noncomputable def bent (eps n m : ℝ) (w : V3 ℝ) : V3 ℝ :=
  if w.z < -eps then ⟨(down eps n m w).x, (down eps n m w).y, -(down eps n m w).z⟩ else down eps n m w

open Classical in
theorem glass_wo (eps n m : ℝ) (a w : V3 ℝ) (u : ℝ) : (dielectricSample eps n m a w u).wo =
    if below u (fresnel w.z m n) then ⟨-w.x, -w.y, w.z⟩ else bent eps n m w := by
  unfold dielectricSample
  by_cases hb : below u (fresnel w.z m n)
  · simp only [if_pos hb]
  · simp only [if_neg hb]; rfl

theorem measurable_bent {α : Type} [MeasurableSpace α] (eps : ℝ) {n m : α → ℝ} {w : α → V3 ℝ}
    (hn : Measurable n) (hm : Measurable m) (hw : Measurable w) : Measurable fun x => bent eps (n x) (m x) (w x) := by
  have hx := measurable_x.comp hw
  have hy := measurable_y.comp hw
  have hz := measurable_z.comp hw
  have heta : Measurable fun x => if (w x).z < 0 then n x / m x else m x / n x :=
    Measurable.ite (measurableSet_lt hz measurable_const) (hn.div hm) (hm.div hn)
  have hflat : Measurable fun x => flat (n x) (m x) (w x) := by
    unfold flat
    exact measurable_V3smul (measurable_of hx.neg hy.neg measurable_const) heta
  have hsq : Measurable fun x => (flat (n x) (m x) (w x)).sqrNorm := by
    unfold V3.sqrNorm
    fun_prop
  have hsqrt : Measurable fun x => SQRT eps (1 - (flat (n x) (m x) (w x)).sqrNorm) := by
    unfold SQRT
    exact Measurable.ite (measurableSet_lt (measurable_const.sub hsq) measurable_const) measurable_const
      (Real.continuous_sqrt.measurable.comp (measurable_const.sub hsq))
  have hdown : Measurable fun x => down eps (n x) (m x) (w x) := by
    unfold down
    exact measurable_V3add hflat (measurable_of measurable_const measurable_const hsqrt.neg)
  unfold bent
  exact Measurable.ite (measurableSet_lt hz measurable_const)
    (measurable_mk (by fun_prop) (by fun_prop) (by fun_prop)) hdown

theorem measurable_glass_wo {α : Type} [MeasurableSpace α] (eps : ℝ) {n m u : α → ℝ} {a w : α → V3 ℝ}
    (hn : Measurable n) (hm : Measurable m) (hu : Measurable u) (hw : Measurable w) :
    Measurable fun x => (dielectricSample eps (n x) (m x) (a x) (w x) (u x)).wo := by
  classical
  simp only [glass_wo]
  exact Measurable.ite (measurableSet_reflects hu (measurable_z.comp hw) hm hn)
    (measurable_flip hw) (measurable_bent eps hn hm hw)

theorem glass_plain (eps n m : ℝ) (a w : V3 ℝ) (u : ℝ) :
    (dielectricSample eps n m a w u).albedo = a ∧ (dielectricSample eps n m a w u).pdf = 1 := by
  classical
  unfold dielectricSample
  by_cases hb : below u (fresnel w.z m n)
  · simp only [if_pos hb, and_self]
  · simp only [if_neg hb, and_self]

/-! ## The programs -/

/-- What the diffuse material samples on the lit side. -/
noncomputable def lobe (albedo : V3 ℝ) (q : ℝ × ℝ) : Sample :=
  ⟨cosHemi ⟨q.1, q.2⟩, albedo.smul (1 / Real.pi), 1 / Real.pi * (cosHemi ⟨q.1, q.2⟩).z, 1⟩

noncomputable def mirrored (albedo w : V3 ℝ) : Sample := ⟨⟨-w.x, -w.y, w.z⟩, albedo, 1, 1⟩

theorem scatter_eq (S : Room) (r : Ray) (ω : Stream) : S.scatter r ω =
    if S.material r = .glass then
      (S.onward r (dielectricSample S.eps (S.intIor r) (S.extIor r) (S.albedo r) (S.wi r) (next ω).1), (next ω).2)
    else if (S.wi r).z ≤ 0 then (Room.black r, ω)
    else if S.material r = .mirror then (S.onward r (mirrored (S.albedo r) (S.wi r)), ω)
    else (S.onward r (lobe (S.albedo r) (next2 ω).1), (next2 ω).2) := by
  unfold Room.scatter
  cases hm : S.material r <;> by_cases hz : (S.wi r).z ≤ 0 <;> simp [diffuseSample, mirrorSample, hz, lobe, mirrored]

theorem measurable_scatter (S : Room) (h : S.Lawful) : Measurable fun p : Ray × Stream => S.scatter p.1 p.2 := by
  simp only [scatter_eq]
  have hr : Measurable fun p : Ray × Stream => p.1 := measurable_fst
  have hn : Measurable fun p : Ray × Stream => next p.2 := measurable_next.comp measurable_snd
  have hn2 : Measurable fun p : Ray × Stream => next2 p.2 := measurable_next2.comp measurable_snd
  have hw : Measurable fun p : Ray × Stream => S.wi p.1 := (measurable_wi S h).comp hr
  have ha : Measurable fun p : Ray × Stream => S.albedo p.1 := h.albedo.comp hr
  have hcos : Measurable fun p : Ray × Stream => cosHemi ⟨(next2 p.2).1.1, (next2 p.2).1.2⟩ :=
    measurable_cosHemi.comp (measurable_fst.comp hn2)
  have hmat : ∀ m, MeasurableSet {p : Ray × Stream | S.material p.1 = m} := fun m =>
    (h.material.comp hr) (t := {m}) MeasurableSpace.measurableSet_top
  refine Measurable.ite (hmat _) ?_ (Measurable.ite (measurableSet_le (measurable_z.comp hw) measurable_const) ?_
      (Measurable.ite (hmat _) ?_ ?_))
  · refine Measurable.prodMk (measurable_onward S h hr ?_ ?_ ?_) (measurable_snd.comp hn)
    · exact measurable_glass_wo S.eps (h.intIor.comp hr) (h.extIor.comp hr) (measurable_fst.comp hn) hw
    · simpa only [glass_plain] using ha
    · simp only [glass_plain]; exact measurable_const
  · unfold Room.black
    exact Measurable.prodMk (measurable_const.prodMk (measurable_const.prodMk (measurable_const.prodMk hr)))
      measurable_snd
  · exact Measurable.prodMk (measurable_onward S h hr (measurable_flip hw) ha measurable_const) measurable_snd
  · refine Measurable.prodMk (measurable_onward S h hr hcos ?_ ?_) (measurable_snd.comp hn2)
    · exact measurable_V3smul ha measurable_const
    · exact (measurable_z.comp hcos).const_mul _

theorem scatter_fresh (S : Room) (h : S.Lawful) (r : Ray) : Fresh (S.scatter r) := by
  have e : S.scatter r = fun ω => S.scatter r ω := rfl
  rw [e]
  simp only [scatter_eq]
  split_ifs
  · refine fresh_map (m := fun u => S.onward r (dielectricSample S.eps (S.intIor r) (S.extIor r) (S.albedo r) (S.wi r) u))
      fresh_next (measurable_onward S h measurable_const ?_ ?_ ?_)
    · exact measurable_glass_wo S.eps measurable_const measurable_const measurable_id measurable_const
    · simp only [glass_plain]; exact measurable_const
    · simp only [glass_plain]; exact measurable_const
  · exact fresh_pure _
  · exact fresh_pure _
  · refine fresh_map (m := fun q => S.onward r (lobe (S.albedo r) q)) fresh_next2
      (measurable_onward S h measurable_const measurable_cosHemi measurable_const ?_)
    exact (measurable_z.comp measurable_cosHemi).const_mul _

theorem scatter_nonneg (S : Room) (h : S.Lawful) (r : Ray) (ω : Stream) :
    NonNeg (S.scatter r ω).1.albedo ∧ 0 ≤ (S.scatter r ω).1.pdf := by
  have hpi : 0 ≤ 1 / Real.pi := by positivity
  obtain ⟨hx, hy, hz⟩ := h.albedo_nonneg r
  rw [scatter_eq]
  split_ifs
  · simp only [Room.onward, Bounce.albedo, Bounce.pdf, glass_plain]
    exact ⟨h.albedo_nonneg r, zero_le_one⟩
  · exact ⟨NonNeg.zero, le_rfl⟩
  · exact ⟨h.albedo_nonneg r, zero_le_one⟩
  · refine ⟨⟨mul_nonneg hx hpi, mul_nonneg hy hpi, mul_nonneg hz hpi⟩, mul_nonneg hpi (Real.sqrt_nonneg _)⟩

theorem measurable_isDelta : Measurable Material.isDelta := fun _ _ => MeasurableSpace.measurableSet_top

theorem room_lawful (S : Room) (h : S.Lawful) : S.world.Lawful where
  escapes := (measurable_of_finite Bool.not).comp h.seen
  env := h.env
  env_nonneg := h.env_nonneg
  delta := measurable_isDelta.comp h.material
  emitted := h.emitted
  emitted_nonneg := h.emitted_nonneg
  lights := h.lights
  lights_fresh := h.lights_fresh
  lights_nonneg := h.lights_nonneg
  scatter := measurable_scatter S h
  scatter_fresh := scatter_fresh S h
  scatter_nonneg := scatter_nonneg S h

end Feign.Integrators
