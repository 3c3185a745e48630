import Verif.Integrators.WhittedProps
import Verif.Integrators.RoomProps
import Verif.Integrators.BouncesLemmas
import Verif.Integrators.BouncesSpec

/-! # Lemmas: light seen through specular surfaces -/

set_option linter.unusedSectionVars false
set_option linter.unusedSimpArgs false
set_option linter.unusedVariables false

namespace Feign.Integrators

open Sampling MeasureTheory Bsdf
open scoped ENNReal

section
variable {R : Type} [MeasurableSpace R]

theorem measurable_seenThrough (W : World R) (h : W.Lawful) (i : Fin 3) (n : ℕ) : Measurable (W.seenThrough i n) := by
  induction n with
  | zero =>
    have : W.seenThrough i 0 = fun _ => 0 := funext fun r => by rw [World.seenThrough]
    rw [this]; exact measurable_const
  | succ n ih =>
    have e : W.seenThrough i (n + 1) = fun r => if W.escapes r then ENNReal.ofReal ((W.env r).get i)
      else if W.delta r then ENNReal.ofReal ((W.emitted r).get i) +
        ∫⁻ ω, ENNReal.ofReal ((W.scatter r ω).1.albedo.get i) * W.seenThrough i n (W.scatter r ω).1.ray ∂uniform
      else ENNReal.ofReal ((W.emitted r).get i) + W.direct i r := funext fun r => by rw [World.seenThrough]
    rw [e]
    have mE : Measurable fun r => ENNReal.ofReal ((W.emitted r).get i) := ((measurable_get i).comp h.emitted).ennreal_ofReal
    have mb : Measurable fun q : R × Stream => (W.scatter q.1 q.2).1 := measurable_fst.comp h.scatter
    have mray : Measurable fun q : R × Stream => (W.scatter q.1 q.2).1.ray :=
      measurable_snd.comp (measurable_snd.comp (measurable_snd.comp mb))
    have ma : Measurable fun q : R × Stream => ENNReal.ofReal ((W.scatter q.1 q.2).1.albedo.get i) :=
      ((measurable_get i).comp (measurable_fst.comp mb)).ennreal_ofReal
    refine measurable_bool_ite h.escapes ((measurable_get i).comp h.env).ennreal_ofReal
      (measurable_bool_ite h.delta (mE.add ?_) (mE.add (measurable_direct W h i)))
    exact Measurable.lintegral_prod_right' (ma.mul (ih.comp mray))

theorem measurable_seenLight (W : World R) (h : W.Lawful) (i : Fin 3) : Measurable (W.seenLight i) :=
  Measurable.iSup fun n => measurable_seenThrough W h i n

theorem seenThrough_mono (W : World R) (i : Fin 3) : Monotone fun n => W.seenThrough i n := by
  refine monotone_nat_of_le_succ fun n => ?_
  induction n with
  | zero => intro r; rw [World.seenThrough]; exact zero_le
  | succ n ih =>
    intro r
    show W.seenThrough i (n + 1) r ≤ W.seenThrough i (n + 1 + 1) r
    rw [World.seenThrough, World.seenThrough]
    split_ifs with he hd
    · exact le_rfl
    · gcongr; exact ih _
    · exact le_rfl

/-- The light seen along a ray, as one equation. -/
theorem seenLight_eq (W : World R) (h : W.Lawful) (i : Fin 3) (r : R) :
    W.seenLight i r = if W.escapes r then ENNReal.ofReal ((W.env r).get i)
      else if W.delta r then ENNReal.ofReal ((W.emitted r).get i) +
        ∫⁻ ω, ENNReal.ofReal ((W.scatter r ω).1.albedo.get i) * W.seenLight i (W.scatter r ω).1.ray ∂uniform
      else ENNReal.ofReal ((W.emitted r).get i) + W.direct i r := by
  rw [seenLight_step W h]
  simp only [World.seenThrough]
  split_ifs with he hd
  · exact iSup_const
  · rw [← ENNReal.add_iSup]
    congr 1
    have mb : Measurable fun ω : Stream => (W.scatter r ω).1 :=
      measurable_fst.comp (h.scatter.comp (measurable_const.prodMk measurable_id))
    have mray : Measurable fun ω : Stream => (W.scatter r ω).1.ray :=
      measurable_snd.comp (measurable_snd.comp (measurable_snd.comp mb))
    have ma : Measurable fun ω : Stream => ENNReal.ofReal ((W.scatter r ω).1.albedo.get i) :=
      ((measurable_get i).comp (measurable_fst.comp mb)).ennreal_ofReal
    have mm : ∀ n, Measurable fun ω : Stream =>
        ENNReal.ofReal ((W.scatter r ω).1.albedo.get i) * W.seenThrough i n (W.scatter r ω).1.ray :=
      fun n => ma.mul ((measurable_seenThrough W h i n).comp mray)
    rw [← lintegral_iSup mm]
    · refine lintegral_congr fun ω => ?_
      rw [World.seenLight, ENNReal.mul_iSup]
    · intro m n hmn ω
      exact mul_le_mul_right (seenThrough_mono W i hmn _) _
  · exact iSup_const

/-- Specular surfaces that do not emit and send on at most what arrives add nothing to the bound on what is found. -/
theorem seenLight_le (W : World R) (i : Fin 3) {B : ℝ} (hB : W.FindsAtMost i B) (hE : ∀ r, W.emitted r = 0)
    (ha : ∀ r ω, W.delta r = true → (W.scatter r ω).1.albedo.get i ≤ 1) (r : R) : W.seenLight i r ≤ ENNReal.ofReal B := by
  refine iSup_le fun n => ?_
  induction n generalizing r with
  | zero => rw [World.seenThrough]; exact zero_le
  | succ n ih =>
    rw [World.seenThrough]
    have hb := hB r
    split_ifs with he hd
    · rwa [if_pos he] at hb
    · rw [hE, get_zero, ENNReal.ofReal_zero, zero_add]
      calc _ ≤ ∫⁻ _ : Stream, ENNReal.ofReal B ∂uniform := by
            refine lintegral_mono fun ω => ?_
            calc _ ≤ 1 * ENNReal.ofReal B := by
                  gcongr
                  · exact ENNReal.ofReal_le_one.2 (ha r ω hd)
                  · exact ih _
              _ = _ := one_mul _
        _ = ENNReal.ofReal B := by simp
    · rwa [if_neg he] at hb

end

/-! ## Rooms -/

theorem delta_albedo (S : Room) (r : Ray) (ω : Stream) (hd : (S.material r).isDelta = true) :
    (S.scatter r ω).1.albedo = 0 ∨ (S.scatter r ω).1.albedo = S.albedo r := by
  rw [scatter_eq]
  split_ifs with h1 h2 h3
  · right; simp [Room.onward, Bounce.albedo, glass_plain]
  · left; rfl
  · right; rfl
  · cases hm : S.material r <;> simp_all [Material.isDelta]

/-- For specular surfaces the plain factor and the one of path tracing agree. -/
theorem delta_factor (S : Room) (i : Fin 3) (r : Ray) (ω : Stream) (hd : (S.material r).isDelta = true) :
    factor true i (S.scatter r ω).1 = (S.scatter r ω).1.albedo.get i := by
  rw [scatter_eq]
  split_ifs with h1 h2 h3
  · simp [factor, Room.onward, Bounce.albedo, Bounce.pdf, glass_plain]
  · simp [factor, Room.black, Bounce.albedo, Bounce.pdf, get_zero]
  · simp [factor, Room.onward, Bounce.albedo, Bounce.pdf, mirrored]
  · cases hm : S.material r <;> simp_all [Material.isDelta]

end Feign.Integrators
