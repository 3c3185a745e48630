import Verif.Sdf.WhittedPicture
import Verif.Sdf.NormalLemmas
import Verif.Sdf.QueryProps
import Verif.Sdf.UnmetProps

/-!
# C138: light and solids of glass made of distance functions

What is right at a single surface is `sdf_glass` and `sdf_seen`. Here: what happens behind it.
-/

set_option linter.unusedSectionVars false
set_option linter.unusedVariables false
set_option linter.unusedSimpArgs false

namespace Feign.Sdf

open Integrators Sampling MeasureTheory V3
open scoped ENNReal

/-! ## Rays inside solids -/

theorem hitOf_intersect {fs : List (V3 ℝ → Option ℝ)} {box : Option (B3 ℝ)} {r : Integrators.Ray} {h : Hit} :
    hitOf fs box r = some h ↔ intersect fs box ⟨r.1, r.2, Ext.fin eps, ⊤⟩ = .ok (.hit h) := by
  unfold hitOf
  constructor
  · intro hh
    cases hi : intersect fs box ⟨r.1, r.2, Ext.fin eps, ⊤⟩ with
    | ok m =>
      rw [hi] at hh
      cases m with
      | hit h' => injection hh with hh; rw [hh]
      | passed d => cases hh
      | nothing => cases hh
      | exhausted d => cases hh
    | throw e => rw [hi] at hh; cases hh
    | ub e => rw [hi] at hh; cases hh
  · intro hh
    rw [hh]

/-- The ray is in the solid of one of the shapes, one tolerance after its start. -/
def Within (ss : List Shape) (b : B3 ℝ) (r : Integrators.Ray) : Prop :=
  r.2.sqrNorm = 1 ∧ (∃ s ∈ ss, r.1 + r.2.smul eps ∈ s.solid) ∧ b.containsB (r.1 + r.2.smul eps)

/-- **C138, inside.** A ray inside a solid is reported to hit something after exactly one tolerance, wherever the surface is. -/
theorem inside_stops {ss : List Shape} (hw : ∀ s ∈ ss, s.WellFormed) {b : B3 ℝ} (hb : b.min.le b.max) {r : Integrators.Ray}
    (hin : Within ss b r) : ∃ h, hitOf (evals ss) (some b) r = some h ∧ h.t = eps := by
  obtain ⟨hd, ⟨s, hs, hin⟩, hbox⟩ := hin
  obtain ⟨i, hi⟩ := List.mem_iff_getElem?.mp hs
  have hil : i < ss.length := (List.getElem?_eq_some_iff.mp hi).1
  have hS : (⟨r.1, r.2, Ext.fin eps, ⊤⟩ : Feign.Ray ℝ).point eps ∈ solids ss i := by
    unfold solids; rw [hi]; exact hin
  have hge := startAt_ge (boxNearFar b ⟨r.1, r.2, Ext.fin eps, ⊤⟩).1
  rcases intersect_finds (evals ss) (solids ss) (evals_conservative ss hw) b hb ⟨r.1, r.2, Ext.fin eps, ⊤⟩ hd i
    (by unfold evals; rwa [List.length_map]) eps le_rfl hS hbox with ⟨h, hh, hle⟩ | ⟨d, -, h1, h2⟩
  · refine ⟨h, hitOf_intersect.2 hh, le_antisymm hle ?_⟩
    obtain ⟨o, ho, hso⟩ := march_sound (evals ss) (solids ss) (evals_conservative ss hw) ⟨r.1, r.2, Ext.fin eps, ⊤⟩ hd
      (boxNearFar b ⟨r.1, r.2, Ext.fin eps, ⊤⟩).2 2000 (startAt (boxNearFar b ⟨r.1, r.2, Ext.fin eps, ⊤⟩).1)
    have hh' : march (evals ss) ⟨r.1, r.2, Ext.fin eps, ⊤⟩ (boxNearFar b ⟨r.1, r.2, Ext.fin eps, ⊤⟩).2 2000
      (startAt (boxNearFar b ⟨r.1, r.2, Ext.fin eps, ⊤⟩).1) = .ok (.hit h) := hh
    rw [hh'] at ho
    injection ho with ho
    subst ho
    exact hge.trans hso.1
  · exfalso; linarith

theorem hit_step {fs : List (V3 ℝ → Option ℝ)} {box : Option (B3 ℝ)} {r : Integrators.Ray} {h : Hit}
    (hh : hitOf fs box r = some h) : (∃ sd, sdEvaluate fs (r.1 + r.2.smul h.t) = some (sd, h.shape) ∧ sd ≤ eps ∧
      sdNormal fs (r.1 + r.2.smul h.t) = some h.normal) ∧ h.p = r.1 + r.2.smul h.t + h.normal.smul eps := by
  have key := hitOf_intersect.1 hh
  cases box with
  | none => exact ⟨march_hit _ _ _ _ _ _ key, (march_found _ _ _ _ _ _ key).2.2⟩
  | some b => exact ⟨march_hit _ _ _ _ _ _ key, (march_found _ _ _ _ _ _ key).2.2⟩

/-- **C138, inside.** Whatever directions a path takes, as long as it is inside solids it moves by at most two tolerances from one
reported hit to the next: through a solid of thickness `D` it needs at least `D / (2 * eps)` bounces. -/
theorem creeping {ss : List Shape} (hw : ∀ s ∈ ss, s.WellFormed) {b : B3 ℝ} (hb : b.min.le b.max) (q : ℕ → Integrators.Ray)
    (n : ℕ) (hin : ∀ i < n, Within ss b (q i)) (hq : ∀ i < n, ∀ a, hitOf (evals ss) (some b) (q i) = some a → (q (i + 1)).1 = a.p) :
    dist (q n).1 (q 0).1 ≤ 2 * eps * n := by
  induction n with
  | zero => simp [dist, V3.norm]
  | succ n ih =>
    have h0 := ih (fun i hi => hin i (by omega)) fun i hi => hq i (by omega)
    obtain ⟨a, ha, hat⟩ := inside_stops hw hb (hin n (by omega))
    have h1 := hq n (by omega) a ha
    obtain ⟨-, hp⟩ := hit_step ha
    have hn := (hitOf_found ha).1
    rw [hat] at hp
    have he := eps_pos
    have e1 : ((q n).2.smul eps).norm = eps := by
      rw [norm_smul', V3.norm_eq, (hin n (by omega)).1, Real.sqrt_one, one_mul, abs_of_pos he]
    have e2 : (a.normal.smul eps).norm = eps := by rw [norm_smul', V3.norm_eq, hn, Real.sqrt_one, one_mul, abs_of_pos he]
    have e3 : (q (n + 1)).1 - (q 0).1 = ((q n).2.smul eps + a.normal.smul eps) + ((q n).1 - (q 0).1) := by
      rw [h1, hp]; ext <;> simp <;> ring
    have t1 := norm_add_le ((q n).2.smul eps + a.normal.smul eps) ((q n).1 - (q 0).1)
    have t2 := norm_add_le ((q n).2.smul eps) (a.normal.smul eps)
    unfold dist at h0 ⊢
    rw [e3]
    push_cast
    linarith

/-! ## Head on -/

/-- **C138, head on.** A ray that arrives head on and goes on straight through the surface hits the same point again, from outside, with
the same normal. -/
theorem head_on_again {fs : List (V3 ℝ → Option ℝ)} {b : B3 ℝ} (hb : b.min.le b.max) {r : Integrators.Ray} {a : Hit}
    (ha : hitOf fs (some b) r = some a) (hr : r.2 = -a.normal) (hbox : b.containsB (a.p + r.2.smul eps)) :
    hitOf fs (some b) (a.p, r.2) = some { a with t := eps } := by
  obtain ⟨⟨sd, h1, h2, h3⟩, hp⟩ := hit_step ha
  have hn := (hitOf_found ha).1
  have hq : (⟨a.p, r.2, Ext.fin eps, ⊤⟩ : Feign.Ray ℝ).point eps = r.1 + r.2.smul a.t := by
    show a.p + r.2.smul eps = _
    rw [hp, hr]; ext <;> simp
  rw [hitOf_intersect]
  obtain ⟨hnone, hsome⟩ := B3.slabs_spec b ⟨a.p, r.2, Ext.fin eps, ⊤⟩ hb
  cases hs : b.slabs ⟨a.p, r.2, Ext.fin eps, ⊤⟩ with
  | none => exact absurd hbox (hnone hs eps)
  | some nf =>
    obtain ⟨n, f⟩ := nf
    obtain ⟨-, -, -, hiff⟩ := hsome n f hs
    obtain ⟨hnn, hf⟩ := (hiff eps).mpr hbox
    have hst : startAt n = eps := le_antisymm (startAt_le n eps hnn le_rfl) (startAt_ge n)
    show march _ _ (boxNearFar b _).2 2000 (startAt (boxNearFar b _).1) = _
    rw [boxNearFar_of_slabs b _ _ hs]
    dsimp only
    rw [hst]
    unfold march
    rw [if_pos hf]
    dsimp only
    rw [hq, h1]
    dsimp only
    rw [if_pos h2, h3]
    dsimp only
    rw [if_neg (by rw [V3.norm_eq, hn, Real.sqrt_one]; unfold eps; norm_num), ← hp]

/-- A share `p` goes to `Y` and the rest comes back. -/
theorem comes_back {p : ℝ} (hp : 0 < p) (hp1 : p ≤ 1) {X Y : ℝ≥0∞} (hle : X ≤ Y)
    (h : X = ENNReal.ofReal p * Y + ENNReal.ofReal (1 - p) * X) : X = Y := by
  by_cases hX : X = ∞
  · rw [hX] at hle ⊢; exact (top_le_iff.1 hle).symm
  have e : ENNReal.ofReal p + ENNReal.ofReal (1 - p) = 1 := by
    rw [← ENNReal.ofReal_add hp.le (by linarith), add_sub_cancel, ENNReal.ofReal_one]
  have h2 : ENNReal.ofReal p * X + ENNReal.ofReal (1 - p) * X = ENNReal.ofReal p * Y + ENNReal.ofReal (1 - p) * X := by
    rw [← h, ← add_mul, e, one_mul]
  have h3 := (ENNReal.add_left_inj (ENNReal.mul_ne_top ENNReal.ofReal_ne_top hX)).1 h2
  exact (ENNReal.mul_right_inj (ENNReal.ofReal_pos.2 hp).ne' ENNReal.ofReal_ne_top).1 h3

variable {ss : List Shape} {looks : ℕ → Look} {env : V3 ℝ → V3 ℝ} {lamps : List Lamp} {ρ E I δ : ℝ}

/-- What white glass does with a ray that arrives head on. -/
theorem head_on_scatter (h : Setting ss looks env lamps ρ E I δ) (box : Option (B3 ℝ)) (k : Fin 3) {r : Integrators.Ray} {a : Hit}
    (ha : hitOf (evals ss) box r = some a) (hr : r.2 = -a.normal) (hm : (looks a.shape).material = .glass)
    (hc : (looks a.shape).albedo.get k = 1) (he : 0 < (looks a.shape).extIor) (hi : 0 < (looks a.shape).intIor) (L : Integrators.Ray → ℝ≥0∞) :
    let S := litRoom (evals ss) box looks env lamps
    let p := (((looks a.shape).extIor - (looks a.shape).intIor) / ((looks a.shape).extIor + (looks a.shape).intIor)) ^ 2
    ∫⁻ ω, ENNReal.ofReal (factor true k (S.scatter r ω).1) * L (S.scatter r ω).1.ray ∂uniform =
      ENNReal.ofReal p * L (a.p, a.normal) + ENNReal.ofReal (1 - p) * L (a.p, r.2) := by
  intro S p
  obtain ⟨hl, hl'⟩ := litRoom_lawful h box
  have hmat : S.material r = (looks a.shape).material := by
    show ((hitOf (evals ss) box r).map fun h => (looks h.shape).material).getD .diffuse = _
    rw [ha]; rfl
  have hpt : S.point r = a.p := by
    show ((hitOf (evals ss) box r).map (·.p)).getD r.1 = _
    rw [ha]; rfl
  have hfr0 : S.frame r = frameOf a.normal := by
    show ((hitOf (evals ss) box r).map fun h => frameOf h.normal).getD _ = _
    rw [ha]; rfl
  have hfr : (S.frame r).n = a.normal := by rw [hfr0]; exact (frameOf_parts _).2.2
  have halb : S.albedo r = (looks a.shape).albedo := by
    show ((hitOf (evals ss) box r).map fun h => (looks h.shape).albedo).getD 0 = _
    rw [ha]; rfl
  have hint : S.intIor r = (looks a.shape).intIor := by
    show ((hitOf (evals ss) box r).map fun h => (looks h.shape).intIor).getD 1 = _
    rw [ha]; rfl
  have hext : S.extIor r = (looks a.shape).extIor := by
    show ((hitOf (evals ss) box r).map fun h => (looks h.shape).extIor).getD 1 = _
    rw [ha]; rfl
  have hn := (hitOf_found ha).1
  have hneg : -r.2 = a.normal := by rw [hr]; ext <;> simp
  have hdot : (-r.2).dot a.normal = 1 := by rw [hneg]; exact hn
  have hd1 : r.2.sqrNorm = 1 := by rw [hr]; simpa [sqrNorm] using hn
  have hp : Bsdf.fresnel 1 (looks a.shape).extIor (looks a.shape).intIor = some p := by
    rw [Bsdf.fresnel_eq _ _ _ he hi]
    split_ifs with h1 h2 h3
    · simp [p, h1]
    · exfalso; simp [Bsdf.sinToSqr] at h2; linarith
    · norm_num at h3
    · rfl
  have ho : (S.frame r).Orthonormal := by rw [hfr0]; exact frameOf_unit hn
  have hwi : S.wi r = ⟨0, 0, 1⟩ := by
    unfold Room.wi Frame.toLocal
    rw [hneg, ← hfr]
    have h1 := ho.sn
    have h2 := ho.tn
    have h3 := ho.nn
    ext <;> simp only [V3.dot] at * <;> linarith
  obtain ⟨-, -, t, ht, -, g⟩ := scatter_glass S hl' eps_pos k r (hmat.trans hm) hd1 (by rw [hext]; exact he) (by rw [hint]; exact hi)
      (by left; unfold Room.Front; rw [hfr, hdot]; norm_num) p (by rw [hfr, hext, hint, hdot]; exact hp)
  have hbent : bent S.eps (S.intIor r) (S.extIor r) (S.wi r) = ⟨0, 0, -1⟩ := by
    have e0 : S.eps = eps := rfl
    rw [hwi, e0]
    have : ¬ (1 : ℝ) < -eps := by unfold eps; norm_num
    have h2 : ¬ (1 : ℝ) < eps := by unfold eps; norm_num
    unfold bent
    rw [if_neg this]
    ext <;> simp [Integrators.down, Integrators.flat, Bsdf.SQRT, sqrNorm, h2]
  have ht2 : t = r.2 := by
    rw [ht, hbent, hr, ← hfr]
    unfold Frame.toWorld
    ext <;> simp
  have hmir : mirrorImage a.normal r.2 = a.normal := by
    have h1 : r.2.dot a.normal = -1 := by rw [hr]; simp only [V3.dot, sqrNorm, neg_x, neg_y, neg_z] at *; linarith
    unfold mirrorImage
    rw [h1, hr]
    ext <;> simp <;> ring
  rw [g L, halb, hc, ENNReal.ofReal_one, one_mul, hpt, hfr, hmir, ht2]

/-- **C138, what is seen head on.** White glass that does not glow, met head on, in a scene of distance functions, for path tracing
(`light`) and for Whitted's integrator (`seenLight`): when the two indices of refraction differ it shows what a perfect mirror
would show, and when they are the same it is black. Nothing of what is behind the surface is ever seen. -/
theorem clear_head_on (h : Setting ss looks env lamps ρ E I δ) {b : B3 ℝ} (hb : b.min.le b.max) (k : Fin 3) {r : Integrators.Ray}
    {a : Hit} (ha : hitOf (evals ss) (some b) r = some a) (hr : r.2 = -a.normal) (hbox : b.containsB (a.p + r.2.smul eps))
    (hm : (looks a.shape).material = .glass) (hdark : ∀ d, (looks a.shape).emitted d = 0)
    (hc : (looks a.shape).albedo.get k = 1) (he : 0 < (looks a.shape).extIor) (hi : 0 < (looks a.shape).intIor) :
    let W := (litRoom (evals ss) (some b) looks env lamps).world
    ((looks a.shape).extIor ≠ (looks a.shape).intIor →
      (∀ look, W.light k look r = W.light k true (a.p, a.normal)) ∧ W.seenLight k r = W.seenLight k (a.p, a.normal)) ∧
    ((looks a.shape).extIor = (looks a.shape).intIor → (∀ look, W.light k look r = 0) ∧ W.seenLight k r = 0) := by
  intro W
  set S := litRoom (evals ss) (some b) looks env lamps with hS
  obtain ⟨hl, hl'⟩ := litRoom_lawful h (some b)
  have hW : W.Lawful := room_lawful _ hl'
  set p := (((looks a.shape).extIor - (looks a.shape).intIor) / ((looks a.shape).extIor + (looks a.shape).intIor)) ^ 2 with hp
  have again := head_on_again hb ha hr hbox
  have hsum : 0 < (looks a.shape).extIor + (looks a.shape).intIor := by linarith
  have hp1 : p ≤ 1 := by
    rw [hp, div_pow, div_le_one (by positivity)]
    nlinarith
  have hp0 : 0 ≤ p := by positivity
  -- both rays are alike
  have alike : ∀ q, (∃ t, hitOf (evals ss) (some b) q = some { a with t := t }) → q.2 = r.2 → W.escapes q = false ∧ W.delta q = true ∧
      W.emitted q = 0 ∧ W.direct k q = 0 ∧ ∀ L : Integrators.Ray → ℝ≥0∞,
        (∫⁻ ω, ENNReal.ofReal (factor true k (W.scatter q ω).1) * L (W.scatter q ω).1.ray ∂uniform =
          ENNReal.ofReal p * L (a.p, a.normal) + ENNReal.ofReal (1 - p) * L (a.p, r.2)) ∧
        ∫⁻ ω, ENNReal.ofReal ((W.scatter q ω).1.albedo.get k) * L (W.scatter q ω).1.ray ∂uniform =
          ENNReal.ofReal p * L (a.p, a.normal) + ENNReal.ofReal (1 - p) * L (a.p, r.2) := by
    rintro q ⟨t, hq⟩ hq2
    have hmat : S.material q = .glass := by
      show ((hitOf (evals ss) (some b) q).map fun h => (looks h.shape).material).getD .diffuse = _
      rw [hq]; exact hm
    have hdel : W.delta q = true := by show (S.material q).isDelta = true; rw [hmat]; rfl
    have sc := fun L => head_on_scatter h (some b) k hq (hq2.trans hr) hm hc he hi L
    rw [hq2] at sc
    refine ⟨?_, hdel, ?_, by simp [World.direct, hdel], fun L => ⟨sc L, ?_⟩⟩
    · show (!(hitOf (evals ss) (some b) q).isSome) = false
      rw [hq]; rfl
    · show ((hitOf (evals ss) (some b) q).map fun h => (looks h.shape).emitted ((frameOf h.normal).toLocal q.2)).getD 0 = 0
      rw [hq]; exact hdark _
    · refine Eq.trans (lintegral_congr fun ω => ?_) (sc L)
      show _ = ENNReal.ofReal (factor true k (S.scatter q ω).1) * _
      rw [delta_factor S k q ω hdel]
      rfl
  obtain ⟨r1, r2, r3, r4, r5⟩ := alike r ⟨a.t, ha⟩ rfl
  obtain ⟨q1, q2, q3, q4, q5⟩ := alike (a.p, r.2) ⟨eps, again⟩ rfl
  have lightR : ∀ look, W.light k look r = ENNReal.ofReal p * W.light k true (a.p, a.normal) +
      ENNReal.ofReal (1 - p) * W.light k true (a.p, r.2) := by
    intro look
    rw [rendering_equation W hW k look r, if_neg (by rw [r1]; simp), r2, r3, r4, (r5 _).1]
    simp [get_zero]
  have lightQ : W.light k true (a.p, r.2) = ENNReal.ofReal p * W.light k true (a.p, a.normal) +
      ENNReal.ofReal (1 - p) * W.light k true (a.p, r.2) := by
    conv_lhs => rw [rendering_equation W hW k true (a.p, r.2), if_neg (by rw [q1]; simp), q2, q3, q4, (q5 _).1]
    simp [get_zero]
  have seenR : W.seenLight k r = ENNReal.ofReal p * W.seenLight k (a.p, a.normal) +
      ENNReal.ofReal (1 - p) * W.seenLight k (a.p, r.2) := by
    rw [seenLight_eq W hW k r, if_neg (by rw [r1]; simp), if_pos r2, r3, (r5 _).2]
    simp [get_zero]
  have seenQ : W.seenLight k (a.p, r.2) = ENNReal.ofReal p * W.seenLight k (a.p, a.normal) +
      ENNReal.ofReal (1 - p) * W.seenLight k (a.p, r.2) := by
    conv_lhs => rw [seenLight_eq W hW k (a.p, r.2), if_neg (by rw [q1]; simp), if_pos q2, q3, (q5 _).2]
    simp [get_zero]
  have carQ : ∀ n, W.carried k (n + 1) true (a.p, r.2) = ENNReal.ofReal p * W.carried k n true (a.p, a.normal) +
      ENNReal.ofReal (1 - p) * W.carried k n true (a.p, r.2) := by
    intro n
    rw [World.carried, if_neg (by rw [q1]; simp), q2, q3, q4, (q5 _).1]
    simp [get_zero]
  have thrQ : ∀ n, W.seenThrough k (n + 1) (a.p, r.2) = ENNReal.ofReal p * W.seenThrough k n (a.p, a.normal) +
      ENNReal.ofReal (1 - p) * W.seenThrough k n (a.p, r.2) := by
    intro n
    rw [World.seenThrough, if_neg (by rw [q1]; simp), if_pos q2, q3, (q5 _).2]
    simp [get_zero]
  have e1 : ENNReal.ofReal p + ENNReal.ofReal (1 - p) = 1 := by
    rw [← ENNReal.ofReal_add hp0 (by linarith), add_sub_cancel, ENNReal.ofReal_one]
  constructor
  · intro hne
    have hpp : 0 < p := by
      have : (looks a.shape).extIor - (looks a.shape).intIor ≠ 0 := sub_ne_zero.2 hne
      positivity
    have leL : W.light k true (a.p, r.2) ≤ W.light k true (a.p, a.normal) := by
      refine iSup_mono fun n => ?_
      induction n with
      | zero => rw [World.carried]; exact zero_le
      | succ n ih =>
        rw [carQ]
        calc _ ≤ ENNReal.ofReal p * W.carried k n true (a.p, a.normal) + ENNReal.ofReal (1 - p) * W.carried k n true (a.p, a.normal) := by
              gcongr
          _ = W.carried k n true (a.p, a.normal) := by rw [← add_mul, e1, one_mul]
          _ ≤ _ := carried_mono W k (Nat.le_succ n) true _
    have leS : W.seenLight k (a.p, r.2) ≤ W.seenLight k (a.p, a.normal) := by
      refine iSup_mono fun n => ?_
      induction n with
      | zero => rw [World.seenThrough]; exact zero_le
      | succ n ih =>
        rw [thrQ]
        calc _ ≤ ENNReal.ofReal p * W.seenThrough k n (a.p, a.normal) + ENNReal.ofReal (1 - p) * W.seenThrough k n (a.p, a.normal) := by
              gcongr
          _ = W.seenThrough k n (a.p, a.normal) := by rw [← add_mul, e1, one_mul]
          _ ≤ _ := seenThrough_mono W k (Nat.le_succ n) _
    refine ⟨fun look => ?_, ?_⟩
    · rw [lightR, comes_back hpp hp1 leL lightQ, ← add_mul, e1, one_mul]
    · rw [seenR, comes_back hpp hp1 leS seenQ, ← add_mul, e1, one_mul]
  · intro heq
    have hpz : p = 0 := by rw [hp, heq]; simp
    rw [hpz] at lightR seenR carQ thrQ
    simp only [ENNReal.ofReal_zero, zero_mul, zero_add, sub_zero, ENNReal.ofReal_one, one_mul] at lightR seenR carQ thrQ
    have zL : W.light k true (a.p, r.2) = 0 := by
      refine le_antisymm (iSup_le fun n => ?_) zero_le
      induction n with
      | zero => rw [World.carried]
      | succ n ih => rw [carQ]; exact ih
    have zS : W.seenLight k (a.p, r.2) = 0 := by
      refine le_antisymm (iSup_le fun n => ?_) zero_le
      induction n with
      | zero => rw [World.seenThrough]
      | succ n ih => rw [thrQ]; exact ih
    exact ⟨fun look => by rw [lightR, zL], by rw [seenR, zS]⟩

/-! ## A ball of glass -/

theorem ball_box : ballBox = some (⟨⟨-1, -1, 1⟩, ⟨1, 1, 3⟩⟩ : B3 ℝ) := rfl

theorem ball_value (q : V3 ℝ) : sdEvaluate ballScene q = some (sphereEval ⟨0, 0, 2⟩ 1 q, 0) := by
  simp [ballScene, evals, sdEvaluate, sdEvaluateFrom, Shape.eval, better]

theorem axis_norm (v : V3 ℝ) (hx : v.x = 0) (hy : v.y = 0) : v.norm = |v.z| := by
  rw [V3.norm_eq, sqrNorm, hx, hy, ← Real.sqrt_mul_self_eq_abs]
  congr 1
  ring

/-- The ray along `z` hits the ball head on. -/
theorem ball_first : hitOf ballScene ballBox (0, ⟨0, 0, 1⟩) = some ⟨1, 0, ⟨0, 0, -1⟩, ⟨0, 0, 1 - eps⟩⟩ := by
  have he : eps = 1 / 1000 := rfl
  rw [hitOf_intersect]
  have hnf : boxNearFar ⟨⟨-1, -1, 1⟩, ⟨1, 1, 3⟩⟩ (⟨0, ⟨0, 0, 1⟩, Ext.fin eps, ⊤⟩ : Feign.Ray ℝ) = (Ext.fin 1, Ext.fin 3) := by
    unfold boxNearFar
    dsimp only
    rw [slab_across _ _ _ (by simp) (by simp), slab_across _ _ _ (by simp) (by simp)]
    show (slabNF 0 1 1 3 (true, ⊥, ⊤)).2 = _
    rw [slab_along _ _ (by norm_num)]
  have hst : startAt (Ext.fin (1 : ℝ)) = 1 := by
    show (if (1 : ℝ) < eps then eps else 1) = 1
    rw [if_neg (by unfold eps; norm_num)]
  have hpt : (⟨0, ⟨0, 0, 1⟩, Ext.fin eps, ⊤⟩ : Feign.Ray ℝ).point 1 = ⟨0, 0, 1⟩ := by ext <;> simp [Ray.point]
  have hval : sphereEval ⟨0, 0, 2⟩ 1 ⟨0, 0, 1⟩ = 0 := by
    unfold sphereEval
    rw [axis_norm _ (by simp) (by simp)]
    norm_num
  have hnorm : sdNormal ballScene ⟨0, 0, 1⟩ = some ⟨0, 0, -1⟩ := by
    have hax : (⟨0, 0, -1⟩ : V3 ℝ).norm = 1 := by rw [axis_norm _ rfl rfl]; norm_num
    obtain ⟨h1, h2⟩ := normalized_exact ⟨0, 0, -1⟩ hax (2 * eps) (by rw [he]; norm_num)
    rw [sdNormal_of_value ballScene ⟨0, 0, 1⟩ (sphereEval ⟨0, 0, 2⟩ 1) (fun q _ => ⟨0, ball_value q⟩)
      ((⟨0, 0, -1⟩ : V3 ℝ).smul (2 * eps)) ?_ ?_ ?_ h1, h2]
    · simp [sphereEval, V3.norm_eq, sqrNorm]
    · simp [sphereEval, V3.norm_eq, sqrNorm]
    · unfold sphereEval
      rw [axis_norm _ (by simp) (by simp), axis_norm _ (by simp) (by simp)]
      simp only [add_z, sub_z, smul_z]
      rw [abs_of_neg (by rw [he]; norm_num), abs_of_neg (by rw [he]; norm_num)]
      ring
  rw [ball_box]
  unfold intersect
  dsimp only
  rw [hnf]
  dsimp only
  rw [hst]
  unfold march
  rw [if_pos (by rw [Ext.fin_le_fin]; norm_num)]
  dsimp only
  rw [hpt, ball_value, hval]
  dsimp only
  rw [if_pos eps_pos.le, hnorm]
  dsimp only
  rw [if_neg (by rw [axis_norm _ rfl rfl, he]; norm_num)]
  congr 3
  ext <;> simp <;> ring

/-- The ray straight back meets nothing. -/
theorem ball_back : hitOf ballScene ballBox (⟨0, 0, 1 - eps⟩, ⟨0, 0, -1⟩) = none := by
  have he : eps = 1 / 1000 := rfl
  have hnf : boxNearFar ⟨⟨-1, -1, 1⟩, ⟨1, 1, 3⟩⟩ (⟨⟨0, 0, 1 - eps⟩, ⟨0, 0, -1⟩, Ext.fin eps, ⊤⟩ : Feign.Ray ℝ) =
      (Ext.fin (-2 - eps), Ext.fin (-eps)) := by
    unfold boxNearFar
    dsimp only
    rw [slab_across _ _ _ (by norm_num) (by norm_num), slab_across _ _ _ (by norm_num) (by norm_num)]
    unfold slabNF
    rw [if_neg (by simp), if_neg (by norm_num)]
    have e1 : ((1 : ℝ) - (1 - eps)) * (1 / -1) = -eps := by ring
    have e2 : ((3 : ℝ) - (1 - eps)) * (1 / -1) = -2 - eps := by ring
    dsimp only
    simp only [e1, e2]
    have h1 : -eps > -2 - eps := by linarith
    rw [if_pos h1, if_pos h1, max_eq_left bot_le, min_eq_left le_top]
  have hm : intersect ballScene ballBox (⟨⟨0, 0, 1 - eps⟩, ⟨0, 0, -1⟩, Ext.fin eps, ⊤⟩ : Feign.Ray ℝ) = .ok (.passed eps) := by
    rw [ball_box]
    unfold intersect
    dsimp only
    rw [hnf]
    have hst : startAt (Ext.fin (-2 - eps)) = eps := by
      show (if (-2 - eps : ℝ) < eps then eps else _) = eps
      rw [if_pos (by rw [he]; norm_num)]
    dsimp only
    rw [hst]
    unfold march
    rw [if_neg (by rw [Ext.fin_le_fin, he]; norm_num)]
  unfold hitOf
  rw [hm]

/-- **C138, a ball of glass.** White glass with any two different indices, seen head on: the ball shows the sky behind the viewer; with equal
indices, where it should not be visible at all, it is black. -/
theorem ball_shows (h : Setting [.sphere ⟨0, 0, 2⟩ 1] looks env lamps ρ E I δ) (k : Fin 3) (hm : (looks 0).material = .glass)
    (hdark : ∀ d, (looks 0).emitted d = 0) (hc : (looks 0).albedo.get k = 1) (he : 0 < (looks 0).extIor) (hi : 0 < (looks 0).intIor) :
    let W := (litRoom ballScene ballBox looks env lamps).world
    ((looks 0).extIor ≠ (looks 0).intIor → (∀ look, W.light k look (0, ⟨0, 0, 1⟩) = ENNReal.ofReal ((env ⟨0, 0, -1⟩).get k)) ∧
      W.seenLight k (0, ⟨0, 0, 1⟩) = ENNReal.ofReal ((env ⟨0, 0, -1⟩).get k)) ∧
    ((looks 0).extIor = (looks 0).intIor → (∀ look, W.light k look (0, ⟨0, 0, 1⟩) = 0) ∧ W.seenLight k (0, ⟨0, 0, 1⟩) = 0) := by
  intro W
  have hbox : (⟨⟨-1, -1, 1⟩, ⟨1, 1, 3⟩⟩ : B3 ℝ).containsB ((⟨0, 0, 1 - eps⟩ : V3 ℝ) + (⟨0, 0, 1⟩ : V3 ℝ).smul eps) := by
    refine ⟨⟨?_, ?_, ?_⟩, ?_, ?_, ?_⟩ <;> simp
  obtain ⟨h1, h2⟩ := clear_head_on h (b := ⟨⟨-1, -1, 1⟩, ⟨1, 1, 3⟩⟩) (by refine ⟨?_, ?_, ?_⟩ <;> norm_num) k
    (r := (0, ⟨0, 0, 1⟩)) (a := ⟨1, 0, ⟨0, 0, -1⟩, ⟨0, 0, 1 - eps⟩⟩) ball_first (by ext <;> simp) hbox hm hdark hc he hi
  refine ⟨fun hne => ?_, h2⟩
  obtain ⟨g1, g2⟩ := h1 hne
  obtain ⟨hl, hl'⟩ := litRoom_lawful h ballBox
  have hW : W.Lawful := room_lawful _ hl'
  have hesc : W.escapes (⟨0, 0, 1 - eps⟩, ⟨0, 0, -1⟩) = true := by
    show (!(hitOf ballScene ballBox _).isSome) = true
    rw [ball_back]; rfl
  constructor
  · intro look
    refine (g1 look).trans ?_
    refine (rendering_equation W hW k true _).trans ?_
    rw [if_pos hesc]; rfl
  · refine g2.trans ?_
    refine (seenLight_eq W hW k _).trans ?_
    rw [if_pos hesc]; rfl

/-- White glass. -/
noncomputable def whiteGlass (int ext : ℝ) : Look := ⟨.glass, ⟨1, 1, 1⟩, int, ext, fun _ => 0⟩

/-- A sky that is white in front of the viewer and black behind. -/
noncomputable def frontSky (d : V3 ℝ) : V3 ℝ := open Classical in if 0 < d.z then ⟨1, 1, 1⟩ else 0

theorem front_setting (int ext : ℝ) : Setting [.sphere ⟨0, 0, 2⟩ 1] (fun _ => whiteGlass int ext) frontSky [] 1 1 0 1 := by
  have one : ∀ k : Fin 3, (⟨1, 1, 1⟩ : V3 ℝ).get k = 1 := by intro k; fin_cases k <;> rfl
  refine ⟨?_, fun _ => ⟨?_, fun _ => NonNeg.zero, measurable_const⟩, fun _ k => (one k).le, fun _ _ k => ?_, ?_, fun d => ?_, fun d k => ?_,
    by simp, by simp, by simp⟩
  · simp [Shape.WellFormed]
  · exact ⟨zero_le_one, zero_le_one, zero_le_one⟩
  · show (0 : V3 ℝ).get k ≤ 1
    rw [get_zero]; exact zero_le_one
  · unfold frontSky
    classical
    exact Measurable.ite (measurableSet_lt measurable_const Warp.measurable_z) measurable_const measurable_const
  · unfold frontSky
    split_ifs
    · exact ⟨zero_le_one, zero_le_one, zero_le_one⟩
    · exact NonNeg.zero
  · unfold frontSky
    split_ifs
    · exact (one k).le
    · rw [get_zero]; exact zero_le_one

/-- **C138, violated.** A ray that meets a ball of white glass head on passes both surfaces undeviated and would bring back the sky behind the
ball, at least weakened by the two reflections. With every pair of indices of refraction, also equal ones, where the whole of it would
arrive, none of it does: the sky there is white, and the ball is black, in path tracing and in Whitted's integrator. -/
theorem clear_ball_refuted (int ext : ℝ) (hi : 0 < int) (he : 0 < ext) :
    let W := (litRoom ballScene ballBox (fun _ => whiteGlass int ext) frontSky []).world
    let F := ((ext - int) / (ext + int)) ^ 2
    ∀ k : Fin 3, W.light k true (0, ⟨0, 0, 1⟩) = 0 ∧ W.seenLight k (0, ⟨0, 0, 1⟩) = 0 ∧
      0 < ENNReal.ofReal ((1 - F) ^ 2 * (frontSky ⟨0, 0, 1⟩).get k) ∧
      ¬ ENNReal.ofReal ((1 - F) ^ 2 * (frontSky ⟨0, 0, 1⟩).get k) ≤ W.light k true (0, ⟨0, 0, 1⟩) := by
  intro W F k
  have one : (⟨1, 1, 1⟩ : V3 ℝ).get k = 1 := by fin_cases k <;> rfl
  have hs : (frontSky ⟨0, 0, 1⟩).get k = 1 := by unfold frontSky; rw [if_pos (by norm_num)]; exact one
  have hbk : (frontSky ⟨0, 0, -1⟩).get k = 0 := by unfold frontSky; rw [if_neg (by norm_num), get_zero]
  have hF : F < 1 := by
    show ((ext - int) / (ext + int)) ^ 2 < 1
    rw [div_pow, div_lt_one (by positivity)]
    nlinarith [mul_pos hi he]
  obtain ⟨h1, h2⟩ := ball_shows (front_setting int ext) k rfl (fun _ => rfl) one he hi
  have hpos : 0 < ENNReal.ofReal ((1 - F) ^ 2 * (frontSky ⟨0, 0, 1⟩).get k) := by
    rw [hs, mul_one]
    have : 0 < 1 - F := by linarith
    exact ENNReal.ofReal_pos.2 (by positivity)
  have hz : W.light k true (0, ⟨0, 0, 1⟩) = 0 ∧ W.seenLight k (0, ⟨0, 0, 1⟩) = 0 := by
    by_cases hie : ext = int
    · exact ⟨(h2 hie).1 true, (h2 hie).2⟩
    · obtain ⟨g1, g2⟩ := h1 hie
      rw [hbk, ENNReal.ofReal_zero] at g1 g2
      exact ⟨g1 true, g2⟩
  refine ⟨hz.1, hz.2, hpos, ?_⟩
  rw [hz.1]
  exact not_le.2 hpos

/-- The rays of `creeping` exist: the ray from the centre of the ball to its surface is inside. -/
example : Within [.sphere ⟨0, 0, 2⟩ 1] ⟨⟨-1, -1, 1⟩, ⟨1, 1, 3⟩⟩ (⟨0, 0, 2⟩, ⟨0, 0, 1⟩) := by
  have he : eps = 1 / 1000 := rfl
  refine ⟨by simp [sqrNorm], ⟨_, List.mem_singleton_self _, ?_⟩, ?_⟩
  · show (_ : V3 ℝ).norm ≤ 1
    rw [axis_norm _ (by simp) (by simp)]
    simp [he]
    norm_num
  · rw [he]
    refine ⟨⟨?_, ?_, ?_⟩, ?_, ?_, ?_⟩ <;> simp <;> norm_num

end Feign.Sdf
