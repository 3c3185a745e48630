import Verif.Sdf.NormalLemmas
import Verif.Sdf.QueryProps
import Mathlib.Tactic.NormNum

/-!
# The normal of a hit on a distance function (C115)

The normal is taken from central differences of the scene's distance, with the hit tolerance as the step.
The statements are about hits reported by the marching loop, in scenes with any number of shapes, where
no other shape is within three tolerances of the hit.
-/

set_option linter.unusedSectionVars false

namespace Feign.Sdf
open Feign.V3

/-- Shape `i` is the only one around `p`: every other solid is at least three tolerances away. -/
def Alone (ss : List Shape) (i : ℕ) (p : V3 ℝ) : Prop :=
  ∀ j t, j ≠ i → ss[j]? = some t → ∀ q ∈ t.solid, 3 * eps ≤ dist p q

/-- `x` is a surface point of the solid `S` with outward unit normal `n`: `S` lies behind the plane
through `x` across `n`, and contains a ball of radius `ρ` that touches this plane at `x`. -/
structure SurfacePoint (S : Set (V3 ℝ)) (x n : V3 ℝ) (ρ : ℝ) : Prop where
  unit : n.norm = 1
  behind : ∀ q ∈ S, (q - x).dot n ≤ 0
  inner : ∀ q, dist q (x - n.smul ρ) ≤ ρ → q ∈ S

/-! ## Curved surfaces -/

/-- C115: where the surface can be touched by a ball of radius `ρ` from inside, the reported normal is a
unit vector within `4/3 · tolerance / ρ` of the surface normal. -/
theorem hit_normal_close_partial (ss : List Shape) (hw : ∀ s ∈ ss, s.WellFormed) (r : Ray ℝ)
    (far : Ext ℝ) (steps : ℕ) (start : ℝ) (h : Hit)
    (hm : march (evals ss) r far steps start = .ok (.hit h))
    (s : Shape) (hs : ss[h.shape]? = some s) (ha : Alone ss h.shape (r.point h.t))
    (x n : V3 ℝ) (ρ σ : ℝ) (hρ : 4 * eps ≤ ρ) (hx : SurfacePoint s.solid x n ρ)
    (hσ : -eps ≤ σ) (hp : r.point h.t = x + n.smul σ) :
    h.normal.norm = 1 ∧ (h.normal - n).norm ≤ 4 / 3 * (eps / ρ) := by
  have he : (0 : ℝ) < eps := by unfold eps; norm_num
  obtain ⟨sd, hev, hsd, hn⟩ := march_hit _ _ _ _ _ _ hm
  obtain ⟨F, hF, hFp, -, hFv⟩ := value_around ss hw _ _ sd hev hsd s hs ha
  rw [hp] at hn hFp hFv
  have hρ0 : 0 < ρ := by linarith
  have hn2 : n.sqrNorm = 1 := by rw [← norm_sq, hx.unit, one_mul]
  -- the distance is at least the height over the tangent plane
  have lower : ∀ q, (q - x).dot n ≤ F q := by
    intro q
    rcases lt_or_ge 0 (F q) with hq | hq
    · obtain ⟨y, hy, hd⟩ := hF.outside_attained q hq
      have h1 := hx.behind y hy
      have h2 := dot_le (q - y) n
      rw [hx.unit, mul_one] at h2
      have h3 : (q - x).dot n = (q - y).dot n + (y - x).dot n := by
        simp only [dot, sub_x, sub_y, sub_z]; ring
      unfold dist at hd
      linarith
    · have hq' := hx.behind q ((hF.inside_iff q).mp hq)
      by_contra hc
      rw [not_le] at hc
      set m := (q - x).dot n with hmd
      obtain ⟨t, ht0, ht1⟩ : ∃ t, 0 < t ∧ F q < m - t := ⟨(m - F q) / 2, by linarith, by linarith⟩
      have hy : q + n.smul (-m + t) ∉ s.solid := by
        intro hy
        have h1 := hx.behind _ hy
        have h2 : (q + n.smul (-m + t) - x).dot n = m + (-m + t) * n.sqrNorm := by
          rw [hmd]
          simp only [dot, sqrNorm, sub_x, sub_y, sub_z, add_x, add_y, add_z, smul_x, smul_y, smul_z]
          ring
        rw [h2, hn2] at h1
        linarith
      have h1 := hF.inside_le q _ hy
      have h2 : dist q (q + n.smul (-m + t)) = -m + t := by
        unfold dist
        have : q - (q + n.smul (-m + t)) = n.smul (-(-m + t)) := by
          ext <;> simp only [sub_x, sub_y, sub_z, add_x, add_y, add_z, smul_x, smul_y, smul_z] <;> ring
        rw [this, norm_smul', hx.unit, one_mul, abs_neg, abs_of_nonneg (by linarith)]
      rw [h2] at h1
      linarith
  -- and at most the distance to the inner ball
  have hc : F (x - n.smul ρ) ≤ -ρ := by
    have hin : F (x - n.smul ρ) ≤ 0 :=
      (hF.inside_iff _).mpr (hx.inner _ (by rw [dist_self]; exact hρ0.le))
    by_contra hcon
    rw [not_le] at hcon
    obtain ⟨y, hy, hd⟩ := hF.inside_approached _ hin ((ρ + F (x - n.smul ρ)) / 2) (by linarith)
    apply hy
    apply hx.inner
    rw [dist_comm]
    linarith
  have upper : ∀ e : V3 ℝ, e.sqrNorm = eps * eps →
      F (x + n.smul σ + e) ≤ σ + n.dot e + eps * eps / (2 * (ρ + σ)) := by
    intro e hee
    have h1 := (abs_le.mp (hF.lipschitz (x + n.smul σ + e) (x - n.smul ρ))).2
    have h2 : x + n.smul σ + e - (x - n.smul ρ) = n.smul (ρ + σ) + e := by
      ext <;> simp only [sub_x, sub_y, sub_z, add_x, add_y, add_z, smul_x, smul_y, smul_z] <;> ring
    have h3 := norm_long n e hx.unit (ρ + σ) (by linarith)
    unfold dist at h1
    rw [h2] at h1
    rw [hee] at h3
    linarith
  have low' : ∀ e : V3 ℝ, σ + n.dot e ≤ F (x + n.smul σ + e) := by
    intro e
    refine le_trans (le_of_eq ?_) (lower _)
    have : (x + n.smul σ + e - x).dot n = σ * n.sqrNorm + n.dot e := by
      simp only [dot, sqrNorm, sub_x, sub_y, sub_z, add_x, add_y, add_z, smul_x, smul_y, smul_z]; ring
    rw [this, hn2, mul_one]
  set E := eps * eps / (2 * (ρ + σ)) with hE
  have hE0 : 0 ≤ E := by have : 0 < ρ + σ := by linarith
                         positivity
  have diff : ∀ e : V3 ℝ, e.sqrNorm = eps * eps →
      |F (x + n.smul σ + e) - F (x + n.smul σ - e) - 2 * n.dot e| ≤ E := by
    intro e hee
    have hneg : x + n.smul σ - e = x + n.smul σ + -e := by
      ext <;> simp only [sub_x, sub_y, sub_z, add_x, add_y, add_z, neg_x, neg_y, neg_z] <;> ring
    have hee' : (-e).sqrNorm = eps * eps := by
      rw [← hee]; simp only [sqrNorm, neg_x, neg_y, neg_z]; ring
    have hdn : n.dot (-e) = -n.dot e := by simp only [dot, neg_x, neg_y, neg_z]; ring
    rw [hneg]
    have a1 := upper e hee
    have a2 := low' e
    have b1 := upper (-e) hee'
    have b2 := low' (-e)
    rw [hdn] at b1 b2
    exact abs_le.mpr ⟨by linarith, by linarith⟩
  have dx := diff ⟨eps, 0, 0⟩ (by simp [sqrNorm])
  have dy := diff ⟨0, eps, 0⟩ (by simp [sqrNorm])
  have dz := diff ⟨0, 0, eps⟩ (by simp [sqrNorm])
  have ex : n.dot (⟨eps, 0, 0⟩ : V3 ℝ) = eps * n.x := by simp only [dot]; ring
  have ey : n.dot (⟨0, eps, 0⟩ : V3 ℝ) = eps * n.y := by simp only [dot]; ring
  have ez : n.dot (⟨0, 0, eps⟩ : V3 ℝ) = eps * n.z := by simp only [dot]; ring
  rw [ex] at dx
  rw [ey] at dy
  rw [ez] at dz
  set v : V3 ℝ := ⟨F (x + n.smul σ + ⟨eps, 0, 0⟩) - F (x + n.smul σ - ⟨eps, 0, 0⟩),
    F (x + n.smul σ + ⟨0, eps, 0⟩) - F (x + n.smul σ - ⟨0, eps, 0⟩),
    F (x + n.smul σ + ⟨0, 0, eps⟩) - F (x + n.smul σ - ⟨0, 0, eps⟩)⟩ with hv
  change |v.x - _| ≤ _ at dx
  change |v.y - _| ≤ _ at dy
  change |v.z - _| ≤ _ at dz
  -- the error after scaling
  have hEρ : E ≤ 2 * eps * (1 / 3 * (eps / ρ)) := by
    rw [hE, div_le_iff₀ (by linarith)]
    have hk : ρ * (3 / 4) ≤ ρ + σ := by linarith
    have : 2 * eps * (1 / 3 * (eps / ρ)) * (2 * (ρ * (3 / 4))) = eps * eps := by
      field_simp; ring
    calc eps * eps = 2 * eps * (1 / 3 * (eps / ρ)) * (2 * (ρ * (3 / 4))) := this.symm
      _ ≤ 2 * eps * (1 / 3 * (eps / ρ)) * (2 * (ρ + σ)) := by gcongr
  set δ := 1 / 3 * (eps / ρ) with hδ
  have hδ0 : 0 ≤ δ := by positivity
  have hδ1 : 2 * δ < 1 := by
    have : eps / ρ ≤ 1 / 4 := by rw [div_le_iff₀ hρ0]; linarith
    rw [hδ]; linarith
  set w : V3 ℝ := v.smul (1 / (2 * eps)) with hwd
  have comp : ∀ a b : ℝ, |a - 2 * (eps * b)| ≤ E → |a * (1 / (2 * eps)) - b| ≤ δ := by
    intro a b hab
    have : a * (1 / (2 * eps)) - b = (a - 2 * (eps * b)) / (2 * eps) := by field_simp
    rw [this, abs_div, abs_of_pos (by linarith : (0 : ℝ) < 2 * eps), div_le_iff₀ (by linarith)]
    linarith
  have hclose : (w - n).norm ≤ 2 * δ := by
    apply norm_le_of_sq (by linarith)
    have sq : ∀ a : ℝ, |a| ≤ δ → a * a ≤ δ * δ := by
      intro a h1
      have := abs_le.mp h1
      nlinarith
    have c1 := sq _ (comp _ _ dx)
    have c2 := sq _ (comp _ _ dy)
    have c3 := sq _ (comp _ _ dz)
    simp only [sqrNorm, hwd, sub_x, sub_y, sub_z, smul_x, smul_y, smul_z]
    nlinarith [mul_self_nonneg δ]
  obtain ⟨hw0, u, hu, hun, hud⟩ := normalized_close w n hx.unit (2 * δ) hδ1 hclose
  have hv0 : v ≠ 0 := by
    rintro e
    apply hw0
    rw [hwd, e]; ext <;> simp
  have hsame : w.normalized = v.normalized := by
    have hpos : (0 : ℝ) < 1 / (2 * eps) := by positivity
    have hvn : v.norm ≠ 0 := fun e => hv0 ((norm_eq_zero v).mp e)
    have hwn : w.norm = v.norm * (1 / (2 * eps)) := by rw [hwd, norm_smul', abs_of_pos hpos]
    unfold normalized
    rw [if_neg hvn, if_neg (by rw [hwn]; exact mul_ne_zero hvn hpos.ne'), hwn]
    congr 1
    ext <;> simp only [hwd, smul_x, smul_y, smul_z] <;> field_simp
  rw [sdNormal_of_value (evals ss) _ F hFv v rfl rfl rfl hv0, ← hsame, hu] at hn
  cases hn
  refine ⟨hun, hud.trans (le_of_eq ?_)⟩
  rw [hδ]; ring

/-! ## Flat surfaces -/

/-- C115: where the surface is flat (around the hit the solid is a half space) the reported normal is
exactly the outward normal of the half space. -/
theorem hit_normal_flat_partial (ss : List Shape) (hw : ∀ s ∈ ss, s.WellFormed) (r : Ray ℝ)
    (far : Ext ℝ) (steps : ℕ) (start : ℝ) (h : Hit)
    (hm : march (evals ss) r far steps start = .ok (.hit h))
    (s : Shape) (hs : ss[h.shape]? = some s) (ha : Alone ss h.shape (r.point h.t))
    (n : V3 ℝ) (c : ℝ) (hnu : n.norm = 1)
    (hflat : ∀ q, dist (r.point h.t) q ≤ 4 * eps → (q ∈ s.solid ↔ q.dot n ≤ c))
    (hdeep : -eps ≤ (r.point h.t).dot n - c) :
    h.normal = n := by
  have he : (0 : ℝ) < eps := by unfold eps; norm_num
  obtain ⟨sd, hev, hsd, hn⟩ := march_hit _ _ _ _ _ _ hm
  obtain ⟨F, hF, hFp, -, hFv⟩ := value_around ss hw _ _ sd hev hsd s hs ha
  set p := r.point h.t with hpd
  have hn2 : n.sqrNorm = 1 := by rw [← norm_sq, hnu, one_mul]
  have hlip : ∀ a b : V3 ℝ, |a.dot n - b.dot n| ≤ dist a b := by
    intro a b
    have h1 := abs_dot_le (a - b) n
    rw [hnu, mul_one] at h1
    have h2 : (a - b).dot n = a.dot n - b.dot n := by simp only [dot, sub_x, sub_y, sub_z]; ring
    rw [h2] at h1
    exact h1
  have hmove : ∀ (q : V3 ℝ) (t : ℝ), (q + n.smul t).dot n = q.dot n + t ∧
      dist q (q + n.smul t) = |t| := by
    intro q t
    constructor
    · have : (q + n.smul t).dot n = q.dot n + t * n.sqrNorm := by
        simp only [dot, sqrNorm, add_x, add_y, add_z, smul_x, smul_y, smul_z]; ring
      rw [this, hn2, mul_one]
    · unfold dist
      have : q - (q + n.smul t) = n.smul (-t) := by ext <;> simp
      rw [this, norm_smul', hnu, one_mul, abs_neg]
  have hup : p.dot n - c ≤ eps := by
    rcases lt_or_ge 0 (F p) with h0 | h0
    · obtain ⟨y, hy, hd⟩ := hF.outside_attained p h0
      have h1 := (hflat y (by linarith)).mp hy
      have := (abs_le.mp (hlip p y)).2
      linarith
    · have h1 := (hflat p (by rw [dist_self]; linarith)).mp ((hF.inside_iff p).mp h0)
      linarith
  have key : ∀ q, dist p q ≤ eps → F q = q.dot n - c := by
    intro q hq
    have hq1 := abs_le.mp (hlip p q)
    have hq2 : |q.dot n - c| ≤ 2 * eps := abs_le.mpr ⟨by linarith, by linarith⟩
    have hq3 := abs_le.mp hq2
    have tri : ∀ y, dist q y ≤ 3 * eps → dist p y ≤ 4 * eps := by
      intro y hy
      have := dist_triangle p q y
      linarith
    rcases lt_or_ge 0 (q.dot n - c) with hpos | hneg
    · have hout : 0 < F q := by
        by_contra hc
        have := (hflat q (tri q (by rw [dist_self]; linarith))).mp
          ((hF.inside_iff q).mp (not_lt.mp hc))
        linarith
      apply le_antisymm
      · obtain ⟨h1, h2⟩ := hmove q (-(q.dot n - c))
        rw [abs_neg, abs_of_pos hpos] at h2
        have hy : q + n.smul (-(q.dot n - c)) ∈ s.solid := by
          refine (hflat _ (tri _ ?_)).mpr ?_
          · rw [h2]; linarith
          · rw [h1]; linarith
        have := hF.outside_le q _ hy
        rw [h2] at this
        exact this
      · obtain ⟨y, hy, hd⟩ := hF.outside_attained q hout
        by_contra hc
        rw [not_le] at hc
        have h1 := (hflat y (tri y (by linarith))).mp hy
        have := (abs_le.mp (hlip q y)).2
        linarith
    · have hin : F q ≤ 0 := by
        rw [hF.inside_iff]
        exact (hflat q (tri q (by rw [dist_self]; linarith))).mpr (by linarith)
      apply le_antisymm
      · by_contra hc
        rw [not_le] at hc
        obtain ⟨y, hy, hd⟩ := hF.inside_approached q hin ((F q - (q.dot n - c)) / 2) (by linarith)
        have h1 : ¬ y.dot n ≤ c := fun hle => hy ((hflat y (tri y (by linarith))).mpr hle)
        have := (abs_le.mp (hlip q y)).1
        linarith
      · by_contra hc
        rw [not_le] at hc
        obtain ⟨t, ht0, ht1, ht2⟩ : ∃ t, 0 < t ∧ t ≤ eps ∧ F q < q.dot n - c - t := by
          refine ⟨min eps ((q.dot n - c - F q) / 2), lt_min he (by linarith), min_le_left _ _, ?_⟩
          have := min_le_right eps ((q.dot n - c - F q) / 2)
          linarith
        obtain ⟨h1, h2⟩ := hmove q (-(q.dot n - c) + t)
        rw [abs_of_pos (by linarith)] at h2
        have hy : q + n.smul (-(q.dot n - c) + t) ∉ s.solid := by
          intro hy
          have := (hflat _ (tri _ (by rw [h2]; linarith))).mp hy
          rw [h1] at this
          linarith
        have := hF.inside_le q _ hy
        rw [h2] at this
        linarith
  have hd : ∀ e : V3 ℝ, e.norm ≤ eps → F (p + e) - F (p - e) = 2 * n.dot e := by
    intro e hen
    rw [key (p + e), key (p - e)]
    · simp only [dot, add_x, add_y, add_z, sub_x, sub_y, sub_z]; ring
    · unfold dist
      have : p - (p - e) = e := by ext <;> simp
      rw [this]; exact hen
    · unfold dist
      have : p - (p + e) = -e := by ext <;> simp
      rw [this, norm_neg']; exact hen
  obtain ⟨h1, h2⟩ := normalized_exact n hnu (2 * eps) (by linarith)
  rw [sdNormal_of_value (evals ss) p F hFv (n.smul (2 * eps)) ?_ ?_ ?_ h1, h2] at hn
  · cases hn; rfl
  · rw [hd _ (norm_le_of_sq he.le (by simp [sqrNorm]))]; simp only [dot, smul_x]; ring
  · rw [hd _ (norm_le_of_sq he.le (by simp [sqrNorm]))]; simp only [dot, smul_y]; ring
  · rw [hd _ (norm_le_of_sq he.le (by simp [sqrNorm]))]; simp only [dot, smul_z]; ring

/-! ## The primitives -/

/-- The surface of a ball. -/
theorem sphere_surface (c n : V3 ℝ) (hn : n.norm = 1) (ρ : ℝ) :
    SurfacePoint (ball c ρ) (c + n.smul ρ) n ρ := by
  have hn2 : n.sqrNorm = 1 := by rw [← norm_sq, hn, one_mul]
  refine ⟨hn, ?_, ?_⟩
  · intro q hq
    have h1 := dot_le (q - c) n
    rw [hn, mul_one] at h1
    have h2 : (q - (c + n.smul ρ)).dot n = (q - c).dot n - ρ * n.sqrNorm := by
      simp only [dot, sqrNorm, sub_x, sub_y, sub_z, add_x, add_y, add_z, smul_x, smul_y, smul_z]; ring
    rw [h2, hn2, mul_one]
    have h3 : (q - c).norm ≤ ρ := hq
    linarith
  · intro q hq
    have : c + n.smul ρ - n.smul ρ = c := by
      ext <;> simp
    rw [this] at hq
    exact hq

/-- C115 for spheres: the normal of a hit is within `4/3 · tolerance / radius` of the direction from the
centre to the hit. -/
theorem hit_normal_sphere (ss : List Shape) (hw : ∀ s ∈ ss, s.WellFormed) (r : Ray ℝ)
    (far : Ext ℝ) (steps : ℕ) (start : ℝ) (h : Hit)
    (hm : march (evals ss) r far steps start = .ok (.hit h))
    (c : V3 ℝ) (ρ : ℝ) (hs : ss[h.shape]? = some (.sphere c ρ)) (hρ : 4 * eps ≤ ρ)
    (ha : Alone ss h.shape (r.point h.t)) (hdeep : ρ - eps ≤ dist (r.point h.t) c) :
    ∃ u : V3 ℝ, u.norm = 1 ∧ r.point h.t - c = u.smul (dist (r.point h.t) c) ∧
      h.normal.norm = 1 ∧ (h.normal - u).norm ≤ 4 / 3 * (eps / ρ) := by
  have he : (0 : ℝ) < eps := by unfold eps; norm_num
  have hne : r.point h.t - c ≠ 0 := by
    intro e
    unfold dist at hdeep
    rw [(norm_eq_zero _).mpr e] at hdeep
    linarith
  obtain ⟨u, -, h1, h2⟩ := normalized_spec _ hne
  have hu : u.norm = 1 := by rw [norm_eq, h1, Real.sqrt_one]
  refine ⟨u, hu, h2.symm, ?_⟩
  refine hit_normal_close_partial ss hw r far steps start h hm _ hs ha _ u ρ
    (dist (r.point h.t) c - ρ) hρ (sphere_surface c u hu ρ) (by linarith) ?_
  have hx := congrArg V3.x h2
  have hy := congrArg V3.y h2
  have hz := congrArg V3.z h2
  simp only [sub_x, sub_y, sub_z, smul_x, smul_y, smul_z] at hx hy hz
  unfold dist
  ext <;> simp only [add_x, add_y, add_z, smul_x, smul_y, smul_z] <;> linarith

/-- The slanted surface of a cone frustum (and, with equal radii, of a cylinder): at height `t` of the
axis, in the direction `w` across the axis, with the outward normal of the slope. -/
theorem cone_surface (a b w : V3 ℝ) (ra rb t ρ : ℝ) (hab : a ≠ b) (hw : w.dot (b - a) = 0)
    (hwr : w.norm = ra + t * (rb - ra)) (hw0 : 0 < w.norm)
    (K : ℝ) (hK0 : 0 < K) (hK : K * K = (rb - ra) * (rb - ra) + len a b * len a b)
    (hrad : ρ * (len a b / K) ≤ w.norm)
    (hlow : ρ ≤ len a b * t + ρ * ((rb - ra) / K))
    (hhigh : len a b * t + ρ * ((rb - ra) / K) ≤ len a b - ρ) :
    SurfacePoint (Shape.cone a b ra rb).solid (a + (b - a).smul t + w)
      (w.smul (len a b / (K * w.norm)) - (b - a).smul ((rb - ra) / (K * len a b))) ρ := by
  have hL := len_pos hab
  have hLL := len_sq a b
  have hbb := axis_ne hab
  have hww := norm_sq w
  set L := len a b with hLd
  set W := w.norm with hWd
  set n : V3 ℝ := w.smul (L / (K * W)) - (b - a).smul ((rb - ra) / (K * L)) with hnd
  set x := a + (b - a).smul t + w with hxd
  rw [dot_self] at hLL hbb
  have hnn : n.sqrNorm = 1 := by
    have h1 : n.sqrNorm = (L / (K * W)) * (L / (K * W)) * w.sqrNorm
        - 2 * (L / (K * W)) * ((rb - ra) / (K * L)) * w.dot (b - a)
        + ((rb - ra) / (K * L)) * ((rb - ra) / (K * L)) * (b - a).sqrNorm := by
      rw [hnd]; simp only [sqrNorm, dot, sub_x, sub_y, sub_z, smul_x, smul_y, smul_z]; ring
    rw [h1, hw, ← hww, ← hLL]
    field_simp
    nlinarith
  have hn1 : n.norm = 1 := by rw [norm_eq, hnn, Real.sqrt_one]
  -- coordinates of a point on the normal line
  have hh : ∀ s : ℝ, hgt a b (x - n.smul s) = t + s * ((rb - ra) / (K * L)) := by
    intro s
    unfold hgt
    have h1 : (x - n.smul s - a).dot (b - a) =
        (t + s * ((rb - ra) / (K * L))) * (b - a).sqrNorm + (1 - s * (L / (K * W))) * w.dot (b - a) := by
      rw [hxd, hnd]
      simp only [sqrNorm, dot, sub_x, sub_y, sub_z, add_x, add_y, add_z, smul_x, smul_y, smul_z]; ring
    rw [h1, hw, mul_zero, add_zero, dot_self, mul_div_assoc, div_self hbb, mul_one]
  have hp : ∀ s : ℝ, perp (b - a) (x - n.smul s - a) = w.smul (1 - s * (L / (K * W))) := by
    intro s
    have h1 := hh s
    unfold hgt at h1
    unfold perp
    rw [h1, hxd, hnd]
    ext <;> simp only [sub_x, sub_y, sub_z, add_x, add_y, add_z, smul_x, smul_y, smul_z] <;> ring
  have hr : rad a b (x - n.smul ρ) = W - ρ * (L / K) := by
    unfold rad
    rw [hp, norm_smul', ← hWd]
    have : 0 ≤ 1 - ρ * (L / (K * W)) := by
      have : ρ * (L / (K * W)) = ρ * (L / K) / W := by field_simp
      rw [this, sub_nonneg, div_le_one hw0]
      exact hrad
    rw [abs_of_nonneg this]
    field_simp
  refine ⟨hn1, ?_, ?_⟩
  · intro q hq
    obtain ⟨τ, y, h0, h1, hy, hyr, rfl⟩ := hq
    have e1 : (a + (b - a).smul τ + y - x).dot n =
        (L / (K * W)) * (w.dot y - w.sqrNorm) - ((rb - ra) / (K * L)) * (τ - t) * (b - a).sqrNorm
        + (L / (K * W)) * (τ - t) * w.dot (b - a)
        - ((rb - ra) / (K * L)) * (y.dot (b - a) - w.dot (b - a)) := by
      rw [hxd, hnd]
      simp only [sqrNorm, dot, sub_x, sub_y, sub_z, add_x, add_y, add_z, smul_x, smul_y, smul_z]; ring
    rw [e1, hw, hy, ← hww, ← hLL]
    have h2 := dot_le w y
    rw [← hWd] at h2
    have h3 : w.dot y ≤ W * (ra + τ * (rb - ra)) :=
      h2.trans (mul_le_mul_of_nonneg_left hyr hw0.le)
    have h4 : L / (K * W) * (w.dot y - W * W) ≤ L / (K * W) * (W * (τ * (rb - ra) - t * (rb - ra))) := by
      apply mul_le_mul_of_nonneg_left _ (by positivity)
      nlinarith
    have h5 : L / (K * W) * (W * (τ * (rb - ra) - t * (rb - ra))) =
        (rb - ra) / (K * L) * (τ - t) * (L * L) := by field_simp
    linarith
  · intro q hq
    show q ∈ frustum a b ra rb
    rw [mem_frustum hab]
    have hc := coords_dist hab q (x - n.smul ρ)
    rw [hr, hh] at hc
    have hle := hc.trans hq
    rw [← hLd] at hle
    exact cone_inner hL hK0 hK hwr hlow hhigh hle

/-- C115 for the slanted surface of a cone frustum: at a hit `σ` away from the surface point of
`cone_surface`, along the outward normal of the slope, the reported normal is within
`4/3 · tolerance / ρ` of it. -/
theorem hit_normal_cone (ss : List Shape) (hw : ∀ s ∈ ss, s.WellFormed) (r : Ray ℝ)
    (far : Ext ℝ) (steps : ℕ) (start : ℝ) (h : Hit)
    (hm : march (evals ss) r far steps start = .ok (.hit h))
    (a b w : V3 ℝ) (ra rb t ρ σ : ℝ) (hs : ss[h.shape]? = some (.cone a b ra rb)) (hab : a ≠ b)
    (ha : Alone ss h.shape (r.point h.t)) (hwa : w.dot (b - a) = 0)
    (hwr : w.norm = ra + t * (rb - ra)) (hw0 : 0 < w.norm) (hρ : 4 * eps ≤ ρ)
    (K : ℝ) (hK0 : 0 < K) (hK : K * K = (rb - ra) * (rb - ra) + len a b * len a b)
    (hrad : ρ * (len a b / K) ≤ w.norm)
    (hlow : ρ ≤ len a b * t + ρ * ((rb - ra) / K))
    (hhigh : len a b * t + ρ * ((rb - ra) / K) ≤ len a b - ρ) (hσ : -eps ≤ σ) (n : V3 ℝ)
    (hn : n = w.smul (len a b / (K * w.norm)) - (b - a).smul ((rb - ra) / (K * len a b)))
    (hp : r.point h.t = a + (b - a).smul t + w + n.smul σ) :
    h.normal.norm = 1 ∧ (h.normal - n).norm ≤ 4 / 3 * (eps / ρ) := by
  have hsurf := cone_surface a b w ra rb t ρ hab hwa hwr hw0 K hK0 hK hrad hlow hhigh
  rw [← hn] at hsurf
  exact hit_normal_close_partial ss hw r far steps start h hm _ hs ha _ n ρ σ hρ hsurf hσ hp

/-- The half spaces whose intersection is a box: outward normal and offset of each face. -/
def faces (tlc brc : V3 ℝ) : List (V3 ℝ × ℝ) :=
  [(⟨1, 0, 0⟩, tlc.x), (⟨-1, 0, 0⟩, -brc.x), (⟨0, 1, 0⟩, tlc.y), (⟨0, -1, 0⟩, -brc.y),
   (⟨0, 0, 1⟩, tlc.z), (⟨0, 0, -1⟩, -brc.z)]

theorem mem_box_iff (tlc brc q : V3 ℝ) :
    q ∈ (Shape.box tlc brc).solid ↔ ∀ f ∈ faces tlc brc, q.dot f.1 ≤ f.2 := by
  show (brc.le q ∧ q.le tlc) ↔ _
  simp only [faces, List.forall_mem_cons, List.not_mem_nil, false_implies, implies_true, and_true,
    dot, V3.le]
  constructor
  · rintro ⟨⟨h1, h2, h3⟩, h4, h5, h6⟩
    refine ⟨?_, ?_, ?_, ?_, ?_, ?_⟩ <;> linarith
  · rintro ⟨h1, h2, h3, h4, h5, h6⟩
    refine ⟨⟨?_, ?_, ?_⟩, ?_, ?_, ?_⟩ <;> linarith

/-- C115 for boxes: a hit on a face, four tolerances away from the planes of the other faces, reports
exactly the outward normal of the face. -/
theorem hit_normal_box (ss : List Shape) (hw : ∀ s ∈ ss, s.WellFormed) (r : Ray ℝ)
    (far : Ext ℝ) (steps : ℕ) (start : ℝ) (h : Hit)
    (hm : march (evals ss) r far steps start = .ok (.hit h))
    (tlc brc : V3 ℝ) (hs : ss[h.shape]? = some (.box tlc brc)) (ha : Alone ss h.shape (r.point h.t))
    (n : V3 ℝ) (c : ℝ) (hf : (n, c) ∈ faces tlc brc)
    (hon : -eps ≤ (r.point h.t).dot n - c)
    (hoff : ∀ f ∈ faces tlc brc, f ≠ (n, c) → (r.point h.t).dot f.1 + 4 * eps ≤ f.2) :
    h.normal = n := by
  have hunit : ∀ f ∈ faces tlc brc, f.1.norm = 1 := by
    intro f hf
    have : f.1.sqrNorm = 1 := by
      simp only [faces, List.mem_cons, List.not_mem_nil, or_false] at hf
      rcases hf with rfl | rfl | rfl | rfl | rfl | rfl <;> simp [sqrNorm]
    rw [norm_eq, this, Real.sqrt_one]
  refine hit_normal_flat_partial ss hw r far steps start h hm _ hs ha n c (hunit _ hf) ?_ hon
  intro q hq
  rw [mem_box_iff]
  constructor
  · intro hall; exact hall _ hf
  · intro hle f hff
    by_cases hfe : f = (n, c)
    · rw [hfe]; exact hle
    · have h1 := hoff f hff hfe
      have h2 := abs_dot_le (r.point h.t - q) f.1
      rw [hunit f hff, mul_one] at h2
      have h3 : (r.point h.t - q).dot f.1 = (r.point h.t).dot f.1 - q.dot f.1 := by
        simp only [dot, sub_x, sub_y, sub_z]; ring
      rw [h3] at h2
      have := (abs_le.mp h2).1
      unfold dist at hq
      linarith

/-- The curved surface of a cylinder. -/
theorem cylinder_surface (a b w : V3 ℝ) (R t ρ : ℝ) (hab : a ≠ b) (hw : w.dot (b - a) = 0)
    (hwr : w.norm = R) (hR : 0 < R) (hρ : ρ ≤ R) (hlow : ρ ≤ len a b * t)
    (hhigh : len a b * t ≤ len a b - ρ) :
    SurfacePoint (Shape.cylinder a b R).solid (a + (b - a).smul t + w) (w.smul (1 / R)) ρ := by
  have hL := len_pos hab
  have h := cone_surface a b w R R t ρ hab hw (by rw [hwr]; ring) (by rw [hwr]; exact hR)
    (len a b) hL (by ring) (by rw [div_self hL.ne', mul_one, hwr]; exact hρ)
    (by rw [sub_self, zero_div, mul_zero, add_zero]; exact hlow)
    (by rw [sub_self, zero_div, mul_zero, add_zero]; exact hhigh)
  have e : w.smul (len a b / (len a b * w.norm)) - (b - a).smul ((R - R) / (len a b * len a b)) =
      w.smul (1 / R) := by
    rw [hwr, sub_self, zero_div]
    have : len a b / (len a b * R) = 1 / R := by field_simp
    rw [this]
    ext <;> simp
  rw [e] at h
  have e2 : (Shape.cylinder a b R).solid = (Shape.cone a b R R).solid := cylinderSet_eq a b R
  rw [e2]
  exact h

/-- C115 for the curved surface of a cylinder: at a hit whose foot on the surface is at least `ρ` from
both ends (`ρ` at most the radius), the normal is within `4/3 · tolerance / ρ` of the direction away from
the axis. -/
theorem hit_normal_cylinder (ss : List Shape) (hw : ∀ s ∈ ss, s.WellFormed) (r : Ray ℝ)
    (far : Ext ℝ) (steps : ℕ) (start : ℝ) (h : Hit)
    (hm : march (evals ss) r far steps start = .ok (.hit h))
    (a b : V3 ℝ) (R : ℝ) (hs : ss[h.shape]? = some (.cylinder a b R)) (hab : a ≠ b)
    (ha : Alone ss h.shape (r.point h.t)) (u : V3 ℝ) (t σ ρ : ℝ) (hu : u.norm = 1)
    (hua : u.dot (b - a) = 0) (hp : r.point h.t = a + (b - a).smul t + u.smul (R + σ))
    (hσ : -eps ≤ σ) (hρ : 4 * eps ≤ ρ) (hρR : ρ ≤ R) (hlow : ρ ≤ len a b * t)
    (hhigh : len a b * t ≤ len a b - ρ) :
    h.normal.norm = 1 ∧ (h.normal - u).norm ≤ 4 / 3 * (eps / ρ) := by
  have he : (0 : ℝ) < eps := by unfold eps; norm_num
  have hR : 0 < R := by linarith
  have hsurf := cylinder_surface a b (u.smul R) R t ρ hab
    (by
      have : (u.smul R).dot (b - a) = R * u.dot (b - a) := by
        simp only [dot, smul_x, smul_y, smul_z]; ring
      rw [this, hua, mul_zero])
    (by rw [norm_smul', hu, one_mul, abs_of_pos hR]) hR hρR hlow hhigh
  have e : (u.smul R).smul (1 / R) = u := by
    ext <;> simp only [smul_x, smul_y, smul_z] <;> field_simp
  rw [e] at hsurf
  refine hit_normal_close_partial ss hw r far steps start h hm _ hs ha _ u ρ σ hρ hsurf hσ ?_
  rw [hp]
  ext <;> simp only [add_x, add_y, add_z, smul_x, smul_y, smul_z] <;> ring

/-- C115 for the ends of a cylinder: a hit on the end at `b`, four tolerances away from the curved
surface and from the other end, reports exactly the direction of the axis. -/
theorem hit_normal_cylinder_end (ss : List Shape) (hw : ∀ s ∈ ss, s.WellFormed) (r : Ray ℝ)
    (far : Ext ℝ) (steps : ℕ) (start : ℝ) (h : Hit)
    (hm : march (evals ss) r far steps start = .ok (.hit h))
    (a b : V3 ℝ) (R : ℝ) (hs : ss[h.shape]? = some (.cylinder a b R)) (hab : a ≠ b)
    (ha : Alone ss h.shape (r.point h.t)) (w : V3 ℝ) (t : ℝ) (hwa : w.dot (b - a) = 0)
    (hp : r.point h.t = a + (b - a).smul t + w) (hrad : w.norm + 4 * eps ≤ R)
    (hfar : 4 * eps ≤ len a b * t) (hon : len a b - eps ≤ len a b * t) :
    h.normal = (b - a).smul (1 / len a b) := by
  have he : (0 : ℝ) < eps := by unfold eps; norm_num
  have hL := len_pos hab
  have hLL := len_sq a b
  have hbb := axis_ne hab
  have hhp : hgt a b (r.point h.t) = t := by
    unfold hgt
    have : (r.point h.t - a).dot (b - a) = t * (b - a).dot (b - a) + w.dot (b - a) := by
      rw [hp]; simp only [dot, sub_x, sub_y, sub_z, add_x, add_y, add_z, smul_x, smul_y, smul_z]; ring
    rw [this, hwa, add_zero, mul_div_assoc, div_self hbb, mul_one]
  have hrp : rad a b (r.point h.t) = w.norm := by
    unfold rad perp
    have h1 := hhp
    unfold hgt at h1
    rw [h1, hp]
    congr 1
    ext <;> simp only [sub_x, sub_y, sub_z, add_x, add_y, add_z, smul_x, smul_y, smul_z] <;> ring
  have hdot : ∀ q : V3 ℝ, q.dot ((b - a).smul (1 / len a b)) - a.dot ((b - a).smul (1 / len a b)) =
      len a b * hgt a b q := by
    intro q
    have h1 : q.dot ((b - a).smul (1 / len a b)) - a.dot ((b - a).smul (1 / len a b)) =
        (q - a).dot (b - a) * (1 / len a b) := by
      simp only [dot, sub_x, sub_y, sub_z, smul_x, smul_y, smul_z]; ring
    rw [h1]
    unfold hgt
    rw [← hLL]
    field_simp
  refine hit_normal_flat_partial ss hw r far steps start h hm _ hs ha _
    (a.dot ((b - a).smul (1 / len a b)) + len a b) ?_ ?_ ?_
  · rw [norm_smul', abs_of_pos (by positivity)]
    show len a b * _ = 1
    field_simp
  · intro q hq
    have e2 : (Shape.cylinder a b R).solid = frustum a b R R := cylinderSet_eq a b R
    rw [e2, mem_frustum hab]
    have hc := (coords_dist hab (r.point h.t) q).trans hq
    rw [hhp, hrp] at hc
    have hv : |len a b * (t - hgt a b q)| ≤ 4 * eps := by
      refine le_trans (Real.le_sqrt_of_sq_le ?_) hc
      rw [sq_abs]
      have := mul_self_nonneg (w.norm - rad a b q)
      have e : (len a b * (t - hgt a b q)) ^ 2 =
        (t - hgt a b q) * (t - hgt a b q) * (len a b * len a b) := by ring
      rw [e]; linarith
    have hr : |w.norm - rad a b q| ≤ 4 * eps := by
      refine le_trans (Real.le_sqrt_of_sq_le ?_) hc
      rw [sq_abs]
      have : 0 ≤ (t - hgt a b q) * (t - hgt a b q) * (len a b * len a b) :=
        mul_nonneg (mul_self_nonneg _) (mul_self_nonneg _)
      have e : (w.norm - rad a b q) ^ 2 = (w.norm - rad a b q) * (w.norm - rad a b q) := by ring
      rw [e]; linarith
    have hv' := abs_le.mp hv
    have hr' := abs_le.mp hr
    have hd := hdot q
    constructor
    · rintro ⟨-, h1, -⟩
      have := mul_le_mul_of_nonneg_left h1 hL.le
      linarith
    · intro hle
      have h1 : len a b * hgt a b q ≤ len a b := by linarith
      refine ⟨?_, ?_, by linarith [hr'.1]⟩
      · by_contra hcn
        have := mul_neg_of_pos_of_neg hL (not_le.mp hcn)
        linarith [hv'.2]
      · by_contra hcn
        have := mul_lt_mul_of_pos_left (not_le.mp hcn) hL
        linarith
  · have hd := hdot (r.point h.t)
    rw [hhp] at hd
    linarith

/-! ## Planes -/

/-- Difference of the distance to a plane over a step that changes the height by `± e`. -/
theorem plane_diff (d e : ℝ) (hd : 0 < d) :
    |d + e| - |d - e| = 2 * max (-d) (min d e) := by
  rcases le_total e d with h1 | h1
  · rcases le_total (-d) e with h2 | h2
    · rw [abs_of_nonneg (by linarith), abs_of_nonneg (by linarith), min_eq_right h1, max_eq_right h2]
      ring
    · rw [abs_of_nonpos (by linarith), abs_of_nonneg (by linarith), min_eq_right h1, max_eq_left h2]
      ring
  · rw [abs_of_nonneg (by linarith), abs_of_nonpos (by linarith), min_eq_left h1,
      max_eq_right (by linarith)]
    ring

/-- C115 for planes: what is reported. On the plane itself the answer is the upward direction. At height
`d` on the side the normal `n` points to, each component of the step along the normal is cut off at `d`:
the result has the direction of the cut off vector. -/
theorem hit_normal_plane_value (ss : List Shape) (hw : ∀ s ∈ ss, s.WellFormed) (r : Ray ℝ)
    (far : Ext ℝ) (steps : ℕ) (start : ℝ) (h : Hit)
    (hm : march (evals ss) r far steps start = .ok (.hit h))
    (c n : V3 ℝ) (hs : ss[h.shape]? = some (.plane c n)) (ha : Alone ss h.shape (r.point h.t)) :
    ((r.point h.t - c).dot n = 0 → h.normal = ⟨0, 1, 0⟩) ∧
    (0 < (r.point h.t - c).dot n →
      let d := (r.point h.t - c).dot n
      let cut : ℝ → ℝ := fun e => max (-d) (min d e)
      (⟨cut (eps * n.x), cut (eps * n.y), cut (eps * n.z)⟩ : V3 ℝ).normalized = some h.normal) := by
  have he : (0 : ℝ) < eps := by unfold eps; norm_num
  obtain ⟨sd, hev, hsd, hn⟩ := march_hit _ _ _ _ _ _ hm
  obtain ⟨F, hF, hFp, hFe, hFv⟩ := value_around ss hw _ _ sd hev hsd _ hs ha
  set p := r.point h.t with hpd
  have hFq : ∀ q, F q = |(q - c).dot n| := by
    intro q
    have := hFe q
    simp only [Shape.eval, planeEval, Option.some.injEq] at this
    exact this.symm
  have hn1 : n.sqrNorm = 1 := hw _ (List.mem_of_getElem? hs)
  have hplus : ∀ e : V3 ℝ, F (p + e) = |(p - c).dot n + n.dot e| := by
    intro e
    rw [hFq]
    congr 1
    simp only [dot, add_x, add_y, add_z, sub_x, sub_y, sub_z]; ring
  have hminus : ∀ e : V3 ℝ, F (p - e) = |(p - c).dot n - n.dot e| := by
    intro e
    rw [hFq]
    congr 1
    simp only [dot, sub_x, sub_y, sub_z]; ring
  have ex : n.dot (⟨eps, 0, 0⟩ : V3 ℝ) = eps * n.x := by simp only [dot]; ring
  have ey : n.dot (⟨0, eps, 0⟩ : V3 ℝ) = eps * n.y := by simp only [dot]; ring
  have ez : n.dot (⟨0, 0, eps⟩ : V3 ℝ) = eps * n.z := by simp only [dot]; ring
  constructor
  · intro h0
    have hd : ∀ e : V3 ℝ, e.norm ≤ eps → sdDiff (evals ss) p e = some 0 := by
      intro e hen
      obtain ⟨j, h1⟩ := hFv (p + e) (by
        unfold dist
        have : p - (p + e) = -e := by ext <;> simp
        rw [this, norm_neg']; exact hen)
      obtain ⟨k, h2⟩ := hFv (p - e) (by
        unfold dist
        have : p - (p - e) = e := by ext <;> simp
        rw [this]; exact hen)
      unfold sdDiff
      rw [h1, h2, hplus, hminus, h0, zero_add, zero_sub, abs_neg]
      simp
    unfold sdNormal at hn
    rw [hd _ (norm_le_of_sq he.le (by simp [sqrNorm])), hd _ (norm_le_of_sq he.le (by simp [sqrNorm])),
      hd _ (norm_le_of_sq he.le (by simp [sqrNorm]))] at hn
    simp [normalized, V3.norm] at hn
    exact hn.symm
  · intro hpos d cut
    set v : V3 ℝ := ⟨cut (eps * n.x), cut (eps * n.y), cut (eps * n.z)⟩ with hv
    have hv0 : v ≠ 0 := by
      intro e
      have hz : ∀ a : ℝ, cut a = 0 → a = 0 := by
        intro a hca
        by_contra hne
        rcases lt_or_gt_of_ne hne with hlt | hgt
        · have : cut a < 0 := max_lt (by show -d < 0; linarith) ((min_le_right d a).trans_lt hlt)
          linarith
        · have : 0 < cut a := lt_of_lt_of_le (lt_min hpos hgt) (le_max_right _ _)
          linarith
      have h1 := hz _ (congrArg V3.x e)
      have h2 := hz _ (congrArg V3.y e)
      have h3 := hz _ (congrArg V3.z e)
      have hx : n.x = 0 := by rcases mul_eq_zero.mp h1 with h | h; exact absurd h he.ne'; exact h
      have hy : n.y = 0 := by rcases mul_eq_zero.mp h2 with h | h; exact absurd h he.ne'; exact h
      have hz' : n.z = 0 := by rcases mul_eq_zero.mp h3 with h | h; exact absurd h he.ne'; exact h
      simp [sqrNorm, hx, hy, hz'] at hn1
    have hsc : (v.smul 2).normalized = v.normalized := by
      have hvn : v.norm ≠ 0 := fun e => hv0 ((norm_eq_zero v).mp e)
      have hwn : (v.smul 2).norm = v.norm * 2 := by rw [norm_smul', abs_of_pos (by norm_num)]
      unfold normalized
      rw [if_neg hvn, if_neg (by rw [hwn]; exact mul_ne_zero hvn (by norm_num)), hwn]
      congr 1
      ext <;> simp only [smul_x, smul_y, smul_z] <;> field_simp
    have hne : v.smul 2 ≠ 0 := by
      intro e
      apply hv0
      have h1 := congrArg V3.x e
      have h2 := congrArg V3.y e
      have h3 := congrArg V3.z e
      simp at h1 h2 h3
      exact V3.ext h1 h2 h3
    rw [← hsc, ← sdNormal_of_value (evals ss) p F hFv (v.smul 2) ?_ ?_ ?_ hne, hn]
    · rw [hplus, hminus, ex, plane_diff _ _ hpos]; simp only [smul_x, hv]; ring
    · rw [hplus, hminus, ey, plane_diff _ _ hpos]; simp only [smul_y, hv]; ring
    · rw [hplus, hminus, ez, plane_diff _ _ hpos]; simp only [smul_z, hv]; ring

/-- C115 for planes, when no component is cut off: exactly the normal on the side of the hit. -/
theorem hit_normal_plane_partial (ss : List Shape) (hw : ∀ s ∈ ss, s.WellFormed) (r : Ray ℝ)
    (far : Ext ℝ) (steps : ℕ) (start : ℝ) (h : Hit)
    (hm : march (evals ss) r far steps start = .ok (.hit h))
    (c n : V3 ℝ) (hs : ss[h.shape]? = some (.plane c n)) (ha : Alone ss h.shape (r.point h.t))
    (hx : eps * |n.x| ≤ (r.point h.t - c).dot n) (hy : eps * |n.y| ≤ (r.point h.t - c).dot n)
    (hz : eps * |n.z| ≤ (r.point h.t - c).dot n) (hpos : 0 < (r.point h.t - c).dot n) :
    h.normal = n := by
  have he : (0 : ℝ) < eps := by unfold eps; norm_num
  have hn1 : n.sqrNorm = 1 := hw _ (List.mem_of_getElem? hs)
  have := (hit_normal_plane_value ss hw r far steps start h hm c n hs ha).2 hpos
  dsimp only at this
  have hcut : ∀ a : ℝ, eps * |a| ≤ (r.point h.t - c).dot n →
      max (-(r.point h.t - c).dot n) (min ((r.point h.t - c).dot n) (eps * a)) = eps * a := by
    intro a hle
    have h1 := mul_le_mul_of_nonneg_left (le_abs_self a) he.le
    have h2 := mul_le_mul_of_nonneg_left (neg_abs_le a) he.le
    rw [min_eq_right (by linarith), max_eq_right (by linarith)]
  rw [hcut _ hx, hcut _ hy, hcut _ hz] at this
  have e : (⟨eps * n.x, eps * n.y, eps * n.z⟩ : V3 ℝ) = n.smul eps := by
    ext <;> simp only [smul_x, smul_y, smul_z] <;> ring
  rw [e, (normalized_exact n (by rw [norm_eq, hn1, Real.sqrt_one]) eps he).2] at this
  exact (Option.some.inj this).symm

/-- C115 for planes across a coordinate axis: exact at every hit that is not on the plane itself. -/
theorem hit_normal_axis_plane_partial (ss : List Shape) (hw : ∀ s ∈ ss, s.WellFormed) (r : Ray ℝ)
    (far : Ext ℝ) (steps : ℕ) (start : ℝ) (h : Hit)
    (hm : march (evals ss) r far steps start = .ok (.hit h))
    (c n : V3 ℝ) (hs : ss[h.shape]? = some (.plane c n)) (ha : Alone ss h.shape (r.point h.t))
    (hax : n.y = 0 ∧ n.z = 0 ∨ n.x = 0 ∧ n.z = 0 ∨ n.x = 0 ∧ n.y = 0)
    (hpos : 0 < (r.point h.t - c).dot n) : h.normal = n := by
  have he : (0 : ℝ) < eps := by unfold eps; norm_num
  have hn1 : n.sqrNorm = 1 := hw _ (List.mem_of_getElem? hs)
  have hv := (hit_normal_plane_value ss hw r far steps start h hm c n hs ha).2 hpos
  dsimp only at hv
  set d := (r.point h.t - c).dot n with hd
  have hcut0 : max (-d) (min d (eps * 0)) = min d eps * 0 := by
    rw [mul_zero, mul_zero, min_eq_right hpos.le, max_eq_right (by linarith)]
  have hcut : ∀ a : ℝ, a * a = 1 → max (-d) (min d (eps * a)) = min d eps * a := by
    intro a h1
    have : (a - 1) * (a + 1) = 0 := by linear_combination h1
    rcases mul_eq_zero.mp this with h | h
    · have : a = 1 := by linarith
      rw [this, mul_one, mul_one, max_eq_right]
      exact le_min (by linarith) (by linarith)
    · have : a = -1 := by linarith
      rw [this, min_eq_right (by linarith), mul_neg_one, mul_neg_one, max_neg_neg]
  have hm0 : 0 < min d eps := lt_min hpos he
  have e : (⟨max (-d) (min d (eps * n.x)), max (-d) (min d (eps * n.y)),
      max (-d) (min d (eps * n.z))⟩ : V3 ℝ) = n.smul (min d eps) := by
    unfold sqrNorm at hn1
    rcases hax with ⟨h1, h2⟩ | ⟨h1, h2⟩ | ⟨h1, h2⟩
    · rw [h1, h2] at hn1 ⊢
      ext <;> simp only [smul_x, smul_y, smul_z, h1, h2]
      · rw [hcut _ (by linarith)]; ring
      · rw [hcut0]; ring
      · rw [hcut0]; ring
    · rw [h1, h2] at hn1 ⊢
      ext <;> simp only [smul_x, smul_y, smul_z, h1, h2]
      · rw [hcut0]; ring
      · rw [hcut _ (by linarith)]; ring
      · rw [hcut0]; ring
    · rw [h1, h2] at hn1 ⊢
      ext <;> simp only [smul_x, smul_y, smul_z, h1, h2]
      · rw [hcut0]; ring
      · rw [hcut0]; ring
      · rw [hcut _ (by linarith)]; ring
  rw [e, (normalized_exact n (by rw [norm_eq, hn1, Real.sqrt_one]) _ hm0).2] at hv
  exact (Option.some.inj hv).symm

/-! ## Witnesses -/

/-- One step of the loop that moves on. -/
theorem march_go (s : Shape) (r : Ray ℝ) (far : Ext ℝ) (k : ℕ) (t d : ℝ) (hf : Ext.fin t ≤ far)
    (hd : s.eval (r.point t) = some d) (hgt : eps < d) :
    march (evals [s]) r far (k + 1) t = march (evals [s]) r far k (t + d) := by
  have h1 : sdEvaluate (evals [s]) (r.point t) = some (d, 0) := by
    simp only [evals, List.map_cons, List.map_nil, sdEvaluate, sdEvaluateFrom, hd, better]
  conv_lhs => unfold march
  rw [if_pos hf]
  dsimp only
  rw [h1]
  dsimp only
  rw [if_neg (not_le.mpr hgt)]

/-- One step that ends in a hit. -/
theorem march_end (s : Shape) (hs : s.WellFormed) (r : Ray ℝ) (far : Ext ℝ) (k : ℕ) (t d : ℝ)
    (hf : Ext.fin t ≤ far) (hd : s.eval (r.point t) = some d) (hle : d ≤ eps) :
    ∃ h, march (evals [s]) r far (k + 1) t = .ok (.hit h) ∧ h.t = t ∧ h.shape = 0 := by
  have h1 : sdEvaluate (evals [s]) (r.point t) = some (d, 0) := by
    simp only [evals, List.map_cons, List.map_nil, sdEvaluate, sdEvaluateFrom, hd, better]
  obtain ⟨g, hg, -⟩ := primitives_exact s hs
  obtain ⟨n, hn, hu⟩ := sdNormal_unit (evals [s]) (r.point t)
    ⟨s.eval, by simp [evals], fun q => by rw [hg q]; simp⟩
  refine ⟨⟨t, 0, n, r.point t + n.smul eps⟩, ?_, rfl, rfl⟩
  unfold march
  rw [if_pos hf]
  dsimp only
  rw [h1]
  dsimp only
  rw [if_pos hle, hn]
  dsimp only
  rw [hu, if_neg (by unfold eps; norm_num)]

theorem alone_single (s : Shape) (i : ℕ) (hi : i = 0) (p : V3 ℝ) : Alone [s] i p := by
  intro j t hj ht
  subst hi
  rw [List.getElem?_eq_some_iff] at ht
  obtain ⟨h, -⟩ := ht
  simp only [List.length_cons, List.length_nil] at h
  omega

/-- A ray straight down from height `z`, against planes through the origin. -/
noncomputable def down (z : ℝ) : Ray ℝ := ⟨⟨0, 0, z⟩, ⟨0, 0, -1⟩, Ext.fin eps, ⊤⟩

/-- What the accelerator does with such a ray: the box of a plane reaches 5000 in every direction. -/
theorem intersect_down (n : V3 ℝ) (z : ℝ) (hz : z ≤ 10) :
    ∃ b, Shape.boundingBox (.plane ⟨0, 0, 0⟩ n) = some b ∧
      intersect (evals [.plane ⟨0, 0, 0⟩ n]) (sceneBox [b]) (down z) =
        march (evals [.plane ⟨0, 0, 0⟩ n]) (down z) (Ext.fin (z + 5000)) 2000 eps := by
  refine ⟨_, rfl, ?_⟩
  have hnf : boxNearFar ⟨⟨0, 0, 0⟩ - ⟨5000, 5000, 5000⟩,
      ⟨0, 0, 0⟩ - ⟨5000, 5000, 5000⟩ + ⟨10000, 10000, 10000⟩⟩ (down z) =
      (Ext.fin (z - 5000), Ext.fin (z + 5000)) := by
    unfold boxNearFar down
    simp only [sub_x, sub_y, sub_z, add_x, add_y, add_z]
    have hx : slabNF 0 0 ((0 : ℝ) - 5000) (0 - 5000 + 10000) (true, ⊥, ⊤) = (true, ⊥, ⊤) := by
      unfold slabNF
      rw [if_neg (by simp), if_pos rfl, if_neg (by norm_num)]
    rw [hx, hx]
    unfold slabNF
    rw [if_neg (by simp), if_neg (by norm_num)]
    dsimp only
    rw [if_pos (by linarith), if_pos (by linarith)]
    have e1 : ((0 : ℝ) - 5000 + 10000 - z) * (1 / -1) = z - 5000 := by ring
    have e2 : ((0 : ℝ) - 5000 - z) * (1 / -1) = z + 5000 := by ring
    rw [e1, e2, max_eq_left bot_le, min_eq_left le_top]
  simp only [sceneBox, List.foldl_nil, intersect]
  rw [hnf]
  have hst : startAt (Ext.fin (z - 5000)) = eps := by
    show (if (z - 5000 : ℝ) < eps then eps else z - 5000) = eps
    rw [if_pos (by unfold eps; linarith)]
  dsimp only
  rw [hst]

theorem down_eval (n : V3 ℝ) (z t : ℝ) :
    (Shape.plane ⟨0, 0, 0⟩ n).eval ((down z).point t) = some |(z - t) * n.z| := by
  simp only [Shape.eval, planeEval, down, Ray.point]
  congr 2
  simp only [dot, sub_x, sub_y, sub_z, add_x, add_y, add_z, smul_x, smul_y, smul_z]
  ring

/-- C115 fails for a ray that meets a plane at a right angle: the loop lands on the plane itself, all
differences vanish, and the reported normal lies in the plane. -/
theorem plane_normal_refuted :
    ∃ (s : Shape) (b : B3 ℝ) (r : Ray ℝ) (h : Hit), s = .plane ⟨0, 0, 0⟩ ⟨0, 0, 1⟩ ∧ s.WellFormed ∧
      s.boundingBox = some b ∧ r.dir.sqrNorm = 1 ∧
      intersect (evals [s]) (sceneBox [b]) r = .ok (.hit h) ∧
      h.normal.dot (⟨0, 0, 1⟩ : V3 ℝ) = 0 := by
  obtain ⟨b, hb, hi⟩ := intersect_down ⟨0, 0, 1⟩ 1 (by norm_num)
  have hw : (Shape.plane ⟨0, 0, 0⟩ ⟨0, 0, 1⟩).WellFormed := by
    show (⟨0, 0, 1⟩ : V3 ℝ).sqrNorm = 1
    simp [sqrNorm]
  have he : eps = 1 / 1000 := rfl
  have s1 := march_go (.plane ⟨0, 0, 0⟩ ⟨0, 0, 1⟩) (down 1) (Ext.fin (1 + 5000)) 1999 eps (999 / 1000)
    (by rw [Ext.fin_le_fin, he]; norm_num) (by rw [down_eval, he]; norm_num) (by rw [he]; norm_num)
  have e1 : eps + 999 / 1000 = 1 := by rw [he]; norm_num
  rw [e1] at s1
  obtain ⟨h, s2, ht, hs⟩ := march_end (.plane ⟨0, 0, 0⟩ ⟨0, 0, 1⟩) hw (down 1) (Ext.fin (1 + 5000)) 1998 1 0
    (by rw [Ext.fin_le_fin]; norm_num) (by rw [down_eval]; norm_num) (by rw [he]; norm_num)
  refine ⟨_, b, down 1, h, rfl, hw, hb, by simp [down, sqrNorm], by rw [hi, s1, s2], ?_⟩
  have hn := (hit_normal_plane_value [.plane ⟨0, 0, 0⟩ ⟨0, 0, 1⟩] (by simpa using hw) (down 1) _ _ _ h s2
    ⟨0, 0, 0⟩ ⟨0, 0, 1⟩ (by rw [hs]; rfl) (alone_single _ _ hs _)).1
    (by rw [ht]; simp [down, Ray.point, dot])
  rw [hn]
  simp [dot]

/-- C115 fails on slightly tilted planes: seen from straight above, a plane whose normal is
`(9/41, 0, 40/41)` (13 degrees from the vertical) shows the normal `(1, 0, 1)/√2` (45 degrees). -/
theorem tilted_plane_normal_refuted :
    ∃ (s : Shape) (n : V3 ℝ) (b : B3 ℝ) (r : Ray ℝ) (h : Hit), s = .plane ⟨0, 0, 0⟩ n ∧ s.WellFormed ∧
      s.boundingBox = some b ∧ r.dir.sqrNorm = 1 ∧
      intersect (evals [s]) (sceneBox [b]) r = .ok (.hit h) ∧
      1 / 2 < (h.normal - n).norm := by
  set n : V3 ℝ := ⟨9 / 41, 0, 40 / 41⟩ with hnd
  set s := Shape.plane ⟨0, 0, 0⟩ n with hsd
  obtain ⟨b, hb, hi⟩ := intersect_down n (8406 / 1000) (by norm_num)
  rw [← hsd] at hb hi
  have hw : s.WellFormed := by
    show n.sqrNorm = 1
    rw [hnd]; simp only [sqrNorm]; norm_num
  have he : eps = 1 / 1000 := rfl
  have ev : ∀ t d : ℝ, 0 ≤ d → (8406 / 1000 - t) * (40 / 41) = d →
      s.eval ((down (8406 / 1000)).point t) = some d := by
    intro t d hd e
    rw [hsd, down_eval]
    show some |(8406 / 1000 - t) * (40 / 41)| = some d
    rw [e, abs_of_nonneg hd]
  have s1 := march_go s (down (8406 / 1000)) (Ext.fin (8406 / 1000 + 5000)) 1999 eps (41 / 5)
    (by rw [Ext.fin_le_fin, he]; norm_num) (ev _ _ (by norm_num) (by rw [he]; norm_num))
    (by rw [he]; norm_num)
  have s2 := march_go s (down (8406 / 1000)) (Ext.fin (8406 / 1000 + 5000)) 1998 (eps + 41 / 5) (1 / 5)
    (by rw [Ext.fin_le_fin, he]; norm_num) (ev _ _ (by norm_num) (by rw [he]; norm_num))
    (by rw [he]; norm_num)
  have s3 := march_go s (down (8406 / 1000)) (Ext.fin (8406 / 1000 + 5000)) 1997 (eps + 41 / 5 + 1 / 5)
    (1 / 205)
    (by rw [Ext.fin_le_fin, he]; norm_num) (ev _ _ (by norm_num) (by rw [he]; norm_num))
    (by rw [he]; norm_num)
  obtain ⟨h, s4, ht, hs⟩ := march_end s hw (down (8406 / 1000)) (Ext.fin (8406 / 1000 + 5000)) 1996
    (eps + 41 / 5 + 1 / 5 + 1 / 205) (1 / 8405)
    (by rw [Ext.fin_le_fin, he]; norm_num) (ev _ _ (by norm_num) (by rw [he]; norm_num))
    (by rw [he]; norm_num)
  refine ⟨s, n, b, down (8406 / 1000), h, rfl, hw, hb, by simp [down, sqrNorm], by rw [hi, s1, s2, s3, s4], ?_⟩
  have hd : ((down (8406 / 1000)).point h.t - ⟨0, 0, 0⟩).dot n = 1 / 8405 := by
    rw [ht, he, hnd]
    simp only [down, Ray.point, dot, sub_x, sub_y, sub_z, add_x, add_y, add_z, smul_x, smul_y, smul_z]
    norm_num
  have hn := (hit_normal_plane_value [s] (by simpa using hw) _ _ _ _ h s4
    ⟨0, 0, 0⟩ n (by rw [hs]; rfl) (alone_single _ _ hs _)).2 (by rw [hd]; norm_num)
  rw [hd, he, hnd] at hn
  dsimp only at hn
  have c1 : max (-(1 / 8405 : ℝ)) (min (1 / 8405) (1 / 1000 * (9 / 41))) = 1 / 8405 := by
    rw [min_eq_left (by norm_num), max_eq_right (by norm_num)]
  have c2 : max (-(1 / 8405 : ℝ)) (min (1 / 8405) (1 / 1000 * 0)) = 0 := by
    rw [mul_zero, min_eq_right (by norm_num), max_eq_right (by norm_num)]
  have c3 : max (-(1 / 8405 : ℝ)) (min (1 / 8405) (1 / 1000 * (40 / 41))) = 1 / 8405 := by
    rw [min_eq_left (by norm_num), max_eq_right (by norm_num)]
  rw [c1, c2, c3] at hn
  have hne : (⟨1 / 8405, 0, 1 / 8405⟩ : V3 ℝ) ≠ 0 := by
    intro e; have := congrArg V3.x e; norm_num at this
  obtain ⟨u, hu, h1, h2⟩ := normalized_spec _ hne
  rw [hn] at hu
  cases hu
  have hx := congrArg V3.x h2
  have hy := congrArg V3.y h2
  have hz := congrArg V3.z h2
  simp only [smul_x, smul_y, smul_z] at hx hy hz
  have hpos := norm_pos _ hne
  have hxz : h.normal.x = h.normal.z := by
    have : h.normal.x * V3.norm ⟨1 / 8405, 0, 1 / 8405⟩ = h.normal.z * V3.norm ⟨1 / 8405, 0, 1 / 8405⟩ := by
      rw [hx, hz]
    exact mul_right_cancel₀ hpos.ne' this
  have hy0 : h.normal.y = 0 := by
    rcases mul_eq_zero.mp hy with h | h
    · exact h
    · exact absurd h hpos.ne'
  unfold sqrNorm at h1
  rw [hy0, ← hxz] at h1
  have hsq : h.normal.x * h.normal.x = 1 / 2 := by linarith
  have hle : h.normal.x ≤ 71 / 100 := by nlinarith
  rw [norm_eq]
  apply Real.lt_sqrt_of_sq_lt
  simp only [sqrNorm, hnd, sub_x, sub_y, sub_z, hy0, ← hxz]
  nlinarith

/-- The hypotheses of `hit_normal_sphere` are met: a unit sphere seen from outside. -/
example : ∃ h, intersect ballScene ballBox (zRay ⊤) = .ok (.hit h) ∧
    Alone [.sphere ⟨0, 0, 2⟩ 1] h.shape ((zRay ⊤).point h.t) ∧ 4 * eps ≤ 1 ∧
    1 - eps ≤ dist ((zRay ⊤).point h.t) ⟨0, 0, 2⟩ := by
  obtain ⟨h, hi, h1, h2, h3⟩ := ballScene_hit ⊤
  refine ⟨h, hi, alone_single _ _ h3 _, by unfold eps; norm_num, ?_⟩
  unfold dist
  have : ((zRay ⊤).point h.t - ⟨0, 0, 2⟩).norm = |h.t - 2| := by
    unfold V3.norm
    rw [← Real.sqrt_sq_eq_abs]
    congr 1
    simp [zRay, Ray.point]; ring
  have he : eps = 1 / 1000 := rfl
  rw [this, abs_of_nonpos (by linarith)]
  linarith

/-- The hypotheses of `hit_normal_box` are met: a cube seen from below, and the answer is its lower
face. -/
example : ∃ h, march (evals [.box ⟨1, 1, 3⟩ ⟨-1, -1, 1⟩]) (zRay ⊤) ⊤ 2000 eps = .ok (.hit h) ∧
    h.normal = ⟨0, 0, -1⟩ := by
  have he : eps = 1 / 1000 := rfl
  have hw : (Shape.box ⟨1, 1, 3⟩ ⟨-1, -1, 1⟩).WellFormed := by
    show V3.le _ _
    refine ⟨?_, ?_, ?_⟩ <;> norm_num
  have ev : ∀ t : ℝ, 0 ≤ t → t ≤ 1 → (Shape.box ⟨1, 1, 3⟩ ⟨-1, -1, 1⟩).eval ((zRay ⊤).point t) =
      some (1 - t) := by
    intro t h0 h1
    simp only [Shape.eval, boxEval, boxFormula, zRay, Ray.point]
    congr 1
    rw [maxS_norm]
    simp only [add_x, add_y, add_z, sub_x, sub_y, sub_z, smul_x, smul_y, smul_z]
    have e : |0 + 1 * t - (3 + 1) / 2| - (3 - 1) / 2 = 1 - t := by
      rw [abs_of_nonpos (by linarith)]; ring
    rw [e]
    norm_num
    rw [max_eq_left (by linarith), max_eq_right (by linarith : (-1 : ℝ) ≤ 1 - t),
      min_eq_right (by linarith)]
    ring
  have s1 := march_go _ (zRay ⊤) ⊤ 1999 eps (999 / 1000) le_top
    (by rw [ev eps (by rw [he]; norm_num) (by rw [he]; norm_num), he]; norm_num) (by rw [he]; norm_num)
  obtain ⟨h, s2, ht, hs⟩ := march_end _ hw (zRay ⊤) ⊤ 1998 (eps + 999 / 1000) 0 le_top
    (by rw [ev _ (by rw [he]; norm_num) (by rw [he]; norm_num), he]; norm_num) (by rw [he]; norm_num)
  refine ⟨h, by rw [s1, s2], ?_⟩
  refine hit_normal_box [.box ⟨1, 1, 3⟩ ⟨-1, -1, 1⟩] (by simpa using hw) (zRay ⊤) _ _ _ h s2 ⟨1, 1, 3⟩
    ⟨-1, -1, 1⟩ (by rw [hs]; rfl) (alone_single _ _ hs _) ⟨0, 0, -1⟩ (-1) (by simp [faces]) ?_ ?_
  · rw [ht, he]; simp [zRay, Ray.point, dot]; norm_num
  · rw [ht, he]
    simp [faces, zRay, Ray.point, dot]
    norm_num

/-- A surface point of a cone: half way up a cone of height 4 whose radius shrinks from 4 to 1. -/
example : SurfacePoint (Shape.cone ⟨0, 0, 0⟩ ⟨0, 4, 0⟩ 4 1).solid
    (⟨0, 0, 0⟩ + ((⟨0, 4, 0⟩ : V3 ℝ) - ⟨0, 0, 0⟩).smul (1 / 2) + ⟨5 / 2, 0, 0⟩)
    (V3.smul ⟨5 / 2, 0, 0⟩ (len ⟨0, 0, 0⟩ ⟨0, 4, 0⟩ / (5 * V3.norm ⟨5 / 2, 0, 0⟩)) -
      V3.smul ((⟨0, 4, 0⟩ : V3 ℝ) - ⟨0, 0, 0⟩) ((1 - 4) / (5 * len ⟨0, 0, 0⟩ ⟨0, 4, 0⟩))) 1 := by
  have hn : V3.norm (⟨5 / 2, 0, 0⟩ : V3 ℝ) = 5 / 2 := by
    unfold V3.norm
    rw [show (5 / 2 * (5 / 2) + 0 * 0 + 0 * 0 : ℝ) = 5 / 2 * (5 / 2) by ring,
      Real.sqrt_mul_self (by norm_num)]
  have hl : len (⟨0, 0, 0⟩ : V3 ℝ) ⟨0, 4, 0⟩ = 4 := by
    unfold len V3.norm
    simp only [sub_x, sub_y, sub_z]
    rw [show ((0 - 0) * (0 - 0) + (4 - 0) * (4 - 0) + (0 - 0) * (0 - 0) : ℝ) = 4 * 4 by ring,
      Real.sqrt_mul_self (by norm_num)]
  apply cone_surface ⟨0, 0, 0⟩ ⟨0, 4, 0⟩ ⟨5 / 2, 0, 0⟩ 4 1 (1 / 2) 1
  · intro h; have := congrArg V3.y h; norm_num at this
  · simp [dot]
  · rw [hn]; norm_num
  · rw [hn]; norm_num
  · norm_num
  · rw [hl]; norm_num
  · rw [hl, hn]; norm_num
  · rw [hl]; norm_num
  · rw [hl]; norm_num

/-- The hypotheses of `hit_normal_plane_partial` are met: a hit on a tilted plane with the right answer. -/
example : ∃ h, march (evals [.plane ⟨0, 0, 0⟩ ⟨3 / 5, 0, 4 / 5⟩]) (down (17 / 8000)) ⊤ 2000 eps =
    .ok (.hit h) ∧ h.normal = ⟨3 / 5, 0, 4 / 5⟩ := by
  have he : eps = 1 / 1000 := rfl
  have hw : (Shape.plane ⟨0, 0, 0⟩ ⟨3 / 5, 0, 4 / 5⟩).WellFormed := by
    show V3.sqrNorm _ = 1
    simp only [sqrNorm]; norm_num
  obtain ⟨h, hm, ht, hs⟩ := march_end _ hw (down (17 / 8000)) ⊤ 1999 eps (9 / 10000) le_top
    (by rw [down_eval, he]; norm_num) (by rw [he]; norm_num)
  have hd : ((down (17 / 8000)).point h.t - ⟨0, 0, 0⟩).dot (⟨3 / 5, 0, 4 / 5⟩ : V3 ℝ) = 9 / 10000 := by
    rw [ht, he]
    simp only [down, Ray.point, dot, sub_x, sub_y, sub_z, add_x, add_y, add_z, smul_x, smul_y, smul_z]
    norm_num
  refine ⟨h, hm, hit_normal_plane_partial _ (by simpa using hw) _ _ _ _ h hm ⟨0, 0, 0⟩ _
    (by rw [hs]; rfl) (alone_single _ _ hs _) ?_ ?_ ?_ ?_⟩ <;> rw [hd] <;>
    norm_num [he, abs_of_pos]

/-- The hypotheses of `hit_normal_cylinder` are met by a cylinder of radius 1 and length 4 lying across the
view. -/
example : SurfacePoint (Shape.cylinder ⟨0, 0, 0⟩ ⟨0, 4, 0⟩ 1).solid
    (⟨0, 0, 0⟩ + ((⟨0, 4, 0⟩ : V3 ℝ) - ⟨0, 0, 0⟩).smul (1 / 2) + ⟨1, 0, 0⟩)
    (V3.smul ⟨1, 0, 0⟩ (1 / 1)) 1 := by
  have hl : len (⟨0, 0, 0⟩ : V3 ℝ) ⟨0, 4, 0⟩ = 4 := by
    unfold len V3.norm
    simp only [sub_x, sub_y, sub_z]
    rw [show ((0 - 0) * (0 - 0) + (4 - 0) * (4 - 0) + (0 - 0) * (0 - 0) : ℝ) = 4 * 4 by ring,
      Real.sqrt_mul_self (by norm_num)]
  apply cylinder_surface ⟨0, 0, 0⟩ ⟨0, 4, 0⟩ ⟨1, 0, 0⟩ 1 (1 / 2) 1
  · intro h; have := congrArg V3.y h; norm_num at this
  · simp [dot]
  · simp [V3.norm]
  · norm_num
  · norm_num
  · rw [hl]; norm_num
  · rw [hl]; norm_num

end Feign.Sdf
