import Verif.Sdf.NormalProps

/-!
# Surfaces do not shadow themselves (C125)

A ray that leaves a distance-function surface starts at the reported point, a tolerance along the reported normal, and
is looked at from a tolerance on (`src/accel/ray_sdf.cpp:129-130`, `:169`). The statements are about hits reported by
the marching loop and about whole queries for the rays that leave from them, in scenes with any number of shapes.
-/

set_option linter.unusedSectionVars false
set_option linter.unusedVariables false

namespace Feign.Sdf
open Feign.V3

/-! ## Specification -/

/-- The query along `r` never answers with shape `i`. -/
def Misses (ss : List Shape) (box : Option (B3 ℝ)) (r : Ray ℝ) (i : ℕ) : Prop :=
  ∀ g, intersect (evals ss) box r = .ok (.hit g) → g.shape ≠ i

/-- The ray leaves from the reported point of the hit. -/
def Leaves (r : Ray ℝ) (h : Hit) : Prop := r.origin = h.p ∧ r.dir.sqrNorm = 1

/-! ## Lemmas -/

theorem march_hit_place (fs : List (V3 ℝ → Option ℝ)) (r : Ray ℝ) (far : Ext ℝ) (h : Hit) (n : ℕ) :
    ∀ d, march fs r far n d = .ok (.hit h) → d ≤ h.t ∧ h.p = r.point h.t + h.normal.smul eps := by
  induction n with
  | zero => intro d hm; simp [march] at hm
  | succ n ih =>
    intro d hm
    unfold march at hm
    by_cases hfar : Ext.fin d ≤ far
    · rw [if_pos hfar] at hm
      dsimp only at hm
      cases he : sdEvaluate fs (r.point d) with
      | none => rw [he] at hm; simp at hm
      | some b =>
        obtain ⟨sd, idx⟩ := b
        rw [he] at hm
        dsimp only at hm
        by_cases hs : sd ≤ eps
        · rw [if_pos hs] at hm
          cases hn : sdNormal fs (r.point d) with
          | none => rw [hn] at hm; simp at hm
          | some nn =>
            rw [hn] at hm
            dsimp only at hm
            split_ifs at hm with hlen
            simp only [Res.ok.injEq, March.hit.injEq] at hm
            subst hm
            exact ⟨le_rfl, rfl⟩
        · rw [if_neg hs] at hm
          have := ih _ hm
          have he := eps_pos
          exact ⟨by linarith [this.1, not_le.mp hs], this.2⟩
    · rw [if_neg hfar] at hm; simp at hm

/-- A shape that stays more than the tolerance away from the ray is not reported. -/
theorem misses_of_far (ss : List Shape) (box : Option (B3 ℝ)) (r : Ray ℝ) (i : ℕ) (s : Shape) (hs : ss[i]? = some s)
    (hfar : ∀ t, eps ≤ t → ∃ d, s.eval (r.point t) = some d ∧ eps < d) : Misses ss box r i := by
  intro g hg hgi
  have key : ∀ far start, eps ≤ start → march (evals ss) r far 2000 start = .ok (.hit g) → False := by
    intro far start hst hm
    obtain ⟨sd, hev, hsd, -⟩ := march_hit _ _ _ _ _ _ hm
    obtain ⟨hle, -⟩ := march_hit_place _ _ _ _ _ _ hm
    obtain ⟨d, hd, hlt⟩ := hfar g.t (hst.trans hle)
    obtain ⟨⟨f, hf, hfm⟩, -⟩ := (closest_shape (evals ss) (r.point g.t)).1 sd g.shape hev
    rw [hgi] at hf
    have : (evals ss)[i]? = some s.eval := by unfold evals; rw [List.getElem?_map, hs]; rfl
    rw [this] at hf
    cases hf
    rw [hd] at hfm
    cases hfm
    linarith
  cases box with
  | none => exact key _ _ le_rfl hg
  | some b => exact key _ _ (startAt_ge _) hg

/-- The signed distance to a solid behind a plane is at least the height over the plane. -/
theorem height_le {S : Set (V3 ℝ)} {F : V3 ℝ → ℝ} (hF : IsSignedDistance S F) (n : V3 ℝ) (c : ℝ) (hn : n.norm = 1)
    (hb : ∀ q ∈ S, q.dot n ≤ c) (q : V3 ℝ) : q.dot n - c ≤ F q := by
  have hn2 : n.sqrNorm = 1 := by rw [← norm_sq, hn, one_mul]
  rcases lt_or_ge 0 (F q) with hq | hq
  · obtain ⟨y, hy, hd⟩ := hF.outside_attained q hq
    have h1 := hb y hy
    have h2 := dot_le (q - y) n
    rw [hn, mul_one] at h2
    have h3 : (q - y).dot n = q.dot n - y.dot n := by simp only [dot, sub_x, sub_y, sub_z]; ring
    unfold dist at hd
    linarith
  · have hq' := hb q ((hF.inside_iff q).mp hq)
    by_contra hc
    rw [not_le] at hc
    set m := q.dot n - c with hmd
    obtain ⟨t, ht0, ht1⟩ : ∃ t, 0 < t ∧ F q < m - t := ⟨(m - F q) / 2, by linarith, by linarith⟩
    have hy : q + n.smul (-m + t) ∉ S := by
      intro hy
      have h1 := hb _ hy
      have h2 : (q + n.smul (-m + t)).dot n = q.dot n + (-m + t) * n.sqrNorm := by
        simp only [dot, sqrNorm, add_x, add_y, add_z, smul_x, smul_y, smul_z]; ring
      rw [h2, hn2] at h1
      linarith
    have h1 := hF.inside_le q _ hy
    have h2 : dist q (q + n.smul (-m + t)) = -m + t := by
      unfold dist
      have : q - (q + n.smul (-m + t)) = n.smul (-(-m + t)) := by
        ext <;> simp only [sub_x, sub_y, sub_z, add_x, add_y, add_z, smul_x, smul_y, smul_z] <;> ring
      rw [this, norm_smul', hn, one_mul, abs_neg, abs_of_nonneg (by linarith)]
    rw [h2] at h1
    linarith

/-- A march that starts outside a solid reports hits that are not inside it. -/
theorem hit_not_inside (ss : List Shape) (hw : ∀ s ∈ ss, s.WellFormed) (r : Ray ℝ) (hd : r.dir.sqrNorm = 1)
    (far : Ext ℝ) (steps : ℕ) (start : ℝ) (h : Hit) (hm : march (evals ss) r far steps start = .ok (.hit h))
    (s : Shape) (i : ℕ) (hs : ss[i]? = some s) (F : V3 ℝ → ℝ) (hF : IsSignedDistance s.solid F)
    (hout : 0 ≤ F (r.point start)) : 0 ≤ F (r.point h.t) := by
  obtain ⟨o, ho, hso⟩ := march_sound (evals ss) (solids ss) (evals_conservative ss hw) r hd far steps start
  rw [hm] at ho
  cases ho
  obtain ⟨hst, -, hcl, -⟩ := hso
  have hi : i < (evals ss).length := by
    unfold evals
    rw [List.length_map]
    exact (List.getElem?_eq_some_iff.mp hs).1
  have hsol : solids ss i = s.solid := by unfold solids; rw [hs]
  rcases eq_or_lt_of_le hst with he | hlt
  · rw [← he]
    exact hout
  · by_contra hc
    rw [not_le] at hc
    set x := F (r.point h.t) with hx
    obtain ⟨t, ht1, ht2, ht3⟩ : ∃ t, start ≤ t ∧ t < h.t ∧ h.t - t ≤ -x := by
      refine ⟨max start (h.t + x), le_max_left _ _, max_lt hlt (by linarith), ?_⟩
      have := le_max_right start (h.t + x)
      linarith
    have h1 := hcl t ht1 ht2 i hi
    rw [hsol] at h1
    apply h1
    rw [← hF.inside_iff]
    have h2 := (abs_le.mp (hF.lipschitz (r.point t) (r.point h.t))).2
    rw [ray_dist r hd, abs_of_nonpos (by linarith)] at h2
    linarith

/-! ## Flat surfaces and curved surfaces in general -/

/-- C125 for flat surfaces: the solid lies behind the plane across `n`, the reported normal is `n` (C115 says when), and
the hit is not inside. A ray that leaves to the front is never reported as hitting the same shape; one that leaves
along the plane is not either, unless the hit is exactly on the plane. -/
theorem flat_no_self_shadow (ss : List Shape) (hw : ∀ s ∈ ss, s.WellFormed) (r : Ray ℝ) (far : Ext ℝ) (steps : ℕ)
    (start : ℝ) (h : Hit) (hm : march (evals ss) r far steps start = .ok (.hit h)) (s : Shape)
    (hs : ss[h.shape]? = some s) (n : V3 ℝ) (c : ℝ) (hnu : n.norm = 1) (hn : h.normal = n)
    (hb : ∀ q ∈ s.solid, q.dot n ≤ c) (hσ : c ≤ (r.point h.t).dot n) (box : Option (B3 ℝ)) (r' : Ray ℝ)
    (hl : Leaves r' h) (hup : 0 ≤ r'.dir.dot h.normal) (hne : 0 < r'.dir.dot h.normal ∨ c < (r.point h.t).dot n) :
    Misses ss box r' h.shape := by
  obtain ⟨F, hFs, hF⟩ := primitives_exact s (hw s (List.mem_of_getElem? hs))
  obtain ⟨-, hp⟩ := march_hit_place _ _ _ _ _ _ hm
  have he := eps_pos
  have hn2 : n.sqrNorm = 1 := by rw [← norm_sq, hnu, one_mul]
  rw [hn] at hup hne
  refine misses_of_far ss box r' h.shape s hs fun t ht => ⟨_, hFs _, ?_⟩
  refine lt_of_lt_of_le ?_ (height_le hF n c hnu hb _)
  have e : (r'.point t).dot n = (r.point h.t).dot n + eps * n.sqrNorm + t * r'.dir.dot n := by
    unfold Ray.point
    rw [hl.1, hp, hn]
    simp only [Ray.point, dot, sqrNorm, add_x, add_y, add_z, smul_x, smul_y, smul_z]; ring
  rw [e, hn2]
  rcases hne with h1 | h1
  · have : 0 < t * r'.dir.dot n := mul_pos (by linarith) h1
    linarith
  · have : 0 ≤ t * r'.dir.dot n := mul_nonneg (by linarith) hup
    linarith

/-- C125 for curved surfaces: where a ball of radius `ρ` touches the surface from inside, a ray that leaves at least
`2 tolerance / ρ` above the horizon is never reported as hitting the same shape. -/
theorem curved_no_self_shadow_partial (ss : List Shape) (hw : ∀ s ∈ ss, s.WellFormed) (r : Ray ℝ) (far : Ext ℝ)
    (steps : ℕ) (start : ℝ) (h : Hit) (hm : march (evals ss) r far steps start = .ok (.hit h)) (s : Shape)
    (hs : ss[h.shape]? = some s) (ha : Alone ss h.shape (r.point h.t)) (x n : V3 ℝ) (ρ σ : ℝ) (hρ : 4 * eps ≤ ρ)
    (hx : SurfacePoint s.solid x n ρ) (hσ : 0 ≤ σ) (hp : r.point h.t = x + n.smul σ) (box : Option (B3 ℝ)) (r' : Ray ℝ)
    (hl : Leaves r' h) (hup : 2 * (eps / ρ) ≤ r'.dir.dot h.normal) : Misses ss box r' h.shape := by
  obtain ⟨F, hFs, hF⟩ := primitives_exact s (hw s (List.mem_of_getElem? hs))
  obtain ⟨-, hpl⟩ := march_hit_place _ _ _ _ _ _ hm
  have he := eps_pos
  obtain ⟨hu, hclose⟩ := hit_normal_close_partial ss hw r far steps start h hm s hs ha x n ρ σ hρ hx (by linarith) hp
  have hn2 : n.sqrNorm = 1 := by rw [← norm_sq, hx.unit, one_mul]
  have hρ0 : 0 < ρ := by linarith
  set κ := eps / ρ with hκ
  have hκ0 : 0 < κ := div_pos he hρ0
  have hκ1 : κ ≤ 1 / 4 := by rw [hκ, div_le_iff₀ hρ0]; linarith
  have hw1 : r'.dir.norm = 1 := by rw [norm_eq, hl.2, Real.sqrt_one]
  refine misses_of_far ss box r' h.shape s hs fun t ht => ⟨_, hFs _, ?_⟩
  have hb : ∀ q ∈ s.solid, q.dot n ≤ x.dot n := by
    intro q hq
    have h1 := hx.behind q hq
    have h2 : (q - x).dot n = q.dot n - x.dot n := by simp only [dot, sub_x, sub_y, sub_z]; ring
    linarith
  refine lt_of_lt_of_le ?_ (height_le hF n (x.dot n) hx.unit hb _)
  have e : (r'.point t).dot n - x.dot n = σ * n.sqrNorm + eps * h.normal.dot n + t * r'.dir.dot n := by
    unfold Ray.point
    rw [hl.1, hpl, hp]
    simp only [dot, sqrNorm, add_x, add_y, add_z, smul_x, smul_y, smul_z]; ring
  rw [e, hn2]
  -- the reported normal is nearly the true one
  have hdot : 1 - 8 / 9 * (κ * κ) ≤ h.normal.dot n := by
    have h1 : (h.normal - n).sqrNorm = h.normal.sqrNorm + n.sqrNorm - 2 * h.normal.dot n := by
      simp only [dot, sqrNorm, sub_x, sub_y, sub_z]; ring
    have h2 : h.normal.sqrNorm = 1 := by rw [← norm_sq, hu, one_mul]
    have h3 : (h.normal - n).sqrNorm ≤ 4 / 3 * κ * (4 / 3 * κ) := by
      rw [← norm_sq]
      have := norm_nonneg (h.normal - n)
      exact mul_le_mul hclose hclose this (by positivity)
    rw [h1, h2, hn2] at h3
    linarith
  have hwn : 2 / 3 * κ ≤ r'.dir.dot n := by
    have h1 := dot_le r'.dir (h.normal - n)
    rw [hw1, one_mul] at h1
    have h2 : r'.dir.dot (h.normal - n) = r'.dir.dot h.normal - r'.dir.dot n := by
      simp only [dot, sub_x, sub_y, sub_z]; ring
    linarith
  have h1 : eps * (1 - 8 / 9 * (κ * κ)) ≤ eps * h.normal.dot n := mul_le_mul_of_nonneg_left hdot he.le
  have h2 : eps * (2 / 3 * κ) ≤ t * r'.dir.dot n := mul_le_mul ht hwn (by positivity) (by linarith)
  have h3 : 0 < eps * κ * (2 / 3 - 8 / 9 * κ) := mul_pos (mul_pos he hκ0) (by linarith)
  nlinarith

/-! ## Spheres -/

/-- The difference of the distances to two points opposite each other around the centre. -/
theorem opposite_distances (v e : V3 ℝ) (R : ℝ) (hR : 0 < R) (hv : v.norm = R) :
    ∃ k, (v + e).norm - (v - e).norm = 2 / R * (v.dot e * k) ∧ k ≤ 1 ∧ 1 - e.sqrNorm / (2 * (R * R)) ≤ k := by
  set A := (v + e).norm with hA
  set B := (v - e).norm with hB
  have hv2 : v.sqrNorm = R * R := by rw [← norm_sq, hv]
  have hA2 : A * A = R * R + 2 * v.dot e + e.sqrNorm := by
    rw [hA, norm_sq, ← hv2]; simp only [dot, sqrNorm, add_x, add_y, add_z]; ring
  have hB2 : B * B = R * R - 2 * v.dot e + e.sqrNorm := by
    rw [hB, norm_sq, ← hv2]; simp only [dot, sqrNorm, sub_x, sub_y, sub_z]; ring
  have hA0 : 0 ≤ A := norm_nonneg _
  have hB0 : 0 ≤ B := norm_nonneg _
  have he0 := sqrNorm_nonneg e
  have hlow : 2 * R ≤ A + B := by
    have h1 := norm_add_le (v + e) (v - e)
    have h2 : v + e + (v - e) = v.smul 2 := by
      ext <;> simp only [add_x, add_y, add_z, sub_x, sub_y, sub_z, smul_x, smul_y, smul_z] <;> ring
    rw [h2, norm_smul', hv, abs_of_pos (by norm_num : (0 : ℝ) < 2)] at h1
    linarith
  have hS : 0 < A + B := by linarith
  have hhigh : A + B ≤ 2 * R + e.sqrNorm / R := by
    have hq : 0 ≤ e.sqrNorm / R := by positivity
    by_contra hc
    rw [not_le] at hc
    have h1 : (2 * R + e.sqrNorm / R) * (2 * R + e.sqrNorm / R) < (A + B) * (A + B) :=
      mul_self_lt_mul_self (by linarith) hc
    have h2 : e.sqrNorm / R * R = e.sqrNorm := div_mul_cancel₀ _ hR.ne'
    nlinarith [mul_self_nonneg (A - B), mul_self_nonneg (e.sqrNorm / R)]
  refine ⟨2 * R / (A + B), ?_, ?_, ?_⟩
  · have h1 : (A - B) * (A + B) = 4 * v.dot e := by nlinarith
    have h2 : A - B = 4 * v.dot e / (A + B) := by rw [eq_div_iff hS.ne', h1]
    rw [h2]
    field_simp
    ring
  · rw [div_le_one hS]; exact hlow
  · rw [le_div_iff₀ hS]
    set x := e.sqrNorm / (2 * (R * R)) with hx
    have hx0 : 0 ≤ x := by positivity
    have h1 : e.sqrNorm / R = 2 * R * x := by rw [hx]; field_simp
    rw [h1] at hhigh
    rcases le_or_gt x 1 with hx1 | hx1
    · have : (1 - x) * (A + B) ≤ (1 - x) * (2 * R + 2 * R * x) := mul_le_mul_of_nonneg_left hhigh (by linarith)
      nlinarith [mul_nonneg hR.le (mul_self_nonneg x)]
    · have : (1 - x) * (A + B) ≤ 0 := mul_nonpos_of_nonpos_of_nonneg (by linarith) hS.le
      linarith

/-- Scaling each component of a unit vector a little moves it a little. -/
theorem scaled_close (u : V3 ℝ) (hu2 : u.sqrNorm = 1) (θ kx ky kz : ℝ) (hθ : 0 ≤ θ) (kx1 : kx ≤ 1) (ky1 : ky ≤ 1)
    (kz1 : kz ≤ 1) (kx0 : 1 - θ ≤ kx) (ky0 : 1 - θ ≤ ky) (kz0 : 1 - θ ≤ kz) :
    ((⟨kx * u.x, ky * u.y, kz * u.z⟩ : V3 ℝ) - u).norm ≤ θ := by
  apply norm_le_of_sq hθ
  have b : ∀ κ a : ℝ, κ ≤ 1 → 1 - θ ≤ κ → (κ * a - a) * (κ * a - a) ≤ θ * θ * (a * a) := by
    intro κ a h1 h2
    have h3 : (1 - κ) * (1 - κ) ≤ θ * θ := mul_self_le_mul_self (by linarith) (by linarith)
    have h4 := mul_le_mul_of_nonneg_right h3 (mul_self_nonneg a)
    have h5 : (κ * a - a) * (κ * a - a) = (1 - κ) * (1 - κ) * (a * a) := by ring
    rw [h5]; exact h4
  have c1 := b kx u.x kx1 kx0
  have c2 := b ky u.y ky1 ky0
  have c3 := b kz u.z kz1 kz0
  have hs2 : θ * θ * (u.x * u.x) + θ * θ * (u.y * u.y) + θ * θ * (u.z * u.z) = θ * θ := by
    have : u.x * u.x + u.y * u.y + u.z * u.z = 1 := hu2
    calc _ = θ * θ * (u.x * u.x + u.y * u.y + u.z * u.z) := by ring
      _ = θ * θ := by rw [this, mul_one]
  simp only [sqrNorm, sub_x, sub_y, sub_z]
  linarith

/-- The normalised direction of a positive multiple. -/
theorem normalized_scaled (m w : V3 ℝ) (hm0 : m ≠ 0) (hwm : m.normalized = some w) (a : ℝ) (ha : 0 < a) :
    m.smul a ≠ 0 ∧ (m.smul a).normalized = some w := by
  have hmn : m.norm ≠ 0 := fun e => hm0 ((norm_eq_zero m).mp e)
  have hsn : (m.smul a).norm = m.norm * a := by rw [norm_smul', abs_of_pos ha]
  have hn0 : (m.smul a).norm ≠ 0 := by rw [hsn]; exact mul_ne_zero hmn ha.ne'
  refine ⟨fun e => hn0 ((norm_eq_zero _).mpr e), ?_⟩
  rw [← hwm]
  unfold normalized
  rw [if_neg hmn, if_neg hn0, hsn]
  congr 1
  ext <;> simp only [smul_x, smul_y, smul_z] <;> field_simp

/-- The estimate behind `leaving_sphere`, in numbers: `R` is the distance of the hit from the centre, `t` the way along
the leaving ray. -/
theorem leaving_numbers (e R t k θ a b d : ℝ) (he : 0 < e) (hR : 0 < R) (ht : e ≤ t) (hkR : k * R = e) (hk0 : 0 < k)
    (hk1 : k ≤ 1 / 2) (hθk : θ = k * k / 2) (ha : 1 - 2 * (θ * θ) ≤ a) (hb : -θ ≤ b) (hd : 0 ≤ d) :
    (R + e) * (R + e) < R * R + e * e + t * t + 2 * e * R * a + 2 * t * R * b + 2 * e * t * d := by
  have ht0 : 0 < t := by linarith
  have a1 : 2 * e * R * (1 - 2 * (θ * θ)) ≤ 2 * e * R * a := mul_le_mul_of_nonneg_left ha (by positivity)
  have a2 : 2 * t * R * (-θ) ≤ 2 * t * R * b := mul_le_mul_of_nonneg_left hb (by positivity)
  have a3 : 0 ≤ 2 * e * t * d := by positivity
  have b1 : 2 * R * θ = e * k := by rw [hθk, ← hkR]; ring
  have b2 : 4 * e * R * (θ * θ) = e * e * (k * k * k) := by rw [hθk, ← hkR]; ring
  have b3 : e * (e - e * k) ≤ t * (t - e * k) := by
    have : e * k ≤ e * (1 / 2) := by gcongr
    exact mul_le_mul ht (by linarith) (by linarith) ht0.le
  have b4 : k * k * k ≤ 1 / 8 := by
    have : k * k ≤ 1 / 2 * (1 / 2) := mul_le_mul hk1 hk1 hk0.le (by norm_num)
    have : k * k * k ≤ 1 / 2 * (1 / 2) * (1 / 2) := mul_le_mul this hk1 hk0.le (by norm_num)
    linarith
  have b5 : 0 < e * e := mul_pos he he
  have b6 : e * e * (k * k * k) ≤ e * e * (1 / 8) := mul_le_mul_of_nonneg_left b4 b5.le
  have b7 : e * (e * k) ≤ e * (e * (1 / 2)) := by gcongr
  have e1 : 2 * t * R * (-θ) = -(t * (e * k)) := by rw [← b1]; ring
  have e2 : 2 * e * R * (1 - 2 * (θ * θ)) = 2 * e * R - e * e * (k * k * k) := by rw [← b2]; ring
  rw [e1] at a2
  rw [e2] at a1
  have e3 : (R + e) * (R + e) = R * R + 2 * e * R + e * e := by ring
  have e4 : e * (e - e * k) = e * e - e * (e * k) := by ring
  have e5 : t * (t - e * k) = t * t - t * (e * k) := by ring
  have e6 : e * (e * (1 / 2)) = e * e * (1 / 2) := by ring
  rw [e4, e5] at b3
  rw [e6] at b7
  rw [e3]
  linarith

/-- Geometry of a ray that leaves a sphere: `u` points outwards, `w` is the normal used, at most `2θ` off, and the ray's
direction is not below the horizon of a multiple `m` of `w` that is at most `θ` off. -/
theorem leaving_sphere (u w m x : V3 ℝ) (R e t k θ : ℝ) (hu2 : u.sqrNorm = 1) (hw1 : w.sqrNorm = 1)
    (hwm : w.smul m.norm = m) (hmu : (m - u).norm ≤ θ) (hwu : (w - u).norm ≤ 2 * θ) (hx2 : x.sqrNorm = 1)
    (hup : 0 ≤ x.dot w) (he : 0 < e) (hR : 0 < R) (ht : e ≤ t) (hkR : k * R = e) (hk0 : 0 < k) (hk1 : k ≤ 1 / 2)
    (hθk : θ = k * k / 2) : R + e < (u.smul R + w.smul e + x.smul t).norm := by
  have hθ0 : 0 ≤ θ := (norm_nonneg _).trans hmu
  have hxn : x.norm = 1 := by rw [norm_eq, hx2, Real.sqrt_one]
  have hb : -θ ≤ u.dot x := by
    have h1 : 0 ≤ x.dot m := by
      have : x.dot m = x.dot w * m.norm := by
        conv_lhs => rw [← hwm]
        simp only [dot, smul_x, smul_y, smul_z]; ring
      rw [this]
      exact mul_nonneg hup (norm_nonneg _)
    have h2 := dot_le x (m - u)
    rw [hxn, one_mul] at h2
    have h3 : x.dot (m - u) = x.dot m - u.dot x := by simp only [dot, sub_x, sub_y, sub_z]; ring
    linarith
  have ha : 1 - 2 * (θ * θ) ≤ u.dot w := by
    have h1 : (w - u).sqrNorm = w.sqrNorm + u.sqrNorm - 2 * u.dot w := by
      simp only [dot, sqrNorm, sub_x, sub_y, sub_z]; ring
    have h3 : (w - u).sqrNorm ≤ 2 * θ * (2 * θ) := by
      rw [← norm_sq]
      exact mul_le_mul hwu hwu (norm_nonneg _) (by linarith)
    rw [h1, hw1, hu2] at h3
    linarith
  have hsq : (u.smul R + w.smul e + x.smul t).sqrNorm = R * R + e * e + t * t + 2 * e * R * u.dot w +
      2 * t * R * u.dot x + 2 * e * t * x.dot w := by
    have : (u.smul R + w.smul e + x.smul t).sqrNorm = R * R * u.sqrNorm + e * e * w.sqrNorm +
        t * t * x.sqrNorm + 2 * e * R * u.dot w + 2 * t * R * u.dot x + 2 * e * t * x.dot w := by
      simp only [dot, sqrNorm, add_x, add_y, add_z, smul_x, smul_y, smul_z]; ring
    rw [this, hu2, hw1, hx2]
    ring
  have hbig := leaving_numbers e R t k θ _ _ _ he hR ht hkR hk0 hk1 hθk ha hb hup
  rw [← hsq] at hbig
  by_contra hc
  rw [not_lt] at hc
  have := mul_self_le_mul_self (norm_nonneg _) hc
  rw [norm_sq] at this
  linarith

/-- The normal that the code computes on a sphere: the outward direction with each component scaled by almost one,
normalised. -/
theorem sphere_normal_value (ss : List Shape) (hw : ∀ s ∈ ss, s.WellFormed) (r : Ray ℝ) (far : Ext ℝ) (steps : ℕ)
    (start : ℝ) (h : Hit) (hm : march (evals ss) r far steps start = .ok (.hit h)) (c : V3 ℝ) (ρ : ℝ)
    (hs : ss[h.shape]? = some (.sphere c ρ)) (ha : Alone ss h.shape (r.point h.t)) (R θ : ℝ)
    (hR : (r.point h.t - c).norm = R) (hR2 : 2 * eps ≤ R) (hθ : θ = eps * eps / (2 * (R * R))) :
    ∃ u m : V3 ℝ, r.point h.t - c = u.smul R ∧ u.sqrNorm = 1 ∧ (m - u).norm ≤ θ ∧ (h.normal - u).norm ≤ 2 * θ ∧
      h.normal.sqrNorm = 1 ∧ h.normal.smul m.norm = m := by
  have he := eps_pos
  have hR0 : 0 < R := by linarith
  obtain ⟨sd, hev, hsd, hnorm⟩ := march_hit _ _ _ _ _ _ hm
  obtain ⟨F, -, -, hFs, hFv⟩ := value_around ss hw _ _ sd hev hsd _ hs ha
  have hFe : ∀ q, F q = sphereEval c ρ q := by
    intro q
    have := hFs q
    simp only [Shape.eval, Option.some.injEq] at this
    exact this.symm
  generalize r.point h.t = p at *
  have comp : ∀ e : V3 ℝ, F (p + e) - F (p - e) = (p - c + e).norm - (p - c - e).norm := by
    intro e
    have h1 : p + e - c = p - c + e := by ext <;> simp only [sub_x, sub_y, sub_z, add_x, add_y, add_z] <;> ring
    have h2 : p - e - c = p - c - e := by ext <;> simp only [sub_x, sub_y, sub_z] <;> ring
    rw [hFe, hFe]
    unfold sphereEval
    rw [h1, h2]
    ring
  generalize p - c = v at *
  obtain ⟨kx, ex, kx1, kx0⟩ := opposite_distances v ⟨eps, 0, 0⟩ R hR0 hR
  obtain ⟨ky, ey, ky1, ky0⟩ := opposite_distances v ⟨0, eps, 0⟩ R hR0 hR
  obtain ⟨kz, ez, kz1, kz0⟩ := opposite_distances v ⟨0, 0, eps⟩ R hR0 hR
  have sq1 : (⟨eps, 0, 0⟩ : V3 ℝ).sqrNorm = eps * eps := by simp [sqrNorm]
  have sq2 : (⟨0, eps, 0⟩ : V3 ℝ).sqrNorm = eps * eps := by simp [sqrNorm]
  have sq3 : (⟨0, 0, eps⟩ : V3 ℝ).sqrNorm = eps * eps := by simp [sqrNorm]
  rw [sq1, ← hθ] at kx0
  rw [sq2, ← hθ] at ky0
  rw [sq3, ← hθ] at kz0
  have hθ0 : 0 ≤ θ := by rw [hθ]; positivity
  have hθ1 : θ < 1 := by
    rw [hθ, div_lt_one (by positivity)]
    have : 2 * eps * (2 * eps) ≤ R * R := mul_self_le_mul_self (by linarith) hR2
    have := mul_pos he he
    linarith
  have hu : (v.smul (1 / R)).norm = 1 := by
    rw [norm_smul', hR, abs_of_pos (by positivity)]
    field_simp
  have hvu : v = (v.smul (1 / R)).smul R := by
    ext <;> simp only [smul_x, smul_y, smul_z] <;> field_simp
  generalize v.smul (1 / R) = u at *
  have hu2 : u.sqrNorm = 1 := by rw [← norm_sq, hu, one_mul]
  have hmu := scaled_close u hu2 θ kx ky kz hθ0 kx1 ky1 kz1 kx0 ky0 kz0
  obtain ⟨hm0, w, hwm, hwn, hwu⟩ := normalized_close _ u hu θ hθ1 hmu
  obtain ⟨w', hw', hw1, hw2⟩ := normalized_spec _ hm0
  rw [hwm] at hw'
  cases hw'
  obtain ⟨hne, hcomp⟩ := normalized_scaled _ w hm0 hwm (2 * eps) (by linarith)
  have vx : v.x = u.x * R := by rw [hvu]; rfl
  have vy : v.y = u.y * R := by rw [hvu]; rfl
  have vz : v.z = u.z * R := by rw [hvu]; rfl
  have hval := sdNormal_of_value (evals ss) p F hFv _
    (by rw [comp, ex]; simp only [dot, smul_x, vx]; field_simp; ring)
    (by rw [comp, ey]; simp only [dot, smul_y, vy]; field_simp; ring)
    (by rw [comp, ez]; simp only [dot, smul_z, vz]; field_simp; ring) hne
  rw [hval, hcomp] at hnorm
  have hwh : h.normal = w := (Option.some.inj hnorm).symm
  rw [hwh]
  exact ⟨u, _, hvu, hu2, hmu, hwu, hw1, hw2⟩

/-- C125 for spheres, down to the horizon: a ray that leaves a sphere of radius at least two tolerances, in any
direction that is not below the horizon of the reported normal, is never reported as hitting that sphere. -/
theorem sphere_no_self_shadow (ss : List Shape) (hw : ∀ s ∈ ss, s.WellFormed) (r : Ray ℝ) (far : Ext ℝ) (steps : ℕ)
    (start : ℝ) (h : Hit) (hm : march (evals ss) r far steps start = .ok (.hit h)) (c : V3 ℝ) (ρ : ℝ)
    (hs : ss[h.shape]? = some (.sphere c ρ)) (hρ : 2 * eps ≤ ρ) (ha : Alone ss h.shape (r.point h.t))
    (hd : r.dir.sqrNorm = 1) (hout : ρ ≤ dist (r.point start) c) (box : Option (B3 ℝ)) (r' : Ray ℝ)
    (hl : Leaves r' h) (hup : 0 ≤ r'.dir.dot h.normal) : Misses ss box r' h.shape := by
  have he := eps_pos
  have hF0 : 0 ≤ (r.point h.t - c).norm - ρ := hit_not_inside ss hw r hd far steps start h hm _ _ hs _
    (sphere_signed_distance c ρ (by linarith)) (sub_nonneg.mpr hout)
  obtain ⟨-, hpl⟩ := march_hit_place _ _ _ _ _ _ hm
  obtain ⟨u, m, hv, hu2, hmu, hwu, hw1, hw2⟩ := sphere_normal_value ss hw r far steps start h hm c ρ hs ha _ _ rfl
    (by linarith) rfl
  generalize (r.point h.t - c).norm = R at *
  have hR0 : 0 < R := by linarith
  refine misses_of_far ss box r' h.shape _ hs fun t ht => ⟨_, rfl, ?_⟩
  have hq : r'.point t - c = u.smul R + h.normal.smul eps + r'.dir.smul t := by
    rw [← hv]
    unfold Ray.point
    rw [hl.1, hpl]
    unfold Ray.point
    ext <;> simp only [sub_x, sub_y, sub_z, add_x, add_y, add_z, smul_x, smul_y, smul_z] <;> ring
  have := leaving_sphere u h.normal m r'.dir R eps t (eps / R) _ hu2 hw1 hw2 hmu hwu hl.2 hup he hR0 ht
    (div_mul_cancel₀ _ hR0.ne') (div_pos he hR0) (by rw [div_le_iff₀ hR0]; linarith) (by field_simp)
  rw [← hq] at this
  show eps < (r'.point t - c).norm - ρ
  linarith

/-- Where the march starts is outside a sphere, if the point a tolerance ahead of the eye is. -/
theorem start_outside (c : V3 ℝ) (ρ : ℝ) (hρ : 0 ≤ ρ) (b : B3 ℝ) (hb : (Shape.sphere c ρ).boundingBox = some b)
    (r : Ray ℝ) (hd : r.dir.sqrNorm = 1) (hout : ρ ≤ dist (r.point eps) c) :
    ρ ≤ dist (r.point (startAt (boxNearFar b r).1)) c := by
  have hbv : b = ⟨⟨c.x - ρ, c.y - ρ, c.z - ρ⟩, ⟨c.x - ρ, c.y - ρ, c.z - ρ⟩ + ⟨2 * ρ, 2 * ρ, 2 * ρ⟩⟩ := by
    simp only [Shape.boundingBox, if_pos (show 2 * ρ ≥ 0 by linarith), Option.some.injEq] at hb
    exact hb.symm
  have hle : b.min.le b.max := by
    rw [hbv]
    refine ⟨?_, ?_, ?_⟩ <;> simp only [add_x, add_y, add_z] <;> linarith
  -- points of the ball are in the box
  have hin : ∀ p : V3 ℝ, dist p c ≤ ρ → b.containsB p := by
    intro p hp
    have hsq : (p - c).sqrNorm ≤ ρ * ρ := by
      rw [← norm_sq]
      exact mul_self_le_mul_self (norm_nonneg _) hp
    unfold sqrNorm at hsq
    have h1 := abs_le.mp (abs_le_of_sq_le_sq (a := (p - c).x) (b := ρ) (by nlinarith) hρ)
    have h2 := abs_le.mp (abs_le_of_sq_le_sq (a := (p - c).y) (b := ρ) (by nlinarith) hρ)
    have h3 := abs_le.mp (abs_le_of_sq_le_sq (a := (p - c).z) (b := ρ) (by nlinarith) hρ)
    simp only [sub_x, sub_y, sub_z] at h1 h2 h3
    rw [hbv]
    refine ⟨⟨?_, ?_, ?_⟩, ?_, ?_, ?_⟩ <;> simp only [add_x, add_y, add_z] <;> linarith [h1.1, h1.2, h2.1, h2.2, h3.1, h3.2]
  by_contra hc
  rw [not_le] at hc
  set st := startAt (boxNearFar b r).1 with hst
  have hge : eps ≤ st := startAt_ge _
  rcases eq_or_lt_of_le hge with he | hlt
  · rw [← he] at hc
    linarith
  · obtain ⟨t, h1, h2, h3⟩ : ∃ t, eps ≤ t ∧ t < st ∧ st - t ≤ ρ - dist (r.point st) c := by
      refine ⟨max eps (st - (ρ - dist (r.point st) c)), le_max_left _ _, max_lt hlt (by linarith), ?_⟩
      have := le_max_right eps (st - (ρ - dist (r.point st) c))
      linarith
    have hball : dist (r.point t) c ≤ ρ := by
      have := dist_triangle (r.point t) (r.point st) c
      rw [ray_dist r hd, abs_of_nonpos (by linarith)] at this
      linarith
    obtain ⟨hnone, hsome⟩ := B3.slabs_spec b r hle
    cases hs : b.slabs r with
    | none => exact hnone hs t (hin _ hball)
    | some nf =>
      obtain ⟨n, f⟩ := nf
      obtain ⟨-, -, -, hiff⟩ := hsome n f hs
      obtain ⟨hn, -⟩ := (hiff t).mpr (hin _ hball)
      have := startAt_le n t hn h1
      rw [hst, boxNearFar_of_slabs b r _ hs] at h2
      dsimp only at h2
      linarith

/-- C125, as the integrators ask: from a point reported on the only sphere of a scene, every light that is not below the
horizon of the reported normal is visible, and the weight of its path is kept. -/
theorem lone_sphere_lit (c : V3 ℝ) (ρ : ℝ) (hρ : 2 * eps ≤ ρ) (b : B3 ℝ)
    (hb : (Shape.sphere c ρ).boundingBox = some b) (r : Ray ℝ) (hd : r.dir.sqrNorm = 1)
    (hout : ρ ≤ dist (r.point eps) c) (h : Hit)
    (hh : intersect (evals [.sphere c ρ]) (sceneBox [b]) r = .ok (.hit h)) (traits : ℕ → Traits M) (r' : Ray ℝ)
    (hl : Leaves r' h) (hup : 0 ≤ r'.dir.dot h.normal) (far : ℝ) (trans : Scene.Segment ℝ M → ℝ) (fuel : ℕ)
    (near beta : ℝ) :
    Scene.intersectTransmittance eps far (accel (evals [.sphere c ρ]) (sceneBox [b]) traits r') none trans (fuel + 1)
      near beta = some (.ok (false, beta)) := by
  have he := eps_pos
  have hw : ∀ s ∈ [Shape.sphere c ρ], s.WellFormed := by
    intro s hs
    rw [List.mem_singleton.1 hs]
    show (0 : ℝ) ≤ ρ
    linarith
  have only : ∀ g q, intersect (evals [.sphere c ρ]) (sceneBox [b]) q = .ok (.hit g) → g.shape = 0 := by
    intro g q hg
    obtain ⟨sd, hev, -, -⟩ := march_hit _ _ _ _ _ _ hg
    obtain ⟨⟨f, hf, -⟩, -⟩ := (closest_shape _ _).1 sd g.shape hev
    have := (List.getElem?_eq_some_iff.mp hf).1
    simp only [evals, List.map_cons, List.map_nil, List.length_cons, List.length_nil] at this
    omega
  have h0 := only h r hh
  have hmiss := sphere_no_self_shadow [.sphere c ρ] hw r _ _ _ h hh c ρ (by rw [h0]; rfl) hρ (alone_single _ _ h0 _) hd
    (start_outside c ρ (by linarith) b hb r hd hout) (sceneBox [b]) r' hl hup
  have ha : accel (evals [.sphere c ρ]) (sceneBox [b]) traits r' near = none := by
    unfold accel
    rw [show ({ r' with near := Ext.fin near } : Ray ℝ) = { r' with near := Ext.fin near, far := r'.far } from rfl,
      interval_ignored]
    cases hi : intersect (evals [.sphere c ρ]) (sceneBox [b]) r' with
    | ok o =>
      cases o with
      | hit g => exact absurd ((only g r' hi).trans h0.symm) (hmiss g hi)
      | passed d => rfl
      | nothing => rfl
      | exhausted d => rfl
    | throw e => rfl
    | ub e => rfl
  unfold Scene.intersectTransmittance Scene.shadowWalk Scene.shadowLoop
  rw [ha]
  rfl

/-! ## Boxes -/

/-- C125 on the faces of boxes, away from the edges: rays that leave to the front do not meet the box again. -/
theorem box_no_self_shadow (ss : List Shape) (hw : ∀ s ∈ ss, s.WellFormed) (r : Ray ℝ) (hd : r.dir.sqrNorm = 1)
    (far : Ext ℝ) (steps : ℕ) (start : ℝ) (h : Hit) (hm : march (evals ss) r far steps start = .ok (.hit h))
    (tlc brc : V3 ℝ) (hs : ss[h.shape]? = some (.box tlc brc)) (ha : Alone ss h.shape (r.point h.t))
    (hout : r.point start ∉ (Shape.box tlc brc).solid) (n : V3 ℝ) (c : ℝ) (hf : (n, c) ∈ faces tlc brc)
    (hoff : ∀ f ∈ faces tlc brc, f ≠ (n, c) → (r.point h.t).dot f.1 + 4 * eps ≤ f.2) (box : Option (B3 ℝ))
    (r' : Ray ℝ) (hl : Leaves r' h) (hup : 0 < r'.dir.dot n) : h.normal = n ∧ Misses ss box r' h.shape := by
  have he := eps_pos
  obtain ⟨F, hFs, hF⟩ := primitives_exact (.box tlc brc) (hw _ (List.mem_of_getElem? hs))
  have hF0 : 0 ≤ F (r.point h.t) := hit_not_inside ss hw r hd far steps start h hm _ _ hs F hF
    (by by_contra hc; exact hout ((hF.inside_iff _).mp (not_le.mp hc).le))
  have hunit : ∀ f ∈ faces tlc brc, f.1.norm = 1 := by
    intro f hf
    have : f.1.sqrNorm = 1 := by
      simp only [faces, List.mem_cons, List.not_mem_nil, or_false] at hf
      rcases hf with rfl | rfl | rfl | rfl | rfl | rfl <;> simp [sqrNorm]
    rw [norm_eq, this, Real.sqrt_one]
  have hbehind : ∀ q ∈ (Shape.box tlc brc).solid, q.dot n ≤ c := fun q hq => (mem_box_iff tlc brc q).mp hq _ hf
  -- the hit is on or in front of the face: otherwise it would be inside the box
  have hσ : c ≤ (r.point h.t).dot n := by
    by_contra hc
    rw [not_le] at hc
    have hdeep : ∃ δ, 0 < δ ∧ ∀ f ∈ faces tlc brc, (r.point h.t).dot f.1 + δ ≤ f.2 := by
      refine ⟨min (4 * eps) (c - (r.point h.t).dot n), lt_min (by linarith) (by linarith), fun f hff => ?_⟩
      by_cases hfe : f = (n, c)
      · rw [hfe]
        have := min_le_right (4 * eps) (c - (r.point h.t).dot n)
        show (r.point h.t).dot n + _ ≤ c
        linarith
      · have := hoff f hff hfe
        have := min_le_left (4 * eps) (c - (r.point h.t).dot n)
        linarith
    obtain ⟨δ, hδ, hall⟩ := hdeep
    have hneg : F (r.point h.t) < 0 := by
      have hle : F (r.point h.t) ≤ 0 := by
        rw [hF.inside_iff, mem_box_iff]
        intro f hff
        have := hall f hff
        linarith
      rcases eq_or_lt_of_le hle with h0 | h0
      · exfalso
        obtain ⟨q, hq, hqd⟩ := hF.inside_approached (r.point h.t) hle (δ / 2) (by linarith)
        apply hq
        rw [mem_box_iff]
        intro f hff
        have h1 := dot_le (q - r.point h.t) f.1
        rw [hunit f hff, mul_one] at h1
        have h2 : (q - r.point h.t).dot f.1 = q.dot f.1 - (r.point h.t).dot f.1 := by
          simp only [dot, sub_x, sub_y, sub_z]; ring
        have h3 : (q - r.point h.t).norm = dist (r.point h.t) q := dist_comm q (r.point h.t)
        have := hall f hff
        linarith
      · exact h0
    linarith
  have hn := hit_normal_box ss hw r far steps start h hm tlc brc hs ha n c hf (by linarith) hoff
  refine ⟨hn, flat_no_self_shadow ss hw r far steps start h hm _ hs n c (hunit _ hf) hn hbehind hσ box r' hl ?_ ?_⟩
  · rw [hn]; exact hup.le
  · rw [hn]; exact Or.inl hup

/-! ## Where surfaces do shadow themselves -/

/-- A ray that is within the tolerance of the only shape where it is first looked at is reported as hitting it there. -/
theorem self_hit (s : Shape) (hw : s.WellFormed) (b : B3 ℝ) (hb : b.min.le b.max) (r : Ray ℝ) (d : ℝ)
    (hbox : b.containsB (r.point eps)) (hd : s.eval (r.point eps) = some d) (hle : d ≤ eps) :
    ∃ g, intersect (evals [s]) (sceneBox [b]) r = .ok (.hit g) ∧ g.t = eps ∧ g.shape = 0 := by
  obtain ⟨hnone, hsome⟩ := B3.slabs_spec b r hb
  cases hs : b.slabs r with
  | none => exact absurd hbox (hnone hs eps)
  | some nf =>
    obtain ⟨n, f⟩ := nf
    obtain ⟨-, -, -, hiff⟩ := hsome n f hs
    obtain ⟨hn, hf⟩ := (hiff eps).mpr hbox
    have hst : startAt n = eps := le_antisymm (startAt_le n eps hn le_rfl) (startAt_ge n)
    obtain ⟨g, hg, h1, h2⟩ := march_end s hw r f 1999 eps d hf hd hle
    refine ⟨g, ?_, h1, h2⟩
    show march _ _ (boxNearFar b r).2 2000 (startAt (boxNearFar b r).1) = _
    rw [boxNearFar_of_slabs b r _ hs]
    dsimp only
    rw [hst]
    exact hg

/-- C125 fails for a wall seen head on. The reported normal lies in the wall (C115), so the rays that leave start in the
wall, and each of them, also the one straight back to the eye, is reported as hitting the wall. No light reaches it. -/
theorem wall_dark_refuted :
    ∃ (s : Shape) (b : B3 ℝ) (r : Ray ℝ) (h : Hit), s = .plane ⟨0, 0, 0⟩ ⟨0, 0, 1⟩ ∧ s.WellFormed ∧
      s.boundingBox = some b ∧ r.dir.sqrNorm = 1 ∧ intersect (evals [s]) (sceneBox [b]) r = .ok (.hit h) ∧
      ∀ r', Leaves r' h →
        (∃ g, intersect (evals [s]) (sceneBox [b]) r' = .ok (.hit g) ∧ g.t = eps ∧ g.shape = h.shape) ∧
        ∀ (traits : ℕ → Traits M), (traits 0).isNull = false → ∀ far trans fuel near beta,
          Scene.intersectTransmittance eps far (accel (evals [s]) (sceneBox [b]) traits r') none trans (fuel + 1) near
            beta = some (.ok (true, beta)) := by
  obtain ⟨b, hb, hi⟩ := intersect_down ⟨0, 0, 1⟩ 1 (by norm_num)
  have hw : (Shape.plane ⟨0, 0, 0⟩ ⟨0, 0, 1⟩).WellFormed := by
    show (⟨0, 0, 1⟩ : V3 ℝ).sqrNorm = 1
    simp [sqrNorm]
  have he : eps = 1 / 1000 := rfl
  have s1 := march_go (.plane ⟨0, 0, 0⟩ ⟨0, 0, 1⟩) (down 1) (Ext.fin (1 + 5000)) 1999 eps (999 / 1000)
    (by rw [Ext.fin_le_fin, he]; norm_num) (by rw [down_eval, he]; norm_num) (by rw [he]; norm_num)
  have e1 : eps + 999 / 1000 = 1 := by rw [he]; norm_num
  rw [e1] at s1
  obtain ⟨h, s2, ht, hs⟩ := march_end (.plane ⟨0, 0, 0⟩ ⟨0, 0, 1⟩) hw (down 1) (Ext.fin (1 + 5000)) 1998 1 0
    (by rw [Ext.fin_le_fin]; norm_num) (by rw [down_eval]; norm_num) (by rw [he]; norm_num)
  have hn := (hit_normal_plane_value [.plane ⟨0, 0, 0⟩ ⟨0, 0, 1⟩] (by simpa using hw) (down 1) _ _ _ h s2
    ⟨0, 0, 0⟩ ⟨0, 0, 1⟩ (by rw [hs]; rfl) (alone_single _ _ hs _)).1
    (by rw [ht]; simp [down, Ray.point, dot])
  obtain ⟨-, hpl⟩ := march_hit_place _ _ _ _ _ _ s2
  have hp : h.p = ⟨0, eps, 0⟩ := by
    rw [hpl, hn, ht]
    ext <;> simp [down, Ray.point]
  refine ⟨_, b, down 1, h, rfl, hw, hb, by simp [down, sqrNorm], by rw [hi, s1, s2], fun r' hl => ?_⟩
  have hq : r'.point eps = ⟨r'.dir.x * eps, eps + r'.dir.y * eps, r'.dir.z * eps⟩ := by
    unfold Ray.point
    rw [hl.1, hp]
    ext <;> simp
  have hcomp : ∀ a : ℝ, a * a ≤ 1 → -eps ≤ a * eps ∧ a * eps ≤ eps := by
    intro a ha
    have := abs_le.mp (abs_le_of_sq_le_sq (a := a) (b := 1) (by nlinarith) (by norm_num))
    rw [he]
    constructor <;> linarith [this.1, this.2]
  have hsq : r'.dir.x * r'.dir.x + r'.dir.y * r'.dir.y + r'.dir.z * r'.dir.z = 1 := hl.2
  have hx := hcomp r'.dir.x (by nlinarith [mul_self_nonneg r'.dir.y, mul_self_nonneg r'.dir.z])
  have hy := hcomp r'.dir.y (by nlinarith [mul_self_nonneg r'.dir.x, mul_self_nonneg r'.dir.z])
  have hz := hcomp r'.dir.z (by nlinarith [mul_self_nonneg r'.dir.y, mul_self_nonneg r'.dir.x])
  rw [he] at hx hy hz
  have hbv : b = ⟨⟨0, 0, 0⟩ - ⟨5000, 5000, 5000⟩, ⟨0, 0, 0⟩ - ⟨5000, 5000, 5000⟩ + ⟨10000, 10000, 10000⟩⟩ :=
    (Option.some.inj hb).symm
  obtain ⟨g, hg, hgt, hgs⟩ := self_hit (.plane ⟨0, 0, 0⟩ ⟨0, 0, 1⟩) hw b
    (by rw [hbv]; refine ⟨?_, ?_, ?_⟩ <;> simp only [add_x, add_y, add_z, sub_x, sub_y, sub_z] <;> norm_num) r'
    |r'.dir.z * eps|
    (by
      rw [hbv, hq, he]
      refine ⟨⟨?_, ?_, ?_⟩, ?_, ?_, ?_⟩ <;> simp only [add_x, add_y, add_z, sub_x, sub_y, sub_z] <;>
        linarith [hx.1, hx.2, hy.1, hy.2, hz.1, hz.2])
    (by
      rw [hq]
      simp only [Shape.eval, planeEval]
      congr 2
      simp [dot])
    (by rw [he]; exact abs_le.mpr hz)
  refine ⟨⟨g, hg, hgt, by rw [hgs, hs]⟩, fun traits hv far trans fuel near beta => ?_⟩
  have ha : accel (evals [.plane ⟨0, 0, 0⟩ ⟨0, 0, 1⟩]) (sceneBox [b]) traits r' near =
      some ⟨g.t, (traits g.shape).isNull, (traits g.shape).boundary⟩ := by
    unfold accel
    rw [show ({ r' with near := Ext.fin near } : Ray ℝ) = { r' with near := Ext.fin near, far := r'.far } from rfl,
      interval_ignored, hg]
  unfold Scene.intersectTransmittance Scene.shadowWalk Scene.shadowLoop
  rw [ha]
  simp only [hgs, hv]
  rfl

/-! ## The hypotheses are met -/

/-- A sphere seen from outside, and the ray straight back. -/
example : ∃ h, intersect ballScene ballBox (zRay ⊤) = .ok (.hit h) ∧
    (Shape.sphere ⟨0, 0, 2⟩ 1).boundingBox = some ⟨⟨-1, -1, 1⟩, ⟨1, 1, 3⟩⟩ ∧ 2 * eps ≤ 1 ∧ h.shape = 0 ∧
    1 ≤ dist ((zRay ⊤).point eps) ⟨0, 0, 2⟩ ∧ Leaves ⟨h.p, h.normal, Ext.fin eps, ⊤⟩ h ∧
    0 ≤ h.normal.dot h.normal := by
  obtain ⟨h, hi, h1, h2, h3⟩ := ballScene_hit ⊤
  have he : eps = 1 / 1000 := rfl
  have hw : ∀ s ∈ [Shape.sphere ⟨0, 0, 2⟩ 1], s.WellFormed := by
    intro s hs
    rw [List.mem_singleton.1 hs]
    show (0 : ℝ) ≤ 1
    norm_num
  refine ⟨h, hi, ?_, by rw [he]; norm_num, h3, ?_, ⟨rfl, ?_⟩, ?_⟩
  · simp only [Shape.boundingBox, if_pos (show (2 * 1 : ℝ) ≥ 0 by norm_num)]
    norm_num [V3.ext_iff, B3.ext_iff]
  · unfold dist
    have : ((zRay ⊤).point eps - ⟨0, 0, 2⟩).norm = |eps - 2| := by
      unfold V3.norm
      rw [← Real.sqrt_sq_eq_abs]
      congr 1
      simp [zRay, Ray.point]; ring
    rw [this, he]
    norm_num
  · obtain ⟨o, ho, hso⟩ := march_sound ballScene _ (evals_conservative _ hw) (zRay ⊤)
      (by simp [zRay, sqrNorm]) (boxNearFar ⟨⟨-1, -1, 1⟩, ⟨1, 1, 3⟩⟩ (zRay ⊤)).2 2000
      (startAt (boxNearFar ⟨⟨-1, -1, 1⟩, ⟨1, 1, 3⟩⟩ (zRay ⊤)).1)
    have hi' : march ballScene (zRay ⊤) (boxNearFar ⟨⟨-1, -1, 1⟩, ⟨1, 1, 3⟩⟩ (zRay ⊤)).2 2000
      (startAt (boxNearFar ⟨⟨-1, -1, 1⟩, ⟨1, 1, 3⟩⟩ (zRay ⊤)).1) = .ok (.hit h) := hi
    rw [hi'] at ho
    cases ho
    obtain ⟨-, -, -, -, hu, -⟩ := hso
    show h.normal.sqrNorm = 1
    first | exact hu | (rw [← norm_sq, hu, one_mul])
  · simp only [dot]
    nlinarith [mul_self_nonneg h.normal.x, mul_self_nonneg h.normal.y, mul_self_nonneg h.normal.z]

/-- A cube seen from below, and the ray straight back, which does not meet the cube again (also for
`flat_no_self_shadow`). -/
example : ∃ h, march (evals [.box ⟨1, 1, 3⟩ ⟨-1, -1, 1⟩]) (zRay ⊤) ⊤ 2000 eps = .ok (.hit h) ∧
    Misses [.box ⟨1, 1, 3⟩ ⟨-1, -1, 1⟩] none ⟨h.p, ⟨0, 0, -1⟩, Ext.fin eps, ⊤⟩ h.shape := by
  have he : eps = 1 / 1000 := rfl
  have hw : (Shape.box ⟨1, 1, 3⟩ ⟨-1, -1, 1⟩).WellFormed := by
    show V3.le _ _
    refine ⟨?_, ?_, ?_⟩ <;> norm_num
  have ev : ∀ t : ℝ, 0 ≤ t → t ≤ 1 → (Shape.box ⟨1, 1, 3⟩ ⟨-1, -1, 1⟩).eval ((zRay ⊤).point t) =
      some (1 - t) := by
    intro t h0 h1
    simp only [Shape.eval, boxEval, boxFormula, zRay, Ray.point]
    congr 1
    rw [maxS_norm]
    simp only [add_x, add_y, add_z, sub_x, sub_y, sub_z, smul_x, smul_y, smul_z]
    have e : |0 + 1 * t - (3 + 1) / 2| - (3 - 1) / 2 = 1 - t := by
      rw [abs_of_nonpos (by linarith)]; ring
    rw [e]
    norm_num
    rw [max_eq_left (by linarith), max_eq_right (by linarith : (-1 : ℝ) ≤ 1 - t),
      min_eq_right (by linarith)]
    ring
  have s1 := march_go _ (zRay ⊤) ⊤ 1999 eps (999 / 1000) le_top
    (by rw [ev eps (by rw [he]; norm_num) (by rw [he]; norm_num), he]; norm_num) (by rw [he]; norm_num)
  obtain ⟨h, s2, ht, hs⟩ := march_end _ hw (zRay ⊤) ⊤ 1998 (eps + 999 / 1000) 0 le_top
    (by rw [ev _ (by rw [he]; norm_num) (by rw [he]; norm_num), he]; norm_num) (by rw [he]; norm_num)
  refine ⟨h, by rw [s1, s2], ?_⟩
  refine (box_no_self_shadow [.box ⟨1, 1, 3⟩ ⟨-1, -1, 1⟩] (by simpa using hw) (zRay ⊤) (by simp [zRay, sqrNorm]) _ _ _ h
    (s1.trans s2) ⟨1, 1, 3⟩ ⟨-1, -1, 1⟩ (by rw [hs]; rfl) (alone_single _ _ hs _) ?_ ⟨0, 0, -1⟩ (-1) (by simp [faces]) ?_ none _
    ⟨rfl, by simp [sqrNorm]⟩ (by simp [dot])).2
  · show ¬ (V3.le _ _ ∧ V3.le _ _)
    rintro ⟨⟨-, -, h1⟩, -⟩
    simp only [zRay, Ray.point, add_z, smul_z, he] at h1
    norm_num at h1
  · rw [ht, he]
    simp [faces, zRay, Ray.point, dot]
    norm_num

end Feign.Sdf
