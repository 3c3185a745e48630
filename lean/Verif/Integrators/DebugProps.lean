import Verif.Integrators.TimerProps
import Verif.Integrators.Picture
import Verif.Shaders.WireframeProps

/-!
# C113: the debug views show what they are named after

`normal`, `nice_normal`, `cosine_term` and `barycentric`: what the colour tells about the surface, whether the background
can be told apart, and what the image tends to.
-/

set_option linter.unusedSectionVars false
set_option linter.unusedVariables false
set_option linter.unusedSimpArgs false

namespace Feign.Integrators

open Sampling MeasureTheory Warp Image _root_.Filter Topology Shaders Shapes
open scoped ENNReal

/-! ## Specification -/

/-- A view shows the colour `c` and leaves the timers as they were. -/
def Shows {K : Type} (view : Clk (V3 K)) (c : V3 K) : Prop := ∀ t, Idle t → view t = .ok (c, t)

/-- Two normals differ in the signs of their components only. -/
def UpToSigns {K : Type} [Neg K] (m n : V3 K) : Prop :=
  (m.x = n.x ∨ m.x = -n.x) ∧ (m.y = n.y ∨ m.y = -n.y) ∧ (m.z = n.z ∨ m.z = -n.z)

/-- What the view `cosine_term` should show: the cosine of the angle between the shading normal and the direction towards
the viewer, that is against the camera ray. -/
def viewerCosine {K : Type} [Field K] (dir n : V3 K) : K := n.dot (dir.smul (-1))

/-- A program that draws from the sampler is the debug view `view`, which takes a number of queries and a ray: for every
ray the colour is that of the view, and nothing is drawn. -/
def IsView {R : Type} (view : ℕ → R → Clk (V3 ℝ)) (Li : R → Stream → V3 ℝ × Stream) : Prop :=
  ∀ r ω, (∀ q, Shows (view q r) (Li r ω).1) ∧ (Li r ω).2 = ω

/-! ## Colours -/

theorem Shows.unique {K : Type} {view : Clk (V3 K)} {c d : V3 K} (hc : Shows view c) (hd : Shows view d) : c = d := by
  have h := (hc (fun _ => false) fun _ _ => rfl).symm.trans (hd (fun _ => false) fun _ _ => rfl)
  exact congrArg Prod.fst (Res.ok.inj h)

section field
variable {K : Type} [Field K] [LinearOrder K] [IsStrictOrderedRing K]

theorem shows_normal (q : ℕ) (hit : Option (V3 K)) :
    Shows (normalLi q hit) (match hit with | none => 0 | some n => n.absV) := fun t ht => normal_eq ht q hit

theorem shows_niceNormal (q : ℕ) (hit : Option (V3 K)) :
    Shows (niceNormalLi q hit) (match hit with | none => 0 | some n => (n + ⟨1, 1, 1⟩).smul (1 / 2)) :=
  fun t ht => niceNormal_eq ht q hit

theorem shows_cosine (q : ℕ) (dir : V3 K) (hit : Option (V3 K)) :
    Shows (cosineLi q dir hit)
      (match hit with | none => ⟨-2, -2, -2⟩ | some n => ⟨n.dot dir, n.dot dir, n.dot dir⟩) :=
  fun t ht => cosine_eq ht q dir hit

theorem shows_barycentric (q : ℕ) (hit : Option (V3 K)) :
    Shows (barycentricLi q hit)
      (match hit with
        | none => ⟨-2, -2, -2⟩
        | some b => if min b.x (min b.y b.z) < 1 / 100 then white else 0) :=
  fun t ht => barycentric_eq ht q hit

private theorem abs_comp (a : K) : (if a < 0 then -a else a) = |a| := by
  split_ifs with h
  · exact (abs_of_neg h).symm
  · exact (abs_of_nonneg (not_lt.1 h)).symm

theorem absV_eq (n : V3 K) : n.absV = ⟨|n.x|, |n.y|, |n.z|⟩ := by
  simp only [V3.absV, abs_comp]

/-- C113, view `normal`: the colour consists of the absolute values of the components of the shading normal, so two
normals look the same exactly if they differ in signs only; the background is black and no surface with a normal other
than zero is. -/
theorem normal_view (q q' : ℕ) (m n : V3 K) :
    Shows (normalLi q (some n)) ⟨|n.x|, |n.y|, |n.z|⟩ ∧
    ((∃ c, Shows (normalLi q (some m)) c ∧ Shows (normalLi q' (some n)) c) ↔ UpToSigns m n) ∧
    Shows (normalLi (K := K) q none) 0 ∧ (Shows (normalLi q (some n)) 0 → n = 0) := by
  have hs : ∀ q (n : V3 K), Shows (normalLi q (some n)) ⟨|n.x|, |n.y|, |n.z|⟩ := by
    intro q n
    rw [← absV_eq]
    exact shows_normal q (some n)
  refine ⟨hs q n, ⟨?_, ?_⟩, shows_normal q none, ?_⟩
  · rintro ⟨c, h1, h2⟩
    have e := ((hs q m).unique h1).trans (h2.unique (hs q' n))
    simp only [V3.mk.injEq] at e
    exact ⟨abs_eq_abs.1 e.1, abs_eq_abs.1 e.2.1, abs_eq_abs.1 e.2.2⟩
  · rintro ⟨hx, hy, hz⟩
    refine ⟨_, hs q m, ?_⟩
    rw [abs_eq_abs.2 hx, abs_eq_abs.2 hy, abs_eq_abs.2 hz]
    exact hs q' n
  · intro h
    have e := (hs q n).unique h
    have ex := congrArg V3.x e
    have ey := congrArg V3.y e
    have ez := congrArg V3.z e
    simp only [V3.zero_x, V3.zero_y, V3.zero_z, abs_eq_zero] at ex ey ez
    ext <;> simp [ex, ey, ez]

/-- C113, view `nice_normal`: the shading normal can be read off the colour; for a unit normal all components of the
colour lie between zero and one, and the colour is not the black of the background. -/
theorem nice_normal_view (q : ℕ) (n : V3 K) :
    ∃ c, Shows (niceNormalLi q (some n)) c ∧ n = c.smul 2 - ⟨1, 1, 1⟩ ∧ Shows (niceNormalLi (K := K) q none) 0 ∧
      (n.sqrNorm = 1 → (∀ i, 0 ≤ c.get i ∧ c.get i ≤ 1) ∧ c ≠ 0) := by
  refine ⟨_, shows_niceNormal q (some n), ?_, shows_niceNormal q none, fun h1 => ⟨?_, ?_⟩⟩
  · ext <;> simp only [V3.sub_x, V3.sub_y, V3.sub_z, V3.add_x, V3.add_y, V3.add_z, V3.smul_x, V3.smul_y, V3.smul_z] <;>
      ring
  · simp only [V3.sqrNorm] at h1
    have hb : ∀ a b c : K, a * a + b * b + c * c = 1 → -1 ≤ a ∧ a ≤ 1 := fun a b c h =>
      ⟨by nlinarith [mul_self_nonneg b, mul_self_nonneg c], by nlinarith [mul_self_nonneg b, mul_self_nonneg c]⟩
    have bx := hb n.x n.y n.z h1
    have by' := hb n.y n.z n.x (by linarith)
    have bz := hb n.z n.x n.y (by linarith)
    intro i
    fin_cases i <;> simp [V3.get] <;> constructor <;> linarith [bx.1, bx.2, by'.1, by'.2, bz.1, bz.2]
  · intro h
    have ex := congrArg V3.x h
    have ey := congrArg V3.y h
    have ez := congrArg V3.z h
    simp only [V3.add_x, V3.add_y, V3.add_z, V3.smul_x, V3.smul_y, V3.smul_z, V3.zero_x, V3.zero_y, V3.zero_z] at ex ey ez
    have hx : n.x = -1 := by linarith
    have hy : n.y = -1 := by linarith
    have hz : n.z = -1 := by linarith
    simp only [V3.sqrNorm, hx, hy, hz] at h1
    norm_num at h1

theorem dot_sq_le (m n : V3 K) (hm : m.sqrNorm = 1) (hn : n.sqrNorm = 1) : -1 ≤ m.dot n ∧ m.dot n ≤ 1 := by
  simp only [V3.sqrNorm, V3.dot] at *
  constructor
  · nlinarith [mul_self_nonneg (m.x + n.x), mul_self_nonneg (m.y + n.y), mul_self_nonneg (m.z + n.z)]
  · nlinarith [mul_self_nonneg (m.x - n.x), mul_self_nonneg (m.y - n.y), mul_self_nonneg (m.z - n.z)]

/-- C113, view `cosine_term`: the grey value is minus the cosine towards the viewer; for unit vectors it lies between
minus one and one, away from the value minus two of the background. -/
theorem cosine_view_partial (q : ℕ) (dir n : V3 K) :
    ∃ c, Shows (cosineLi q dir (some n)) ⟨c, c, c⟩ ∧ c = -viewerCosine dir n ∧
      Shows (cosineLi (K := K) q dir none) ⟨-2, -2, -2⟩ ∧
      (dir.sqrNorm = 1 → n.sqrNorm = 1 → -1 ≤ c ∧ c ≤ 1) :=
  ⟨_, shows_cosine q dir (some n), by simp only [viewerCosine, V3.dot, V3.smul_x, V3.smul_y, V3.smul_z]; ring,
    shows_cosine q dir none, fun hd hn => dot_sq_le n dir hn hd⟩

/-- C113 fails for the view `cosine_term`: a surface whose shading normal points at the viewer should show one and shows
minus one. It shows the cosine towards the viewer only where that is zero. -/
theorem cosine_view_refuted (q : ℕ) :
    (∃ dir n : V3 K, dir.sqrNorm = 1 ∧ n.sqrNorm = 1 ∧ viewerCosine dir n = 1 ∧
      Shows (cosineLi q dir (some n)) ⟨-1, -1, -1⟩) ∧
    ∀ dir n : V3 K, (Shows (cosineLi q dir (some n)) ⟨viewerCosine dir n, viewerCosine dir n, viewerCosine dir n⟩ ↔
      viewerCosine dir n = 0) := by
  constructor
  · refine ⟨⟨0, 0, -1⟩, ⟨0, 0, 1⟩, by simp [V3.sqrNorm], by simp [V3.sqrNorm], by simp [viewerCosine, V3.dot], ?_⟩
    have := shows_cosine (K := K) q ⟨0, 0, -1⟩ (some ⟨0, 0, 1⟩)
    simpa [V3.dot] using this
  · intro dir n
    obtain ⟨c, hc, he, -, -⟩ := cosine_view_partial q dir n
    constructor
    · intro h
      have := congrArg V3.x (h.unique hc)
      dsimp only at this
      linarith
    · intro h
      have : c = viewerCosine dir n := by linarith
      rwa [this] at hc

theorem min_iff (b : V3 K) (t : K) : min b.x (min b.y b.z) < t ↔ b.x < t ∨ b.y < t ∨ b.z < t := by
  simp only [min_lt_iff]

/-- C113 fails for the view `barycentric` on distance functions: every point is white. -/
theorem barycentric_sdf_refuted (q : ℕ) : Shows (barycentricLi (K := K) q (some sdfBary)) white := by
  have := shows_barycentric (K := K) q (some sdfBary)
  simpa [sdfBary] using this

end field

/-- C113, view `barycentric` on meshes: a point is white if its distance to one of the edges is less than a hundredth of
the height of the triangle over that edge, and black otherwise. The background is minus two. -/
theorem barycentric_view_partial (p0 p1 p2 : V3 ℝ) (hnd : (p1 - p0).cross (p2 - p0) ≠ 0) (u v : ℝ) (hu : 0 ≤ u)
    (hv : 0 ≤ v) (huv : u + v ≤ 1) (h0 h1 h2 d0 d1 d2 : ℝ) (hh0 : IsLineDist p1 p2 p0 h0) (hh1 : IsLineDist p2 p0 p1 h1)
    (hh2 : IsLineDist p0 p1 p2 h2) (hd0 : IsLineDist p1 p2 (hitPoint p0 p1 p2 u v) d0)
    (hd1 : IsLineDist p2 p0 (hitPoint p0 p1 p2 u v) d1) (hd2 : IsLineDist p0 p1 (hitPoint p0 p1 p2 u v) d2) (q : ℕ) :
    Shows (barycentricLi q (some (meshBary u v)))
      (if d0 < h0 / 100 ∨ d1 < h1 / 100 ∨ d2 < h2 / 100 then white else 0) ∧
    Shows (barycentricLi (K := ℝ) q none) ⟨-2, -2, -2⟩ := by
  refine ⟨?_, shows_barycentric q none⟩
  have e := wire_near_edges p0 p1 p2 hnd u v hu hv huv h0 h1 h2 d0 d1 d2 hh0 hh1 hh2 hd0 hd1 hd2 (1 / 100)
    (white : V3 ℝ) 0
  have s := shows_barycentric (K := ℝ) q (some (meshBary u v))
  have e2 : ∀ h : ℝ, h / 100 = 1 / 100 * h := fun h => by ring
  rw [choose_iff] at e
  simp only [min_iff] at s
  rw [e2 h0, e2 h1, e2 h2, ← e]
  exact s

/-! ## Images -/

section images
variable {R : Type} [MeasurableSpace R] {ray : ℝ × ℝ → ℝ × ℝ → R}

theorem after_congr {L M : R → Stream → V3 ℝ × Stream} (h : ∀ r ω, (L r ω).2 = (M r ω).2) (l : List (ℕ × ℕ)) :
    Image.after ray L l = Image.after ray M l := by
  funext ω
  unfold Image.after
  congr 1
  funext ω p
  simp only [shoot, h]

theorem still_lawful (hc : Measurable fun q : (ℝ × ℝ) × (ℝ × ℝ) => ray q.1 q.2) (f : R → V3 ℝ) (hf : Measurable f)
    (h0 : ∀ r, NonNeg (f r)) (B : ℝ) (hB : ∀ r c, (f r).get c ≤ B) :
    Image.Lawful ray fun r ω => (f r, ω) where
  cam := hc
  meas := (hf.comp measurable_fst).prodMk measurable_snd
  fresh := fun r => fresh_pure (f r)
  nonneg := fun r ω => h0 r
  bounded := ⟨ENNReal.ofReal B, ENNReal.ofReal_ne_top, fun r c => by
    simp only [lintegral_const, measure_univ, mul_one]
    exact ENNReal.ofReal_le_ofReal (hB r c)⟩

/-- The image of a view that draws nothing, with values from `-b` on: each pixel plus `b` tends to the filtered value
plus `b`. -/
theorem still_converges (hc : Measurable fun q : (ℝ × ℝ) × (ℝ × ℝ) => ray q.1 q.2) (f : R → V3 ℝ) (hf : Measurable f)
    (b B : ℝ) (hb : 0 ≤ b) (h0 : ∀ r c, -b ≤ (f r).get c) (hB : ∀ r c, (f r).get c ≤ B) (w h : ℕ) :
    ∀ᵐ ω ∂uniform, ∃ img : ℕ → Int → Int → Fin 3 → ℝ,
      (∀ spp, renderWith apiDefaultFilter w h spp ray (fun r ω => (f r, ω)) ω = .ok (img spp)) ∧
      ∀ (x y : ℕ) (c : Fin 3), x < w → y < h →
        Tendsto (fun spp => img spp x y c + b) atTop
          (𝓝 (filtered apiDefaultFilter w h x y
            (Image.lightAt ray fun r => ENNReal.ofReal ((f r).get c + b))).toReal) := by
  have ht : apiDefaultFilter.Tame := gauss_tame 2 2 1 (by norm_num) (by norm_num)
  let g : R → V3 ℝ := fun r => ⟨(f r).x + b, (f r).y + b, (f r).z + b⟩
  have hg : ∀ r c, (g r).get c = (f r).get c + b := fun r c => by fin_cases c <;> rfl
  have mg : Measurable g := measurable_mk ((measurable_x.comp hf).add measurable_const)
    ((measurable_y.comp hf).add measurable_const) ((measurable_z.comp hf).add measurable_const)
  have L1 : Image.Lawful ray fun r ω => (g r, ω) := by
    refine still_lawful hc g mg (fun r => ?_) (B + b) fun r c => by rw [hg]; linarith [hB r c]
    have a0 := h0 r 0
    have a1 := h0 r 1
    have a2 := h0 r 2
    simp only [V3.get] at a0 a1 a2
    refine ⟨?_, ?_, ?_⟩ <;> simp only [g] <;> linarith
  have L2 : Image.Lawful ray fun (r : R) ω => ((white : V3 ℝ), ω) :=
    still_lawful hc (fun _ => white) measurable_const (fun _ => NonNeg.white) 1 fun r c => by rw [white_get]
  filter_upwards [default_filter_converges L1 w h, default_filter_converges L2 w h] with ω ⟨img1, h1, l1⟩ ⟨img2, h2, l2⟩
  have hr := fun spp => render_pixel_eq apiDefaultFilter ht.well.support w h spp
    (obsAt ray (fun r ω => (f r, ω)) w h ω)
  choose img himg hval using hr
  refine ⟨img, fun spp => by rw [renderWith_eq]; exact himg spp, fun x y c hx hy => ?_⟩
  have pos : ∀ (L M : R → Stream → V3 ℝ × Stream), (∀ r ω, (L r ω).2 = (M r ω).2) → ∀ k i j,
      samplePos (obsAt ray L w h ω) k i j = samplePos (obsAt ray M w h ω) k i j := by
    intro L M e k i j
    simp only [samplePos, obsAt, toObs, shoot, after_congr e]
  have wt : ∀ (L M : R → Stream → V3 ℝ × Stream), (∀ r ω, (L r ω).2 = (M r ω).2) → ∀ spp,
      totalWeight apiDefaultFilter w h spp (obsAt ray L w h ω) x y =
        totalWeight apiDefaultFilter w h spp (obsAt ray M w h ω) x y := by
    intro L M e spp
    simp only [totalWeight, sampleWeight, pos L M e]
  have val : ∀ (L : R → Stream → V3 ℝ × Stream) (im : ℕ → Int → Int → Fin 3 → ℝ),
      (∀ spp, renderWith apiDefaultFilter w h spp ray L ω = .ok (im spp)) → ∀ spp,
      im spp x y c = if totalWeight apiDefaultFilter w h spp (obsAt ray L w h ω) x y = 0 then 0
        else totalRadiance apiDefaultFilter w h spp (obsAt ray L w h ω) x y c /
          totalWeight apiDefaultFilter w h spp (obsAt ray L w h ω) x y := by
    intro L im hi spp
    obtain ⟨im', e1, e2⟩ := render_pixel_eq apiDefaultFilter ht.well.support w h spp (obsAt ray L w h ω)
    have := hi spp
    rw [renderWith_eq, e1] at this
    rw [← Res.ok.inj this]
    exact e2 x y c hx hy
  have key : ∀ spp, img spp x y c = img1 spp x y c - b * img2 spp x y c := by
    intro spp
    rw [hval spp x y c hx hy, val _ img1 h1 spp, val _ img2 h2 spp,
      wt (fun r ω => (g r, ω)) (fun r ω => (f r, ω)) (fun _ _ => rfl),
      wt (fun r ω => (white, ω)) (fun r ω => (f r, ω)) (fun _ _ => rfl)]
    split_ifs with h0
    · simp
    · have e1 : totalRadiance apiDefaultFilter w h spp (obsAt ray (fun r ω => (g r, ω)) w h ω) x y c =
          totalRadiance apiDefaultFilter w h spp (obsAt ray (fun r ω => (f r, ω)) w h ω) x y c +
            b * totalWeight apiDefaultFilter w h spp (obsAt ray (fun r ω => (f r, ω)) w h ω) x y := by
        simp only [totalRadiance, totalWeight, Finset.mul_sum, ← Finset.sum_add_distrib]
        refine Finset.sum_congr rfl fun k _ => Finset.sum_congr rfl fun i _ => Finset.sum_congr rfl fun j _ => ?_
        have e : (obsAt ray (fun r ω => (g r, ω)) w h ω k i j).rad c =
            (obsAt ray (fun r ω => (f r, ω)) w h ω k i j).rad c + b := by
          simp only [obsAt, toObs, shoot, hg,
            after_congr (ray := ray) (L := fun r ω => (g r, ω)) (M := fun r ω => (f r, ω)) (fun _ _ => rfl)]
        have e' : sampleWeight apiDefaultFilter (obsAt ray (fun r ω => (g r, ω)) w h ω) x y k i j =
            sampleWeight apiDefaultFilter (obsAt ray (fun r ω => (f r, ω)) w h ω) x y k i j := by
          simp only [sampleWeight, pos (fun r ω => (g r, ω)) (fun r ω => (f r, ω)) fun _ _ => rfl]
        rw [e, e']
        ring
      have e2 : totalRadiance apiDefaultFilter w h spp (obsAt ray (fun (r : R) ω => ((white : V3 ℝ), ω)) w h ω) x y c =
          totalWeight apiDefaultFilter w h spp (obsAt ray (fun r ω => (f r, ω)) w h ω) x y := by
        rw [← wt (fun r ω => (white, ω)) (fun r ω => (f r, ω)) (fun _ _ => rfl)]
        simp only [totalRadiance, totalWeight, obsAt, toObs, shoot, white_get, mul_one]
      rw [e1, e2]
      field_simp
      ring
  have t1 := l1 x y c hx hy
  have t2 := l2 x y c hx hy
  simp only [hg, white_get, ENNReal.ofReal_one, lintegral_const, measure_univ, mul_one] at t1 t2
  have e1 : (Image.lightAt ray fun _ => (1 : ℝ≥0∞)) = fun _ => 1 := by
    funext p
    simp [Image.lightAt]
  rw [e1, filtered_default_const w h x y hx hy 1] at t2
  have := (t1.sub (t2.const_mul b)).add_const b
  simp only [ENNReal.toReal_one, mul_one, sub_add_cancel] at this
  refine this.congr fun spp => ?_
  rw [key spp]

theorem IsView.eq {view : ℕ → R → Clk (V3 ℝ)} {Li : R → Stream → V3 ℝ × Stream} (h : IsView view Li) {f : R → V3 ℝ}
    (hf : ∀ q r, Shows (view q r) (f r)) : Li = fun r ω => (f r, ω) := by
  funext r ω
  obtain ⟨h1, h2⟩ := h r ω
  exact Prod.ext ((h1 0).unique (hf 0 r)) h2

/-- What `scene->intersect_non_null` says about a camera ray (`normal.cpp:39`, `nice_normal.cpp:39`,
`cosine_term.cpp:42`, `barycentric.cpp:47`): whether there is a surface, its shading normal and the weights of the corners
of the triangle that was hit. -/
structure Seen (R : Type) where
  hit : R → Bool
  normal : R → V3 ℝ
  bary : R → V3 ℝ

/-- The answer of the scene for a camera ray. -/
def Seen.answer (S : Seen R) (what : R → V3 ℝ) (r : R) : Option (V3 ℝ) := if S.hit r then some (what r) else none

/-- Everything depends measurably on the ray, and the shading normals have length one. -/
structure Seen.Lawful (S : Seen R) : Prop where
  hit : Measurable S.hit
  normal : Measurable S.normal
  bary : Measurable S.bary
  unit : ∀ r, (S.normal r).sqrNorm = 1

theorem comp_bound {n : V3 ℝ} (h : n.sqrNorm = 1) (c : Fin 3) : -1 ≤ n.get c ∧ n.get c ≤ 1 := by
  simp only [V3.sqrNorm] at h
  fin_cases c <;> simp [V3.get] <;> constructor <;>
    nlinarith [mul_self_nonneg n.x, mul_self_nonneg n.y, mul_self_nonneg n.z]

variable {Li : R → Stream → V3 ℝ × Stream} {S : Seen R}

/-- C113, image of the view `normal`: each pixel tends to the filtered absolute value of the component of the shading
normal, with zero for the background. -/
theorem normal_image (hc : Measurable fun q : (ℝ × ℝ) × (ℝ × ℝ) => ray q.1 q.2) (hS : S.Lawful)
    (hL : IsView (fun q r => normalLi q (S.answer S.normal r)) Li) (w h : ℕ) :
    ∀ᵐ ω ∂uniform, ∃ img : ℕ → Int → Int → Fin 3 → ℝ,
      (∀ spp, renderWith apiDefaultFilter w h spp ray Li ω = .ok (img spp)) ∧
      ∀ (x y : ℕ) (c : Fin 3), x < w → y < h →
        Tendsto (fun spp => img spp x y c) atTop
          (𝓝 (filtered apiDefaultFilter w h x y
            (Image.lightAt ray fun r => if S.hit r then ENNReal.ofReal |(S.normal r).get c| else 0)).toReal) := by
  let f : R → V3 ℝ := fun r => if S.hit r then (S.normal r).absV else 0
  have hf : ∀ q r, Shows (normalLi q (S.answer S.normal r)) (f r) := by
    intro q r
    have := shows_normal q (S.answer S.normal r)
    simp only [Seen.answer, f] at *
    cases hs : S.hit r <;> simpa [hs] using this
  have hg : ∀ r c, (f r).get c = if S.hit r then |(S.normal r).get c| else 0 := by
    intro r c
    simp only [f]
    cases hs : S.hit r
    · fin_cases c <;> rfl
    · rw [absV_eq]
      fin_cases c <;> rfl
  have mabs : Measurable fun r => (S.normal r).absV := by
    simp only [absV_eq]
    exact measurable_mk (continuous_abs.measurable.comp (measurable_x.comp hS.normal))
      (continuous_abs.measurable.comp (measurable_y.comp hS.normal))
      (continuous_abs.measurable.comp (measurable_z.comp hS.normal))
  have mf : Measurable f := measurable_bool_ite hS.hit mabs measurable_const
  rw [hL.eq hf]
  filter_upwards [still_converges hc f mf 0 1 le_rfl
    (fun r c => by rw [hg]; split_ifs <;> simp)
    (fun r c => by
      rw [hg]
      split_ifs
      · exact abs_le.2 (comp_bound (hS.unit r) c)
      · norm_num) w h] with ω ⟨img, h1, h2⟩
  refine ⟨img, h1, fun x y c hx hy => ?_⟩
  have := h2 x y c hx hy
  simp only [add_zero, hg] at this
  convert this using 6 with r
  split_ifs <;> simp

/-- C113, image of the view `nice_normal`: each pixel tends to the filtered value of half of one plus the component of
the shading normal, with zero for the background. -/
theorem nice_normal_image (hc : Measurable fun q : (ℝ × ℝ) × (ℝ × ℝ) => ray q.1 q.2) (hS : S.Lawful)
    (hL : IsView (fun q r => niceNormalLi q (S.answer S.normal r)) Li) (w h : ℕ) :
    ∀ᵐ ω ∂uniform, ∃ img : ℕ → Int → Int → Fin 3 → ℝ,
      (∀ spp, renderWith apiDefaultFilter w h spp ray Li ω = .ok (img spp)) ∧
      ∀ (x y : ℕ) (c : Fin 3), x < w → y < h →
        Tendsto (fun spp => img spp x y c) atTop
          (𝓝 (filtered apiDefaultFilter w h x y
            (Image.lightAt ray fun r => if S.hit r then ENNReal.ofReal ((1 + (S.normal r).get c) / 2) else 0)).toReal) := by
  let f : R → V3 ℝ := fun r => if S.hit r then (S.normal r + ⟨1, 1, 1⟩).smul (1 / 2) else 0
  have hf : ∀ q r, Shows (niceNormalLi q (S.answer S.normal r)) (f r) := by
    intro q r
    have := shows_niceNormal q (S.answer S.normal r)
    simp only [Seen.answer, f] at *
    cases hs : S.hit r <;> simpa [hs] using this
  have hg : ∀ r c, (f r).get c = if S.hit r then (1 + (S.normal r).get c) / 2 else 0 := by
    intro r c
    simp only [f]
    cases hs : S.hit r
    · fin_cases c <;> rfl
    · fin_cases c <;> simp [V3.get] <;> ring
  have mn : Measurable fun r => (S.normal r + ⟨1, 1, 1⟩).smul (1 / 2) := by
    have e : (fun r => (S.normal r + ⟨1, 1, 1⟩).smul (1 / 2)) =
        fun r => (⟨((S.normal r).x + 1) * (1 / 2), ((S.normal r).y + 1) * (1 / 2), ((S.normal r).z + 1) * (1 / 2)⟩ : V3 ℝ) := rfl
    rw [e]
    exact measurable_mk (((measurable_x.comp hS.normal).add_const 1).mul_const _)
      (((measurable_y.comp hS.normal).add_const 1).mul_const _) (((measurable_z.comp hS.normal).add_const 1).mul_const _)
  have mf : Measurable f := measurable_bool_ite hS.hit mn measurable_const
  rw [hL.eq hf]
  filter_upwards [still_converges hc f mf 0 1 le_rfl
    (fun r c => by rw [hg]; split_ifs <;> linarith [(comp_bound (hS.unit r) c).1])
    (fun r c => by rw [hg]; split_ifs <;> linarith [(comp_bound (hS.unit r) c).2]) w h] with ω ⟨img, h1, h2⟩
  refine ⟨img, h1, fun x y c hx hy => ?_⟩
  have := h2 x y c hx hy
  simp only [add_zero, hg] at this
  convert this using 6 with r
  split_ifs <;> simp

/-- C113, image of the view `cosine_term`, for camera rays with directions of length one: each pixel plus two tends to
the filtered value of two minus the cosine towards the viewer, with zero for the background. -/
theorem cosine_image_partial (hc : Measurable fun q : (ℝ × ℝ) × (ℝ × ℝ) => ray q.1 q.2) (hS : S.Lawful) (dir : R → V3 ℝ)
    (md : Measurable dir) (hd : ∀ r, (dir r).sqrNorm = 1)
    (hL : IsView (fun q r => cosineLi q (dir r) (S.answer S.normal r)) Li) (w h : ℕ) :
    ∀ᵐ ω ∂uniform, ∃ img : ℕ → Int → Int → Fin 3 → ℝ,
      (∀ spp, renderWith apiDefaultFilter w h spp ray Li ω = .ok (img spp)) ∧
      ∀ (x y : ℕ) (c : Fin 3), x < w → y < h →
        Tendsto (fun spp => img spp x y c + 2) atTop
          (𝓝 (filtered apiDefaultFilter w h x y
            (Image.lightAt ray fun r =>
              if S.hit r then ENNReal.ofReal (2 - viewerCosine (dir r) (S.normal r)) else 0)).toReal) := by
  let k : R → ℝ := fun r => if S.hit r then (S.normal r).dot (dir r) else -2
  let f : R → V3 ℝ := fun r => ⟨k r, k r, k r⟩
  have hf : ∀ q r, Shows (cosineLi q (dir r) (S.answer S.normal r)) (f r) := by
    intro q r
    have := shows_cosine q (dir r) (S.answer S.normal r)
    simp only [Seen.answer, f, k] at *
    cases hs : S.hit r <;> simpa [hs] using this
  have hg : ∀ r c, (f r).get c = k r := fun r c => by fin_cases c <;> rfl
  have mk : Measurable k := by
    refine measurable_bool_ite hS.hit ?_ measurable_const
    simp only [V3.dot]
    exact (((measurable_x.comp md).mul (measurable_x.comp hS.normal)).add
      ((measurable_y.comp md).mul (measurable_y.comp hS.normal))).add
      ((measurable_z.comp md).mul (measurable_z.comp hS.normal))
  rw [hL.eq hf]
  filter_upwards [still_converges hc f (measurable_mk mk mk mk) 2 1 (by norm_num)
    (fun r c => by
      rw [hg]; simp only [k]
      split_ifs
      · linarith [(dot_sq_le (S.normal r) (dir r) (hS.unit r) (hd r)).1]
      · exact le_rfl)
    (fun r c => by
      rw [hg]; simp only [k]
      split_ifs
      · exact (dot_sq_le (S.normal r) (dir r) (hS.unit r) (hd r)).2
      · norm_num) w h] with ω ⟨img, h1, h2⟩
  refine ⟨img, h1, fun x y c hx hy => ?_⟩
  have := h2 x y c hx hy
  simp only [hg, k] at this
  convert this using 6 with r
  split_ifs
  · congr 1
    simp only [viewerCosine, V3.dot, V3.smul_x, V3.smul_y, V3.smul_z]
    ring
  · norm_num

/-- C113, image of the view `barycentric`: each pixel plus two tends to the filtered value of three for points with a
weight below one hundredth, two for other points and zero for the background. -/
theorem barycentric_image (hc : Measurable fun q : (ℝ × ℝ) × (ℝ × ℝ) => ray q.1 q.2) (hS : S.Lawful)
    (hL : IsView (fun q r => barycentricLi q (S.answer S.bary r)) Li) (w h : ℕ) :
    ∀ᵐ ω ∂uniform, ∃ img : ℕ → Int → Int → Fin 3 → ℝ,
      (∀ spp, renderWith apiDefaultFilter w h spp ray Li ω = .ok (img spp)) ∧
      ∀ (x y : ℕ) (c : Fin 3), x < w → y < h →
        Tendsto (fun spp => img spp x y c + 2) atTop
          (𝓝 (filtered apiDefaultFilter w h x y
            (Image.lightAt ray fun r =>
              if S.hit r then (if ∃ i, (S.bary r).get i < 1 / 100 then 3 else 2) else 0)).toReal) := by
  classical
  let k : R → ℝ := fun r => if S.hit r then
    (if min (S.bary r).x (min (S.bary r).y (S.bary r).z) < 1 / 100 then 1 else 0) else -2
  let f : R → V3 ℝ := fun r => ⟨k r, k r, k r⟩
  have hf : ∀ q r, Shows (barycentricLi q (S.answer S.bary r)) (f r) := by
    intro q r
    have := shows_barycentric q (S.answer S.bary r)
    simp only [Seen.answer, f, k] at *
    cases hs : S.hit r
    · simpa [hs] using this
    · simp only [hs, if_true] at this ⊢
      split_ifs at this ⊢ with h
      · exact this
      · exact this
  have hg : ∀ r c, (f r).get c = k r := fun r c => by fin_cases c <;> rfl
  have mk : Measurable k := by
    refine measurable_bool_ite hS.hit (Measurable.ite ?_ measurable_const measurable_const) measurable_const
    exact measurableSet_lt ((measurable_x.comp hS.bary).min
      ((measurable_y.comp hS.bary).min (measurable_z.comp hS.bary))) measurable_const
  rw [hL.eq hf]
  filter_upwards [still_converges hc f (measurable_mk mk mk mk) 2 1 (by norm_num)
    (fun r c => by
      rw [hg]; simp only [k]
      split_ifs <;> norm_num)
    (fun r c => by
      rw [hg]; simp only [k]
      split_ifs <;> norm_num) w h] with ω ⟨img, h1, h2⟩
  refine ⟨img, h1, fun x y c hx hy => ?_⟩
  have := h2 x y c hx hy
  simp only [hg, k] at this
  convert this using 6 with r
  have e : (∃ i, (S.bary r).get i < 1 / 100) ↔ min (S.bary r).x (min (S.bary r).y (S.bary r).z) < 1 / 100 := by
    rw [min_iff, Fin.exists_fin_succ, Fin.exists_fin_two]
    rfl
  simp only [e]
  split_ifs <;> norm_num

end images

/-! ## The hypotheses are met -/

/-- A floor below the plane `z = 0`, seen by the rays that go down, with a shading normal that points up. -/
noncomputable def floorSeen : Seen Ray where
  hit := fun r => decide (r.2.z < 0)
  normal := fun _ => ⟨0, 0, 1⟩
  bary := fun r => meshBary r.1.x r.1.y

theorem floorSeen_lawful : floorSeen.Lawful where
  hit := by
    refine measurable_to_bool ?_
    have : (floorSeen.hit ⁻¹' {true}) = {r : Ray | r.2.z < 0} := by
      ext r
      simp [floorSeen]
    rw [this]
    exact measurableSet_lt (measurable_z.comp measurable_snd) measurable_const
  normal := measurable_const
  bary := measurable_mk
    ((measurable_const.sub (measurable_x.comp measurable_fst)).sub (measurable_y.comp measurable_fst))
    (measurable_x.comp measurable_fst) (measurable_y.comp measurable_fst)
  unit := fun r => by simp [floorSeen, V3.sqrNorm]

/-- There is a program that is the view `nice_normal` of the floor. -/
example : ∃ Li, IsView (fun q r => niceNormalLi q (floorSeen.answer floorSeen.normal r)) Li :=
  ⟨fun r ω => (_, ω), fun r ω => ⟨fun q => shows_niceNormal q _, rfl⟩⟩

/-- Normals up and down look the same in the view `normal` and different in the view `nice_normal`. -/
example : (∃ c, Shows (normalLi 1 (some (⟨0, 0, 1⟩ : V3 ℚ))) c ∧ Shows (normalLi 1 (some ⟨0, 0, -1⟩)) c) ∧
    ¬ ∃ c, Shows (niceNormalLi 1 (some (⟨0, 0, 1⟩ : V3 ℚ))) c ∧ Shows (niceNormalLi 1 (some ⟨0, 0, -1⟩)) c := by
  refine ⟨((normal_view 1 1 ⟨0, 0, 1⟩ ⟨0, 0, -1⟩).2.1).2 ⟨by simp, by simp, by simp⟩, ?_⟩
  rintro ⟨c, h1, h2⟩
  have e := ((shows_niceNormal 1 (some (⟨0, 0, 1⟩ : V3 ℚ))).unique h1).trans (h2.unique (shows_niceNormal 1 _))
  have := congrArg V3.z e
  norm_num at this

end Feign.Integrators
