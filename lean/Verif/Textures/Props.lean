import Verif.Textures.Model
import Mathlib.Tactic.Linarith
import Mathlib.Tactic.FieldSimp
import Mathlib.Algebra.Order.Floor.Ring
import Mathlib.Algebra.Order.Archimedean.Basic
import Mathlib.Data.Rat.Floor

/-!
# C51, C79, C80: textures
-/

set_option linter.unusedSectionVars false
set_option linter.unusedSimpArgs false

namespace Feign.Tex

variable {K : Type} [Field K] [LinearOrder K] [IsStrictOrderedRing K] [FloorRing K]

/-! ### Helpers -/

theorem bound_fin (val : Fl K) (m : K) (hm : 0 ≤ m) (hn : val ≠ .nan) :
    ∃ x, bound val 0 m = .fin x ∧ 0 ≤ x ∧ x ≤ m := by
  unfold bound
  cases val with
  | nan => exact absurd rfl hn
  | neginf => exact ⟨0, by simp [Fl.gt, Fl.lt], le_refl _, hm⟩
  | posinf => exact ⟨m, by simp [Fl.gt], hm, le_refl _⟩
  | fin x =>
    by_cases h1 : m < x
    · exact ⟨m, by simp [Fl.gt, h1], hm, le_refl _⟩
    · by_cases h2 : x < 0
      · exact ⟨0, by simp [Fl.gt, Fl.lt, h1, h2], le_refl _, hm⟩
      · exact ⟨x, by simp [Fl.gt, Fl.lt, h1, h2], not_lt.1 h2, not_lt.1 h1⟩

theorem toInt_bound (val : Fl K) (n : ℕ) (h : 1 ≤ n) (hn : val ≠ .nan) :
    ∃ i : ℕ, toInt (bound val 0 (((n : Int) - 1 : Int) : K)) = .ok (i : Int) ∧ i < n := by
  have hm : (0 : K) ≤ (((n : Int) - 1 : Int) : K) := by
    have : (0 : Int) ≤ (n : Int) - 1 := by omega
    exact_mod_cast this
  obtain ⟨x, e, h0, h1⟩ := bound_fin val _ hm hn
  have hf : ⌊x⌋ ≤ (n : Int) - 1 := by
    have := Int.floor_le_floor h1
    rwa [Int.floor_intCast] at this
  have hf0 : 0 ≤ ⌊x⌋ := Int.floor_nonneg.2 h0
  refine ⟨⌊x⌋.toNat, ?_, by omega⟩
  rw [e, toInt, if_neg (not_lt.2 h0), Int.toNat_of_nonneg hf0]

/-! ### C51 -/

/-- **C51 (partial: image sizes a float can represent).** For every image with at least one pixel and every
finite pair of coordinates, the lookup reads a pixel inside the image, whatever the rounding or overflow of
the products `u·width` and `v·height`. `hw`, `hh`: the largest indices convert to floats exactly, as they
do up to `2^24`. Missing for the full property: larger images (`inexact_size_refuted`). -/
theorem lookup_inside_partial (mul : Fl K → K → Fl K) (hmul : ∀ x w, mul (.fin x) w ≠ .nan)
    (ofInt : Int → K) (im : Image K) (scale : V3 K) (hw1 : 1 ≤ im.width) (hh1 : 1 ≤ im.height)
    (hw : ofInt ((im.width : Int) - 1) = (((im.width : Int) - 1 : Int) : K))
    (hh : ofInt ((im.height : Int) - 1) = (((im.height : Int) - 1 : Int) : K)) (u v : K) :
    ∃ x y : ℕ, x < im.width ∧ y < im.height ∧
      evaluate mul ofInt im scale (.fin u) (.fin v) = .ok (im.pix x y * scale) := by
  obtain ⟨x, ex, hx⟩ := toInt_bound (mul (.fin u) im.width) im.width hw1 (hmul _ _)
  obtain ⟨y, ey, hy⟩ := toInt_bound (mul (.fin v) im.height) im.height hh1 (hmul _ _)
  refine ⟨x, y, hx, hy, ?_⟩
  have hr : im.read (x : Int) (y : Int) = .ok (im.pix x y) := by
    unfold Image.read
    rw [if_pos (by omega)]
    simp
  unfold evaluate
  rw [hw, hh, ex, Res.bind_ok, ey, Res.bind_ok, hr, Res.bind_ok]

/-- Which pixel: for coordinates in the unit square and exact arithmetic, the one whose cell contains the
coordinates; the right and lower edges belong to the last pixel. -/
theorem lookup_cell (im : Image K) (scale : V3 K) (u v : K) (hu : 0 ≤ u) (hv : 0 ≤ v)
    (hu1 : u ≤ 1) (hv1 : v ≤ 1) (hw : 1 ≤ im.width) (hh : 1 ≤ im.height) :
    ∃ x y : ℕ, x < im.width ∧ y < im.height ∧
      evaluate exactMul (fun z => (z : K)) im scale (.fin u) (.fin v) = .ok (im.pix x y * scale) ∧
      ((x : K) ≤ u * im.width ∧ u * im.width < x + 1 ∨ x + 1 = im.width ∧ (x : K) ≤ u * im.width) ∧
      ((y : K) ≤ v * im.height ∧ v * im.height < y + 1 ∨ y + 1 = im.height ∧ (y : K) ≤ v * im.height) := by
  have key : ∀ (n : ℕ) (t : K), 1 ≤ n → 0 ≤ t → t ≤ 1 → ∃ i : ℕ, i < n ∧
      toInt (bound (.fin (t * n)) 0 (((n : Int) - 1 : Int) : K)) = .ok (i : Int) ∧
      ((i : K) ≤ t * n ∧ t * n < i + 1 ∨ i + 1 = n ∧ (i : K) ≤ t * n) := by
    intro n t hn h0 h1
    have hc : (((n : Int) - 1 : Int) : K) = (n : K) - 1 := by push_cast; ring
    rw [hc]
    have ht : 0 ≤ t * n := by positivity
    have hn1 : (1 : K) ≤ n := by exact_mod_cast hn
    by_cases hb : (n : K) - 1 < t * n
    · refine ⟨n - 1, by omega, ?_, Or.inr ⟨by omega, ?_⟩⟩
      · have : bound (.fin (t * n)) 0 ((n : K) - 1) = .fin ((n : K) - 1) := by
          simp [bound, Fl.gt, hb]
        rw [this, toInt, if_neg (by linarith)]
        have : ((n : K) - 1) = (((n - 1 : ℕ) : Int) : K) := by
          rw [Int.cast_natCast, Nat.cast_sub hn, Nat.cast_one]
        rw [this, Int.floor_intCast]
      · rw [Nat.cast_sub hn, Nat.cast_one]; exact hb.le
    · have hb' := not_lt.1 hb
      have : bound (.fin (t * n)) 0 ((n : K) - 1) = .fin (t * n) := by
        simp [bound, Fl.gt, Fl.lt, hb, not_lt.2 ht]
      rw [this]
      have hf0 : 0 ≤ ⌊t * n⌋ := Int.floor_nonneg.2 ht
      have hcast : ((⌊t * n⌋.toNat : ℕ) : K) = (⌊t * n⌋ : K) := by
        rw [← Int.cast_natCast, Int.toNat_of_nonneg hf0]
      have hlt : ⌊t * (n : K)⌋ < n := by
        rw [Int.floor_lt]
        push_cast
        linarith
      refine ⟨⌊t * n⌋.toNat, by omega, ?_, Or.inl ⟨?_, ?_⟩⟩
      · rw [toInt, if_neg (not_lt.2 ht), Int.toNat_of_nonneg hf0]
      · rw [hcast]; exact Int.floor_le _
      · rw [hcast]; exact Int.lt_floor_add_one _
  obtain ⟨x, hx, ex, px⟩ := key im.width u hw hu hu1
  obtain ⟨y, hy, ey, py⟩ := key im.height v hh hv hv1
  refine ⟨x, y, hx, hy, ?_, px, py⟩
  have hr : im.read (x : Int) (y : Int) = .ok (im.pix x y) := by
    unfold Image.read
    rw [if_pos (by omega)]
    simp
  unfold evaluate
  simp only [exactMul]
  rw [ex, Res.bind_ok, ey, Res.bind_ok, hr, Res.bind_ok]

/-- **C51 is false of the code for very large images.** When the largest column index is rounded up to a
float (single precision does so for widths above `2^24`, for instance `2^24 + 4`), coordinates at the right
edge read outside. -/
theorem inexact_size_refuted (ofInt : Int → K) (im : Image K) (scale : V3 K)
    (hup : ofInt ((im.width : Int) - 1) = im.width) (u v : K) (hu : 1 ≤ u) :
    (evaluate exactMul ofInt im scale (.fin u) (.fin v)).isOk = false := by
  have hw0 : (0 : K) ≤ im.width := Nat.cast_nonneg _
  have hb : bound (.fin (u * im.width)) 0 (ofInt ((im.width : Int) - 1)) = .fin (im.width : K) := by
    rw [hup]
    unfold bound
    have h2 : (im.width : K) ≤ u * im.width := le_mul_of_one_le_left hw0 hu
    by_cases h1 : (im.width : K) < u * im.width
    · simp [Fl.gt, h1]
    · have he : u * im.width = (im.width : K) := le_antisymm (not_lt.1 h1) h2
      simp [Fl.gt, Fl.lt, he]
  have hx : toInt (bound (.fin (u * im.width)) 0 (ofInt ((im.width : Int) - 1))) = .ok (im.width : Int) := by
    rw [hb, toInt, if_neg (not_lt.2 hw0)]
    simp
  have hread : ∀ y, im.read (im.width : Int) y = .ub "pixel outside the image" := by
    intro y
    unfold Image.read
    rw [if_neg (by omega)]
  unfold evaluate
  simp only [exactMul]
  rw [hx, Res.bind_ok]
  cases toInt (bound (.fin (v * im.height)) 0 (ofInt ((im.height : Int) - 1))) with
  | ok y => simp [hread]; rfl
  | throw m => rfl
  | ub w => rfl

/-- Likewise at the lower edge of very tall images. -/
theorem inexact_height_refuted (ofInt : Int → K) (im : Image K) (scale : V3 K)
    (hup : ofInt ((im.height : Int) - 1) = im.height) (u v : K) (hv : 1 ≤ v) :
    (evaluate exactMul ofInt im scale (.fin u) (.fin v)).isOk = false := by
  have hw0 : (0 : K) ≤ im.height := Nat.cast_nonneg _
  have hb : bound (.fin (v * im.height)) 0 (ofInt ((im.height : Int) - 1)) = .fin (im.height : K) := by
    rw [hup]
    unfold bound
    have h2 : (im.height : K) ≤ v * im.height := le_mul_of_one_le_left hw0 hv
    by_cases h1 : (im.height : K) < v * im.height
    · simp [Fl.gt, h1]
    · have he : v * im.height = (im.height : K) := le_antisymm (not_lt.1 h1) h2
      simp [Fl.gt, Fl.lt, he]
  have hy : toInt (bound (.fin (v * im.height)) 0 (ofInt ((im.height : Int) - 1))) = .ok (im.height : Int) := by
    rw [hb, toInt, if_neg (not_lt.2 hw0)]
    simp
  have hread : ∀ x, im.read x (im.height : Int) = .ub "pixel outside the image" := by
    intro x
    unfold Image.read
    rw [if_neg (by omega)]
  unfold evaluate
  simp only [exactMul]
  cases toInt (bound (.fin (u * im.width)) 0 (ofInt ((im.width : Int) - 1))) with
  | ok x =>
    rw [Res.bind_ok, hy, Res.bind_ok, hread]
    rfl
  | throw m => rfl
  | ub w => rfl

/-- A texture whose image has no pixels (for instance a file that could not be read) always reads outside. -/
theorem empty_image_ub (im : Image K) (scale : V3 K) (hw : im.width = 0) (u v : Fl K) :
    (evaluate exactMul (fun z => (z : K)) im scale u v).isOk = false := by
  unfold evaluate
  cases toInt (bound (exactMul u im.width) 0 (((im.width : Int) - 1 : Int) : K)) with
  | throw m => rfl
  | ub w => rfl
  | ok x =>
    rw [Res.bind_ok]
    cases toInt (bound (exactMul v im.height) 0 (((im.height : Int) - 1 : Int) : K)) with
    | throw m => rfl
    | ub w => rfl
    | ok y =>
      rw [Res.bind_ok]
      unfold Image.read
      rw [if_neg (by omega)]
      rfl

/-- A NaN coordinate is converted to an integer, which is undefined behaviour. -/
theorem nan_coordinate_ub (ofInt : Int → K) (im : Image K) (scale : V3 K) (v : Fl K) :
    (evaluate exactMul ofInt im scale .nan v).isUb = true := by
  unfold evaluate bound
  simp only [exactMul, Fl.gt, Fl.lt, if_false]
  rfl

/-! ### C80: baking a texture -/

private theorem foldlM_pixels {eval : ℕ × ℕ → Res (V3 K)} {col : ℕ × ℕ → V3 K} (l : List (ℕ × ℕ))
    (h : ∀ q ∈ l, eval q = .ok (col q)) (pix : ℕ → ℕ → V3 K) :
    ∃ pix', l.foldlM (init := pix) (fun pix ji => do
        let c ← eval ji
        Res.ok fun x y => if x = ji.1 ∧ y = ji.2 then c else pix x y) = .ok pix' ∧
      ∀ x y, pix' x y = if (x, y) ∈ l then col (x, y) else pix x y := by
  induction l generalizing pix with
  | nil => exact ⟨pix, rfl, fun x y => by simp⟩
  | cons q l ih =>
    obtain ⟨pix', e, hp⟩ := ih (fun q' hq' => h q' (by simp [hq']))
      (fun x y => if x = q.1 ∧ y = q.2 then col q else pix x y)
    refine ⟨pix', ?_, ?_⟩
    · rw [List.foldlM_cons, h q (by simp), Res.bind_ok, Res.bind_ok]
      exact e
    · intro x y
      rw [hp]
      by_cases h1 : (x, y) ∈ l
      · simp [h1]
      · by_cases h2 : x = q.1 ∧ y = q.2
        · have : (x, y) = q := Prod.ext h2.1 h2.2
          simp [h1, h2, this]
        · have : ¬ (x, y) = q := fun h => h2 ⟨congrArg Prod.fst h, congrArg Prod.snd h⟩
          simp [h1, h2, this]

theorem mem_bakeOrder (w h x y : ℕ) : (x, y) ∈ bakeOrder w h ↔ x < w ∧ y < h := by
  unfold bakeOrder
  simp only [List.mem_flatMap, List.mem_range, List.mem_map, Prod.mk.injEq]
  constructor
  · rintro ⟨i, hi, j, hj, rfl, rfl⟩; exact ⟨hj, hi⟩
  · rintro ⟨hx, hy⟩; exact ⟨y, hy, x, hx, rfl, rfl⟩

/-- **C80.** Baking a texture that can be evaluated at every pixel centre gives an image whose every pixel
holds the texture's value at the centre of that pixel. -/
theorem bake_spec (eval : K → K → Res (V3 K)) (col : ℕ → ℕ → V3 K) (w h : ℕ) (old : ℕ → ℕ → V3 K)
    (he : ∀ x y, x < w → y < h →
      eval (((x : K) + 1 / 2) / w) (((y : K) + 1 / 2) / h) = .ok (col x y)) :
    ∃ im, bake eval w h old = .ok im ∧ im.width = w ∧ im.height = h ∧
      ∀ x y, x < w → y < h → im.pix x y = col x y := by
  obtain ⟨pix, e, hp⟩ := foldlM_pixels
    (eval := fun ji => eval ((ji.1 : K) / w + 1 / 2 / w) ((ji.2 : K) / h + 1 / 2 / h))
    (col := fun ji => col ji.1 ji.2) (bakeOrder w h) (by
      rintro ⟨x, y⟩ hq
      obtain ⟨hx, hy⟩ := (mem_bakeOrder w h x y).1 hq
      have := he x y hx hy
      rw [add_div, add_div] at this
      exact this) old
  refine ⟨⟨w, h, pix⟩, ?_, rfl, rfl, ?_⟩
  · unfold bake
    rw [e, Res.bind_ok]
  · intro x y hx hy
    show pix x y = _
    rw [hp, if_pos ((mem_bakeOrder w h x y).2 ⟨hx, hy⟩)]

/-- **C80.** Baking an image texture at the resolution of its image gives the image back (times the scale). -/
theorem bake_image_texture (im : Image K) (scale : V3 K) (old : ℕ → ℕ → V3 K) :
    ∃ im', bake (fun u v => evaluate exactMul (fun z => (z : K)) im scale (.fin u) (.fin v))
        im.width im.height old = .ok im' ∧ im'.width = im.width ∧ im'.height = im.height ∧
      ∀ x y, x < im.width → y < im.height → im'.pix x y = im.pix x y * scale := by
  apply bake_spec
  intro x y hx hy
  have half : ∀ (i n : ℕ), i < n → 0 ≤ ((i : K) + 1 / 2) / n ∧ ((i : K) + 1 / 2) / n ≤ 1 ∧
      ((i : K) + 1 / 2) / n * n = i + 1 / 2 := by
    intro i n hi
    have hn : (0 : K) < n := by exact_mod_cast (by omega : 0 < n)
    have hin : (i : K) + 1 ≤ n := by exact_mod_cast hi
    refine ⟨by positivity, ?_, by field_simp⟩
    rw [div_le_one hn]
    linarith
  obtain ⟨a0, a1, a2⟩ := half x im.width hx
  obtain ⟨b0, b1, b2⟩ := half y im.height hy
  obtain ⟨x', y', hx', hy', e, hxc, hyc⟩ := lookup_cell im scale (((x : K) + 1 / 2) / im.width)
    (((y : K) + 1 / 2) / im.height) a0 b0 a1 b1 (by omega) (by omega)
  have cell : ∀ (i j n : ℕ), i < n → j < n →
      ((j : K) ≤ (i : K) + 1 / 2 ∧ (i : K) + 1 / 2 < j + 1 ∨ j + 1 = n ∧ (j : K) ≤ (i : K) + 1 / 2) →
      j = i := by
    intro i j n hi hj h
    have hji : (j : K) ≤ (i : K) + 1 / 2 := by rcases h with h | h; exacts [h.1, h.2]
    have h1 : j ≤ i := by
      by_contra hc
      have : (i : K) + 1 ≤ j := by exact_mod_cast (by omega : i + 1 ≤ j)
      linarith
    rcases h with h | h
    · have h2 : i ≤ j := by
        by_contra hc
        have : (j : K) + 1 ≤ i := by exact_mod_cast (by omega : j + 1 ≤ i)
        linarith [h.2]
      omega
    · omega
  rw [a2] at hxc
  rw [b2] at hyc
  have ex := cell x x' im.width hx hx' hxc
  have ey := cell y y' im.height hy hy' hyc
  rw [e, ex, ey]

/-- **C80.** A sine texture stays between `y - |amp|` and `y + |amp|` in every channel. -/
theorem sin_texture_bounded (amp phase freq y : V3 ℝ) (u v : ℝ) (i : Fin 3) :
    |(sinEvaluate amp phase freq y u v).get i - y.get i| ≤ |amp.get i| := by
  have key : ∀ a t b : ℝ, |a * Real.sin t + b - b| ≤ |a| := by
    intro a t b
    rw [add_sub_cancel_right, abs_mul]
    exact mul_le_of_le_one_right (abs_nonneg _) (Real.abs_sin_le_one t)
  match i with
  | 0 => exact key _ _ _
  | 1 => exact key _ _ _
  | 2 => exact key _ _ _

/-- The third channel of a sine texture is the same everywhere: the coordinates are not used, the phase is
multiplied by the frequency (`src/textures/sin_texture.cpp:28`). -/
theorem sin_texture_blue_constant (amp phase freq y : V3 ℝ) (u v u' v' : ℝ) :
    (sinEvaluate amp phase freq y u v).z = (sinEvaluate amp phase freq y u' v').z := rfl

/-- **C80.** The pattern of the sine texture. Red forms rings around the centre of the texture: it only depends on the
distance from the centre, and repeats when the distance times the frequency grows by a full turn. Green forms
horizontal stripes: it only depends on `v`, and repeats likewise. At phase `π/2` on the centre or the first row the
amplitude is reached. -/
theorem sin_texture_pattern (amp phase freq y : V3 ℝ) (u v u' v' : ℝ) :
    (Real.sqrt ((u' - 1 / 2) ^ 2 + (v' - 1 / 2) ^ 2) * freq.x =
        Real.sqrt ((u - 1 / 2) ^ 2 + (v - 1 / 2) ^ 2) * freq.x + 2 * Real.pi ∨
      Real.sqrt ((u' - 1 / 2) ^ 2 + (v' - 1 / 2) ^ 2) = Real.sqrt ((u - 1 / 2) ^ 2 + (v - 1 / 2) ^ 2) →
      (sinEvaluate amp phase freq y u' v').x = (sinEvaluate amp phase freq y u v).x) ∧
    (v' * freq.y = v * freq.y + 2 * Real.pi ∨ v' = v →
      (sinEvaluate amp phase freq y u' v').y = (sinEvaluate amp phase freq y u v).y) ∧
    (sinEvaluate amp ⟨Real.pi / 2, phase.y, phase.z⟩ freq y (1 / 2) (1 / 2)).x = amp.x + y.x ∧
    (sinEvaluate amp ⟨phase.x, Real.pi / 2, phase.z⟩ freq y u 0).y = amp.y + y.y ∧
    (sinEvaluate amp phase freq y u v).z = amp.z * Real.sin (phase.z * freq.z) + y.z := by
  have e : ∀ u v : ℝ, (1 / 2 - u) * (1 / 2 - u) + (1 / 2 - v) * (1 / 2 - v) = (u - 1 / 2) ^ 2 + (v - 1 / 2) ^ 2 := by
    intro u v; ring
  refine ⟨?_, ?_, ?_, ?_, rfl⟩
  · intro h
    simp only [sinEvaluate, e]
    rcases h with h | h
    · rw [h, add_right_comm, Real.sin_add_two_pi]
    · rw [h]
  · intro h
    simp only [sinEvaluate]
    rcases h with h | h
    · rw [h, add_right_comm, Real.sin_add_two_pi]
    · rw [h]
  · simp [sinEvaluate]
  · simp [sinEvaluate]

/-- Two points on one ring. -/
example : (sinEvaluate ⟨1, 1, 1⟩ 0 ⟨20, 20, 20⟩ 0 1 (1 / 2)).x = (sinEvaluate ⟨1, 1, 1⟩ 0 ⟨20, 20, 20⟩ 0 (1 / 2) 1).x :=
  (sin_texture_pattern _ _ _ _ _ _ _ _).1 (Or.inr (by norm_num))

/-! ### C79: environment maps -/

/-- The direction with azimuth `2πu` and polar angle `πv` measured from the `y` axis. -/
noncomputable def sphereDir (u v : ℝ) : V3 ℝ :=
  ⟨Real.sin (Real.pi * v) * Real.cos (2 * Real.pi * u), Real.cos (Real.pi * v),
   Real.sin (Real.pi * v) * Real.sin (2 * Real.pi * u)⟩

/-- **C79.** For every unit direction the environment light looks up coordinates in the unit square, and
they are the spherical coordinates of that direction: converting them back gives the direction. -/
theorem env_coords (d : V3 ℝ) (hd : d.x * d.x + d.y * d.y + d.z * d.z = 1) :
    ∃ u v, envCoords d = (.fin u, .fin v) ∧ 0 ≤ u ∧ u < 1 ∧ 0 ≤ v ∧ v ≤ 1 ∧ sphereDir u v = d := by
  have hy : -1 ≤ d.y ∧ d.y ≤ 1 := by constructor <;> nlinarith [mul_self_nonneg d.x, mul_self_nonneg d.z]
  have hpi := Real.pi_pos
  set c : ℂ := ⟨d.x, d.z⟩ with hc
  set phi := if Complex.arg c < 0 then Complex.arg c + 2 * Real.pi else Complex.arg c with hphi
  have hcos : Real.cos phi = Real.cos (Complex.arg c) := by
    rw [hphi]; split
    · rw [Real.cos_add_two_pi]
    · rfl
  have hsin : Real.sin phi = Real.sin (Complex.arg c) := by
    rw [hphi]; split
    · rw [Real.sin_add_two_pi]
    · rfl
  have h0 : 0 ≤ phi ∧ phi < 2 * Real.pi := by
    rw [hphi]
    have := Complex.neg_pi_lt_arg c
    have := Complex.arg_le_pi c
    split <;> constructor <;> linarith
  have hn : Real.sin (Real.arccos d.y) = ‖c‖ := by
    rw [Real.sin_arccos, Complex.norm_def, Complex.normSq_apply]
    congr 1
    show 1 - d.y ^ 2 = d.x * d.x + d.z * d.z
    nlinarith
  refine ⟨phi * (1 / (2 * Real.pi)), Real.arccos d.y * (1 / Real.pi), ?_, ?_, ?_, ?_, ?_, ?_⟩
  · unfold envCoords
    rw [if_neg (by push Not; exact hy)]
  · have := h0.1; positivity
  · rw [mul_one_div, div_lt_one (by positivity)]; exact h0.2
  · have := Real.arccos_nonneg d.y; positivity
  · rw [mul_one_div, div_le_one hpi]; exact Real.arccos_le_pi _
  · have e1 : Real.pi * (Real.arccos d.y * (1 / Real.pi)) = Real.arccos d.y := by field_simp
    have e2 : 2 * Real.pi * (phi * (1 / (2 * Real.pi))) = phi := by field_simp
    unfold sphereDir
    rw [e1, e2, hcos, hsin, hn, Complex.norm_mul_cos_arg, Complex.norm_mul_sin_arg,
      Real.cos_arccos hy.1 hy.2]

/-- **C79.** So different directions look up different coordinates, and every lookup for a unit direction
reads a pixel of the image. -/
theorem env_lookup (im : Image ℝ) (scale intensity d : V3 ℝ) (hw : 1 ≤ im.width) (hh : 1 ≤ im.height)
    (hd : d.x * d.x + d.y * d.y + d.z * d.z = 1) :
    (∃ x y, x < im.width ∧ y < im.height ∧
      envEvaluate im scale intensity d = .ok (intensity * (im.pix x y * scale))) ∧
    ∀ e : V3 ℝ, e.x * e.x + e.y * e.y + e.z * e.z = 1 → envCoords e = envCoords d → e = d := by
  obtain ⟨u, v, e, hu0, hu1, hv0, hv1, hs⟩ := env_coords d hd
  constructor
  · obtain ⟨x, y, hx, hy, er, -, -⟩ := lookup_cell im scale u v hu0 hv0 hu1.le hv1 hw hh
    refine ⟨x, y, hx, hy, ?_⟩
    unfold envEvaluate
    rw [e]
    simp only
    rw [er, Res.bind_ok]
  · intro e' he' heq
    obtain ⟨u', v', e2, -, -, -, -, hs'⟩ := env_coords e' he'
    rw [e2, e] at heq
    simp only [Prod.mk.injEq, Fl.fin.injEq] at heq
    rw [← hs', ← hs, heq.1, heq.2]

/-- A direction a little longer than a unit vector that points straight up looks up a NaN coordinate. -/
theorem env_long_direction_ub (im : Image ℝ) (scale intensity d : V3 ℝ) (hy : 1 < d.y) :
    (envEvaluate im scale intensity d).isOk = false := by
  have h2 : (envCoords d).2 = .nan := by
    unfold envCoords
    rw [if_pos (Or.inr hy)]
  unfold envEvaluate evaluate
  rw [h2]
  cases toInt (bound (exactMul (envCoords d).1 (im.width : ℝ)) 0 (((im.width : Int) - 1 : Int) : ℝ)) with
  | throw m => rfl
  | ub w => rfl
  | ok x =>
    have : toInt (bound (exactMul (.nan : Fl ℝ) (im.height : ℝ)) 0 (((im.height : Int) - 1 : Int) : ℝ)) =
        .ub "NaN to int" := by
      simp [exactMul, bound, Fl.gt, Fl.lt, toInt]
    rw [Res.bind_ok, this]
    rfl

/-! ### Non-vacuity -/

/-- A 3×2 image over the rationals. -/
def sample : Image ℚ := ⟨3, 2, fun x y => ⟨x, y, 1⟩⟩

example : evaluate exactMul (fun z => (z : ℚ)) sample ⟨2, 2, 2⟩ (.fin (1 / 2)) (.fin (9 / 10)) =
    .ok ⟨2, 2, 2⟩ := by decide +kernel
example : evaluate exactMul (fun z => (z : ℚ)) sample ⟨2, 2, 2⟩ (.fin (-5)) (.fin 1) =
    .ok ⟨0, 2, 2⟩ := by decide +kernel
/-- Single precision rounds the largest index `2^24 + 3` of an image of width `2^24 + 4` up. -/
example : ∃ ofInt : Int → ℚ, ofInt ((2 ^ 24 + 4 : ℕ) - 1) = (2 ^ 24 + 4 : ℕ) :=
  ⟨fun z => if z = 2 ^ 24 + 3 then 2 ^ 24 + 4 else z, by norm_num⟩
example : (⟨0, 3 / 5, -4 / 5⟩ : V3 ℝ).x * 0 + (3 / 5 : ℝ) * (3 / 5) + (-4 / 5) * (-4 / 5) = 1 := by norm_num

end Feign.Tex
