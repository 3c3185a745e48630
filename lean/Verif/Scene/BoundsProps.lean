import Verif.Scene.Bounds
import Verif.Math.BBoxProps
import Verif.Shapes.MeshProps

/-!
# C111: the bounds of a scene
-/

set_option linter.unusedSectionVars false
set_option linter.unusedSimpArgs false
set_option linter.unusedVariables false

namespace Feign.Bounds
open Feign.Shapes Feign.B3

variable {K : Type} [Field K] [LinearOrder K] [IsStrictOrderedRing K]

/-! ### Specification -/

/-- `p` is a point of the surface of an item: on a triangle of a mesh, or in the box of a distance field. -/
def OnItem : Item K → V3 K → Prop
  | .mesh m _, p => ∃ f ∈ m.tris, ∃ a b c, m.corners f = .ok (a, b, c) ∧ InTriangle a b c p
  | .field b, p => b.containsB p

/-- `p` is in the extended box. -/
def In (b : B3 (Ext K)) (p : V3 K) : Prop := b.containsB (fin p)

/-- The item takes part in the bounds: it is not a mesh without an emitter. -/
def Seen : Item K → Prop
  | .mesh _ emits => emits = true
  | .field _ => True

/-- The points the bounds are made of: the vertices of a mesh, the corners of the box of a field. -/
def Needs : Item K → V3 K → Prop
  | .mesh m _, p => p ∈ m.vs
  | .field b, p => p = b.min ∨ p = b.max

/-! ### Lemmas -/

theorem fin_le (a b : V3 K) : (fin a).le (fin b) ↔ a.le b := by
  unfold V3.le fin
  simp only [Ext.fin_le_fin]

theorem in_finBox (b : B3 K) (p : V3 K) : In (finBox b) p ↔ b.containsB p := by
  unfold In finBox B3.containsB
  rw [fin_le, fin_le]

theorem not_in_noBox (p : V3 K) : ¬ In (noBox : B3 (Ext K)) p := by
  rintro ⟨⟨h, -⟩, -⟩
  have h : (⊤ : Ext K) ≤ Ext.fin p.x := h
  exact Ext.fin_ne_top _ (top_le_iff.mp h)

theorem fold_le (items : List (Item K)) (b d : B3 (Ext K)) :
    d.containsBoxB (items.foldl (fun b i => b.expandBox i.box) b) ↔
      d.containsBoxB b ∧ ∀ i ∈ items, d.containsBoxB i.box := by
  induction items generalizing b with
  | nil => simp
  | cons i is ih =>
    rw [List.foldl_cons, ih, List.forall_mem_cons, ← and_assoc]
    refine and_congr_left fun _ => ?_
    constructor
    · rintro ⟨h1, h2⟩
      exact ⟨⟨V3.le_trans h1 (minV_le _ _).1, V3.le_trans (le_maxV _ _).1 h2⟩,
        V3.le_trans h1 (minV_le _ _).2, V3.le_trans (le_maxV _ _).2 h2⟩
    · rintro ⟨⟨h1, h2⟩, h3, h4⟩
      exact ⟨le_minV _ _ _ h1 h3, maxV_le _ _ _ h2 h4⟩

theorem box_self (b : B3 (Ext K)) : b.containsBoxB b := ⟨V3.le_refl _, V3.le_refl _⟩

theorem box_trans {d b : B3 (Ext K)} (h : d.containsBoxB b) {p : V3 K} (hp : In b p) : In d p :=
  ⟨V3.le_trans h.1 hp.1, V3.le_trans hp.2 h.2⟩

theorem noBox_le (d : B3 (Ext K)) : d.containsBoxB noBox :=
  ⟨⟨le_top, le_top, le_top⟩, bot_le, bot_le, bot_le⟩

theorem finBox_le (d : B3 (Ext K)) (b : B3 K) : d.containsBoxB (finBox b) ↔ d.min.le (fin b.min) ∧ (fin b.max).le d.max :=
  Iff.rfl

/-- A finite box lies in `d` when all points of a family do that the box is the smallest around. -/
theorem le_mesh (d : B3 K) (m : Mesh K) (b : B3 K) (hb : m.box = some b) (h : ∀ v ∈ m.vs, d.containsB v) :
    (finBox d).containsBoxB (finBox b) := by
  have := ((mesh_box m b hb).1 d).mpr h
  exact ⟨(fin_le _ _).mpr this.1, (fin_le _ _).mpr this.2⟩

theorem bounds_le (items : List (Item K)) (d : B3 (Ext K)) :
    d.containsBoxB (sceneBounds items) ↔ In d ⟨0, 0, 0⟩ ∧ ∀ i ∈ items, d.containsBoxB i.box :=
  fold_le items _ d

theorem mesh_has_box (m : Mesh K) (v : V3 K) (hv : v ∈ m.vs) : ∃ b, m.box = some b := by
  unfold Mesh.box
  split
  · rename_i he; rw [he] at hv; cases hv
  · exact ⟨_, rfl⟩

theorem corners_mem (m : Mesh K) (f : Face) (a b c : V3 K) (h : m.corners f = .ok (a, b, c)) :
    a ∈ m.vs ∧ b ∈ m.vs ∧ c ∈ m.vs := by
  have rd : ∀ i (x : V3 K), readAt m.vs i = .ok x → x ∈ m.vs := by
    intro i x hx
    unfold readAt at hx
    split at hx
    · rename_i y hy; cases hx; exact List.mem_of_getElem? hy
    · cases hx
  unfold Mesh.corners at h
  rcases ha : readAt m.vs (f.v 0) with x | x | x
  · rw [ha] at h
    rcases hb : readAt m.vs (f.v 1) with y | y | y
    · rw [hb] at h
      rcases hc : readAt m.vs (f.v 2) with z | z | z
      · rw [hc] at h
        cases h
        exact ⟨rd _ _ ha, rd _ _ hb, rd _ _ hc⟩
      · rw [hc] at h; cases h
      · rw [hc] at h; cases h
    · rw [hb] at h; cases h
    · rw [hb] at h; cases h
  · rw [ha] at h; cases h
  · rw [ha] at h; cases h

theorem item_in (i : Item K) (hs : Seen i) (p : V3 K) (hp : OnItem i p) : In i.box p := by
  cases i with
  | field b => exact (in_finBox b p).mpr hp
  | mesh m e =>
    obtain ⟨f, hf, a, b, c, hc, ht⟩ := hp
    obtain ⟨ha, hb, hcm⟩ := corners_mem m f a b c hc
    obtain ⟨bx, hbx⟩ := mesh_has_box m a ha
    have hs : e = true := hs
    have hbox : Item.box (.mesh m e) = finBox bx := by
      simp only [Item.box, hs, hbx, if_true]
    rw [hbox, in_finBox]
    have hv := (mesh_box m bx hbx).2
    have h1 := face_box_contains a b c p ht
    have h2 : bx.containsBoxB (triBox a b c) := by
      have e1 : ∀ (x y : B3 K) (q : V3 K), x.containsBoxB y → x.containsB q → x.containsBoxB (y.expand q) :=
        fun x y q h1 h2 => ⟨le_minV _ _ _ h1.1 h2.1, maxV_le _ _ _ h1.2 h2.2⟩
      exact e1 _ _ _ (e1 _ _ _ ⟨(hv a ha).1, (hv a ha).2⟩ (hv b hb)) (hv c hcm)
    exact ⟨V3.le_trans h2.1 h1.1, V3.le_trans h1.2 h2.2⟩

/-! ### C111 -/

/-- **C111, partial.** The bounds hold the origin and every surface point of every mesh whose object carries an
emitter and of every distance field, and are the smallest box around the origin, the vertices of those meshes
and the boxes of the fields. Missing: meshes without an emitter (`bounds_enclose_refuted`), and leaving the origin
out (`bounds_smallest_refuted`). -/
theorem bounds_enclose_partial (items : List (Item K)) :
    In (sceneBounds items) ⟨0, 0, 0⟩ ∧
    (∀ i ∈ items, Seen i → ∀ p, OnItem i p → In (sceneBounds items) p) ∧
    ∀ d : B3 K, d.containsB ⟨0, 0, 0⟩ → (∀ i ∈ items, Seen i → ∀ p, Needs i p → d.containsB p) →
      ∀ p, In (sceneBounds items) p → d.containsB p := by
  have self := (bounds_le items (sceneBounds items)).mp (box_self _)
  refine ⟨self.1, fun i hi hs p hp => box_trans (self.2 i hi) (item_in i hs p hp), ?_⟩
  intro d h0 hd p hp
  rw [← in_finBox]
  refine box_trans ((bounds_le items (finBox d)).mpr ⟨(in_finBox _ _).mpr h0, fun i hi => ?_⟩) hp
  cases i with
  | field b =>
    have h1 := hd _ hi trivial b.min (Or.inl rfl)
    have h2 := hd _ hi trivial b.max (Or.inr rfl)
    exact ⟨(fin_le _ _).mpr h1.1, (fin_le _ _).mpr h2.2⟩
  | mesh m e =>
    cases e with
    | false => exact noBox_le _
    | true =>
      simp only [Item.box, if_true]
      cases hb : m.box with
      | none => exact noBox_le _
      | some b => exact le_mesh d m b hb (hd _ hi rfl)

/-- When every mesh carries an emitter, the bounds hold the whole scene. -/
theorem bounds_enclose_all (items : List (Item K)) (h : ∀ i ∈ items, Seen i) (i : Item K) (hi : i ∈ items)
    (p : V3 K) (hp : OnItem i p) : In (sceneBounds items) p :=
  (bounds_enclose_partial items).2.1 i hi (h i hi) p hp

/-- In a scene of meshes none of which carries an emitter (lit by point lights, say), the bounds are the single
point `0`, whatever the meshes are. -/
theorem bounds_collapse (items : List (Item K)) (h : ∀ i ∈ items, ¬ Seen i) (p : V3 K) :
    In (sceneBounds items) p ↔ p = ⟨0, 0, 0⟩ := by
  constructor
  · intro hp
    have : (B3.mk (⟨0, 0, 0⟩ : V3 K) ⟨0, 0, 0⟩).containsB p :=
      (bounds_enclose_partial items).2.2 ⟨⟨0, 0, 0⟩, ⟨0, 0, 0⟩⟩ ⟨V3.le_refl _, V3.le_refl _⟩
        (fun i hi hs => absurd hs (h i hi)) p hp
    obtain ⟨⟨x, y, z⟩, x', y', z'⟩ := this
    ext
    · exact le_antisymm x' x
    · exact le_antisymm y' y
    · exact le_antisymm z' z
  · rintro rfl
    exact (bounds_enclose_partial items).1

/-- One triangle away from the origin. -/
def tile : Mesh ℚ :=
  ⟨[⟨1, 0, 0⟩, ⟨2, 0, 0⟩, ⟨1, 1, 0⟩], [], [], [⟨fun k => k.val, fun k => k.val, fun k => k.val⟩]⟩

theorem tile_point (e : Bool) : OnItem (.mesh tile e) ⟨1, 0, 0⟩ :=
  ⟨⟨fun k => k.val, fun k => k.val, fun k => k.val⟩, by simp [tile], ⟨1, 0, 0⟩, ⟨2, 0, 0⟩, ⟨1, 1, 0⟩, rfl,
    0, 0, le_refl _, le_refl _, by norm_num, by ext <;> simp⟩

/-- The bounds of a scene need not hold its surfaces: a mesh without an emitter is left out. -/
theorem bounds_enclose_refuted : ∃ (items : List (Item ℚ)) (i : Item ℚ) (p : V3 ℚ),
    i ∈ items ∧ OnItem i p ∧ ¬ In (sceneBounds items) p := by
  refine ⟨[.mesh tile false], .mesh tile false, ⟨1, 0, 0⟩, by simp, tile_point false, fun h => ?_⟩
  have := (bounds_collapse [.mesh tile false] (by simp [Seen]) ⟨1, 0, 0⟩).mp h
  exact absurd (congrArg V3.x this) (by norm_num)

/-- The bounds need not be tight: a box that leaves out the origin can hold the whole scene. -/
theorem bounds_smallest_refuted : ∃ (items : List (Item ℚ)) (d : B3 ℚ),
    (∀ i ∈ items, Seen i ∧ ∀ p, OnItem i p → d.containsB p) ∧
    ∃ p, In (sceneBounds items) p ∧ ¬ d.containsB p := by
  refine ⟨[.mesh tile true], ⟨⟨1, 0, 0⟩, ⟨2, 1, 0⟩⟩, ?_, ⟨0, 0, 0⟩, (bounds_enclose_partial _).1, ?_⟩
  · intro i hi
    rw [List.mem_singleton] at hi
    subst hi
    refine ⟨rfl, fun p hp => ?_⟩
    have hb : Item.box (.mesh tile true) = finBox ⟨⟨1, 0, 0⟩, ⟨2, 1, 0⟩⟩ := by decide +kernel
    have := item_in (.mesh tile true) rfl p hp
    rw [hb, in_finBox] at this
    exact this
  · rintro ⟨⟨h, -⟩, -⟩
    exact absurd h (by norm_num)

/-! Non-vacuity: a scene with a lit and an unlit mesh and a field. -/
example : ∃ (items : List (Item ℚ)) (i j : Item ℚ), i ∈ items ∧ j ∈ items ∧ Seen i ∧ ¬ Seen j ∧
    (∃ p, OnItem i p ∧ In (sceneBounds items) p) := by
  refine ⟨[.mesh tile true, .mesh tile false], .mesh tile true, .mesh tile false, by simp, by simp, rfl, by simp [Seen],
    ⟨1, 0, 0⟩, tile_point true, (bounds_enclose_partial _).2.1 (.mesh tile true) (by simp) rfl _ (tile_point true)⟩

end Feign.Bounds
