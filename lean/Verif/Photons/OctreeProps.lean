import Verif.Photons.Octree
import Verif.Math.BBoxProps

/-!
# C120: looking up a point in the photon octree

The comment at `photon_bvh.cpp:165-167`: "this method returns the smallest bvhnode which uniquely contains a specific
point. If a point lies on the boundry between two bounding boxes, then the largest bounding box which contains the point
will be returned."
-/

set_option linter.unusedSectionVars false

namespace Feign.Photons

variable {K P : Type}

/-! ### Specification -/

/-- The children of a node. -/
def Node.kids : Node K P → List (Node K P)
  | .null => []
  | .node _ _ k1 k2 k3 k4 k5 k6 k7 k8 => [k1, k2, k3, k4, k5, k6, k7, k8]

/-- The node is there and `p` is strictly inside its box. -/
def Node.Holds [LinearOrder K] (n : Node K P) (p : V3 K) : Prop :=
  match n with
  | .null => False
  | .node b _ _ _ _ _ _ _ _ _ => b.contains p

/-- A leaf holds photons. -/
def Node.Leaf (n : Node K P) : Prop :=
  match n with
  | .null => False
  | .node _ ps _ _ _ _ _ _ _ _ => ps ≠ []

/-- `m` is a leaf below `n` whose box contains the point, as do all boxes on the way. -/
inductive LeafAt [LinearOrder K] (p : V3 K) : Node K P → Node K P → Prop where
  | here (n : Node K P) (h : n.Holds p) (hl : n.Leaf) : LeafAt p n n
  | down (n c m : Node K P) (h : n.Holds p) (hc : c ∈ n.kids) (hm : LeafAt p c m) : LeafAt p n m

/-- An octree: a leaf, or eight octrees whose boxes are the octants of the box. -/
inductive IsOctree [Field K] : B3 K → Node K P → Prop where
  | leaf (b : B3 K) (ps : List P) (h : ps ≠ []) : IsOctree b (.new b ps)
  | inner (b b1 b2 b3 b4 b5 b6 b7 b8 : B3 K) (k1 k2 k3 k4 k5 k6 k7 k8 : Node K P)
      (hb : b.splitIntoEight = [b1, b2, b3, b4, b5, b6, b7, b8])
      (h1 : IsOctree b1 k1) (h2 : IsOctree b2 k2) (h3 : IsOctree b3 k3) (h4 : IsOctree b4 k4)
      (h5 : IsOctree b5 k5) (h6 : IsOctree b6 k6) (h7 : IsOctree b7 k7) (h8 : IsOctree b8 k8) :
      IsOctree b (.node b [] k1 k2 k3 k4 k5 k6 k7 k8)

/-! ### What `traverse` does -/

section any
variable [LinearOrder K]

/-- **C120, what is returned.** Whatever the tree, a lookup that finds a node returns the node it was asked on, never one
below it; the point is strictly inside that node. -/
theorem traverse_returns_self (n m : Node K P) (p : V3 K) (h : n.traverse p = .ok (some m)) : m = n ∧ n.Holds p := by
  cases n with
  | null => simp [Node.traverse] at h
  | node b ps k1 k2 k3 k4 k5 k6 k7 k8 =>
    unfold Node.traverse at h
    split_ifs at h with hb hp
    · simp only [Res.ok.injEq, Option.some.injEq] at h
      exact ⟨h.symm, hb⟩
    · simp only [Res.bind_eq_ok] at h
      obtain ⟨r1, -, r2, -, r3, -, r4, -, r5, -, r6, -, r7, -, r8, -, h⟩ := h
      split_ifs at h
      · simp only [Res.ok.injEq, Option.some.injEq] at h
        exact ⟨h.symm, hb⟩
      · simp at h
    · simp at h

/-- **C120, leaves.** On a leaf the lookup answers with the leaf exactly for the points strictly inside. -/
theorem traverse_leaf_partial (n : Node K P) (hl : n.Leaf) (p : V3 K) :
    (n.Holds p → n.traverse p = .ok (some n)) ∧ (¬ n.Holds p → n.traverse p = .ok none) := by
  cases n with
  | null => exact absurd hl (by simp [Node.Leaf])
  | node b ps k1 k2 k3 k4 k5 k6 k7 k8 =>
    have hps : ps.length ≠ 0 := by
      intro h0; exact hl (List.length_eq_zero_iff.1 h0)
    constructor
    · intro h
      unfold Node.traverse
      rw [if_pos (show b.contains p from h), if_pos hps]
    · intro h
      unfold Node.traverse
      rw [if_neg (show ¬ b.contains p from h)]

/-- Outside its box a node finds nothing. -/
theorem traverse_outside (b : B3 K) (ps : List P) (k1 k2 k3 k4 k5 k6 k7 k8 : Node K P) (p : V3 K)
    (h : ¬ b.contains p) : (Node.node b ps k1 k2 k3 k4 k5 k6 k7 k8).traverse p = .ok none := by
  unfold Node.traverse
  rw [if_neg h]

/-- **C120, missing children.** A node without photons and without children, as its constructors make it, cannot be
asked about a point inside: the lookup goes through a null pointer. -/
theorem traverse_new_undefined (b : B3 K) (p : V3 K) (h : b.contains p) :
    ((Node.new b [] : Node K P).traverse p).isUb := by
  simp [Node.new, Node.traverse, h, Res.isUb]

end any

section oct
variable [Field K] [LinearOrder K] [IsStrictOrderedRing K]

private theorem octree_box {b : B3 K} {n : Node K P} (h : IsOctree b n) (p : V3 K) : n.Holds p ↔ b.contains p := by
  cases h <;> rfl

private theorem octree_ok {b : B3 K} {n : Node K P} (h : IsOctree b n) (p : V3 K) :
    ∃ r, n.traverse p = .ok r ∧ (r.isSome → b.contains p) := by
  induction h with
  | leaf b ps h =>
    by_cases hb : b.contains p
    · exact ⟨_, (traverse_leaf_partial _ (by simpa [Node.new, Node.Leaf] using h) p).1 hb, fun _ => hb⟩
    · exact ⟨_, (traverse_leaf_partial _ (by simpa [Node.new, Node.Leaf] using h) p).2 hb, by simp⟩
  | inner b b1 b2 b3 b4 b5 b6 b7 b8 k1 k2 k3 k4 k5 k6 k7 k8 hb h1 h2 h3 h4 h5 h6 h7 h8 i1 i2 i3 i4 i5 i6 i7 i8 =>
    by_cases hc : b.contains p
    · obtain ⟨r1, e1, -⟩ := i1
      obtain ⟨r2, e2, -⟩ := i2
      obtain ⟨r3, e3, -⟩ := i3
      obtain ⟨r4, e4, -⟩ := i4
      obtain ⟨r5, e5, -⟩ := i5
      obtain ⟨r6, e6, -⟩ := i6
      obtain ⟨r7, e7, -⟩ := i7
      obtain ⟨r8, e8, -⟩ := i8
      unfold Node.traverse
      rw [if_pos hc, if_neg (by simp), e1, e2, e3, e4, e5, e6, e7, e8]
      simp only [Res.bind_ok]
      split_ifs
      · exact ⟨_, rfl, fun _ => hc⟩
      · exact ⟨_, rfl, fun _ => hc⟩
    · exact ⟨none, traverse_outside _ _ _ _ _ _ _ _ _ _ _ hc, by simp⟩

private theorem noteFound_le (r : Option (Node K P)) (s : Option (Node K P) × ℕ) :
    (noteFound r s).2 = s.2 + (if r.isSome then 1 else 0) := by
  cases r <;> rfl

private theorem count_le (l : List (Bool)) (h : l.Pairwise fun a b => ¬ (a = true ∧ b = true)) :
    (l.map fun a => if a then 1 else 0).sum ≤ 1 := by
  induction l with
  | nil => simp
  | cons a l ih =>
    rw [List.pairwise_cons] at h
    cases a with
    | false => simpa using ih h.2
    | true =>
      have : ∀ b ∈ l, b = false := fun b hb => by
        have := h.1 b hb
        simpa using this
      have hz : (l.map fun a => if a then 1 else 0).sum = 0 := by
        apply List.sum_eq_zero
        intro x hx
        obtain ⟨b, hb, rfl⟩ := List.mem_map.1 hx
        rw [this b hb]; rfl
      rw [List.map_cons, List.sum_cons, hz]; simp

private theorem pairwise_answers (p : V3 K) (L : List (B3 K)) (A : List Bool)
    (h : List.Forall₂ (fun (s : B3 K) (a : Bool) => a = true → s.contains p) L A)
    (hL : L.Pairwise fun s t => ¬ (s.contains p ∧ t.contains p)) : A.Pairwise fun a b => ¬ (a = true ∧ b = true) := by
  induction h with
  | nil => exact List.Pairwise.nil
  | @cons s a L A h1 h2 ih =>
    rw [List.pairwise_cons] at hL ⊢
    refine ⟨fun b hb hab => ?_, ih hL.2⟩
    obtain ⟨i, hi, rfl⟩ := List.getElem_of_mem hb
    have hi' : i < L.length := by rw [h2.length_eq]; exact hi
    exact hL.1 _ (List.getElem_mem hi') ⟨h1 hab.1, (List.forall₂_iff_get.1 h2).2 i hi' hi hab.2⟩

/-- **C120 refuted for every octree.** In an octree that has been split at all, the lookup answers null for every point:
the octants do not overlap, so at most one child answers, and the answer of a single child is dropped. -/
theorem octree_lookup_null (b : B3 K) (k1 k2 k3 k4 k5 k6 k7 k8 : Node K P)
    (h : IsOctree b (.node b [] k1 k2 k3 k4 k5 k6 k7 k8)) (p : V3 K) :
    (Node.node b [] k1 k2 k3 k4 k5 k6 k7 k8).traverse p = .ok none := by
  cases h with
  | leaf _ _ h => exact absurd rfl h
  | inner _ b1 b2 b3 b4 b5 b6 b7 b8 _ _ _ _ _ _ _ _ hb h1 h2 h3 h4 h5 h6 h7 h8 =>
    by_cases hc : b.contains p
    · obtain ⟨r1, e1, c1⟩ := octree_ok h1 p
      obtain ⟨r2, e2, c2⟩ := octree_ok h2 p
      obtain ⟨r3, e3, c3⟩ := octree_ok h3 p
      obtain ⟨r4, e4, c4⟩ := octree_ok h4 p
      obtain ⟨r5, e5, c5⟩ := octree_ok h5 p
      obtain ⟨r6, e6, c6⟩ := octree_ok h6 p
      obtain ⟨r7, e7, c7⟩ := octree_ok h7 p
      obtain ⟨r8, e8, c8⟩ := octree_ok h8 p
      unfold Node.traverse
      rw [if_pos hc, if_neg (by simp), e1, e2, e3, e4, e5, e6, e7, e8]
      simp only [Res.bind_ok]
      rw [if_neg]
      have hd : b.splitIntoEight.Pairwise fun s t => ¬ (s.contains p ∧ t.contains p) := by
        rw [List.pairwise_iff_getElem]
        intro i j hi hj hij
        exact (B3.octants_disjoint b).2 i j hi hj hij.ne p
      rw [hb] at hd
      have hp : [r1.isSome, r2.isSome, r3.isSome, r4.isSome, r5.isSome, r6.isSome, r7.isSome, r8.isSome].Pairwise
          fun a b => ¬ (a = true ∧ b = true) := by
        exact pairwise_answers p _ _ (.cons c1 (.cons c2 (.cons c3 (.cons c4 (.cons c5 (.cons c6 (.cons c7
          (.cons c8 .nil)))))))) hd
      have := count_le _ hp
      simp only [noteFound_le]
      simp only [List.map_cons, List.map_nil, List.sum_cons, List.sum_nil] at this
      omega
    · exact traverse_outside _ _ _ _ _ _ _ _ _ _ _ hc

/-- The unit cube split into eight leaves; leaf `i` holds photon `i`. -/
def cube : Node ℚ ℕ :=
  .node ⟨⟨0, 0, 0⟩, ⟨1, 1, 1⟩⟩ []
    (.new ⟨⟨0, 0, 0⟩, ⟨1 / 2, 1 / 2, 1 / 2⟩⟩ [1]) (.new ⟨⟨0, 1 / 2, 0⟩, ⟨1 / 2, 1, 1 / 2⟩⟩ [2])
    (.new ⟨⟨0, 0, 1 / 2⟩, ⟨1 / 2, 1 / 2, 1⟩⟩ [3]) (.new ⟨⟨0, 1 / 2, 1 / 2⟩, ⟨1 / 2, 1, 1⟩⟩ [4])
    (.new ⟨⟨1 / 2, 0, 0⟩, ⟨1, 1 / 2, 1 / 2⟩⟩ [5]) (.new ⟨⟨1 / 2, 1 / 2, 0⟩, ⟨1, 1, 1 / 2⟩⟩ [6])
    (.new ⟨⟨1 / 2, 0, 1 / 2⟩, ⟨1, 1 / 2, 1⟩⟩ [7]) (.new ⟨⟨1 / 2, 1 / 2, 1 / 2⟩, ⟨1, 1, 1⟩⟩ [8])

private theorem cube_octree : IsOctree ⟨⟨0, 0, 0⟩, ⟨1, 1, 1⟩⟩ cube := by
  refine IsOctree.inner _ _ _ _ _ _ _ _ _ _ _ _ _ _ _ _ _ ?_ (.leaf _ _ (by simp)) (.leaf _ _ (by simp))
    (.leaf _ _ (by simp)) (.leaf _ _ (by simp)) (.leaf _ _ (by simp)) (.leaf _ _ (by simp)) (.leaf _ _ (by simp))
    (.leaf _ _ (by simp))
  simp [B3.splitIntoEight, B3.half]

/-- **C120 refuted.** A point in the middle of the first leaf of a tree with eight leaves: the leaf is the smallest node
that contains it, the lookup answers null. -/
theorem octree_lookup_refuted :
    LeafAt ⟨1 / 4, 1 / 4, 1 / 4⟩ cube (.new ⟨⟨0, 0, 0⟩, ⟨1 / 2, 1 / 2, 1 / 2⟩⟩ [1]) ∧
    IsOctree ⟨⟨0, 0, 0⟩, ⟨1, 1, 1⟩⟩ cube ∧ cube.traverse ⟨1 / 4, 1 / 4, 1 / 4⟩ = .ok none := by
  refine ⟨?_, cube_octree, octree_lookup_null _ _ _ _ _ _ _ _ _ cube_octree _⟩
  refine .down _ (.new ⟨⟨0, 0, 0⟩, ⟨1 / 2, 1 / 2, 1 / 2⟩⟩ [1]) _ ?_ (by simp [cube, Node.kids]) (.here _ ?_ ?_)
  · simp only [cube, Node.Holds, B3.contains, V3.lt]; norm_num
  · simp only [Node.new, Node.Holds, B3.contains, V3.lt]; norm_num
  · simp [Node.new, Node.Leaf]

/-- **C120, two children.** Only if two children contain the point (boxes that overlap) the parent is returned, as the
comment says. -/
theorem overlapping_children (b b1 b2 : B3 K) (ps qs : List P) (p : V3 K) (hb : b.contains p) (h1 : b1.contains p)
    (h2 : b2.contains p) (hp : ps ≠ []) (hq : qs ≠ []) (k3 k4 k5 k6 k7 k8 : Node K P)
    (hk : ∀ k ∈ [k3, k4, k5, k6, k7, k8], ∃ r, k.traverse p = .ok r) :
    (Node.node b [] (.new b1 ps) (.new b2 qs) k3 k4 k5 k6 k7 k8).traverse p =
      .ok (some (.node b [] (.new b1 ps) (.new b2 qs) k3 k4 k5 k6 k7 k8)) := by
  obtain ⟨r3, e3⟩ := hk k3 (by simp)
  obtain ⟨r4, e4⟩ := hk k4 (by simp)
  obtain ⟨r5, e5⟩ := hk k5 (by simp)
  obtain ⟨r6, e6⟩ := hk k6 (by simp)
  obtain ⟨r7, e7⟩ := hk k7 (by simp)
  obtain ⟨r8, e8⟩ := hk k8 (by simp)
  have e1 := (traverse_leaf_partial (Node.new b1 ps) (by simpa [Node.new, Node.Leaf] using hp) p).1 h1
  have e2 := (traverse_leaf_partial (Node.new b2 qs) (by simpa [Node.new, Node.Leaf] using hq) p).1 h2
  rw [Node.traverse, if_pos hb, if_neg (by simp), e1, e2, e3, e4, e5, e6, e7, e8]
  simp only [Res.bind_ok]
  rw [if_pos]
  simp only [noteFound_le, Option.isSome_some, if_true]
  omega

/-- **C120, building.** `split` never makes children: a node that completes it is as before, so the tree built from one
node is a single leaf. With photons and a radius that is not positive it throws. -/
theorem split_keeps (b : B3 K) (ps : List P) (r : K) :
    ((0 < r ∨ ps = []) → (Node.new b ps).split r = .ok (.new b ps)) ∧
    (ps ≠ [] → r ≤ 0 → ∃ e, (Node.new b ps).split r = .throw e) := by
  constructor
  · rintro (h | h)
    · unfold Node.split Node.new
      simp only
      split_ifs <;> rfl
    · subst h; simp [Node.split, Node.new]
  · intro h hr
    unfold Node.split Node.new
    simp only
    rw [if_neg (fun h0 => h (List.length_eq_zero_iff.1 h0)), if_neg (not_lt.2 hr)]
    exact ⟨_, rfl⟩

end oct
end Feign.Photons
