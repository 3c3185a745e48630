import Verif.Basic
import Verif.Math.BBox
import Mathlib.Algebra.Order.Field.Basic

/-!
# The photon octree (model)

`PhotonBVH::BVHNode`, `src/accel/photon_bvh.cpp:21-192`. The class is public; the photon integrator uses `PhotonArray`
instead (`src/integrators/photon.cpp:47`). `parent` is never read and is left out.
-/

namespace Feign.Photons

variable {K P : Type}

/-- A pointer to `PhotonBVH::BVHNode`, `include/feign/core/accel_photons.h:128-163`: null, or bounds, photons and the
eight children in the order in which `traverse` visits them. -/
inductive Node (K P : Type) where
  | null
  | node (bounds : B3 K) (photons : List P) (k1 k2 k3 k4 k5 k6 k7 k8 : Node K P)

/-- `BVHNode(bounds, photons)`, `photon_bvh.cpp:51-65`. -/
def Node.new (bounds : B3 K) (photons : List P) : Node K P :=
  .node bounds photons .null .null .null .null .null .null .null .null

/-- The rest of `traverse_util`, `photon_bvh.cpp:156-162`, after the call of `traverse`: the node found last and the
number of nodes found. -/
def noteFound (tmp : Option (Node K P)) (s : Option (Node K P) × Nat) : Option (Node K P) × Nat :=
  match tmp with
  | some t => (some t, s.2 + 1)
  | none => s

/-- `BVHNode::traverse`, `photon_bvh.cpp:168-192`. A call on a null child is undefined. -/
def Node.traverse [LinearOrder K] : Node K P → V3 K → Res (Option (Node K P))
  | .null, _ => .ub "traverse on a null node"
  | .node b ps k1 k2 k3 k4 k5 k6 k7 k8, p =>
    if b.contains p then
      if ps.length ≠ 0 then .ok (some (.node b ps k1 k2 k3 k4 k5 k6 k7 k8))
      else do
        let r1 ← k1.traverse p
        let r2 ← k2.traverse p
        let r3 ← k3.traverse p
        let r4 ← k4.traverse p
        let r5 ← k5.traverse p
        let r6 ← k6.traverse p
        let r7 ← k7.traverse p
        let r8 ← k8.traverse p
        let found := noteFound r8 (noteFound r7 (noteFound r6 (noteFound r5 (noteFound r4 (noteFound r3
          (noteFound r2 (noteFound r1 (none, 0))))))))
        if found.2 > 1 then .ok (some (.node b ps k1 k2 k3 k4 k5 k6 k7 k8)) else .ok none
    else .ok none

/-- Smallest component, `Vec3::min()`. -/
def minComp [LinearOrder K] (v : V3 K) : K := min (min v.x v.y) v.z

/-- `BVHNode::split`, `photon_bvh.cpp:119-148`: the node afterwards. The sections are computed and dropped. -/
def Node.split [Field K] [LinearOrder K] (n : Node K P) (radius : K) : Res (Node K P) :=
  match n with
  | .null => .ub "split on a null node"
  | .node b ps k1 k2 k3 k4 k5 k6 k7 k8 =>
    if ps.length = 0 then .ok (.node b ps k1 k2 k3 k4 k5 k6 k7 k8)
    else if radius > 0 then
      if minComp b.extents < 2 * radius then .ok (.node b ps k1 k2 k3 k4 k5 k6 k7 k8)
      else .ok (.node b ps k1 k2 k3 k4 k5 k6 k7 k8)
    else .throw "photon_bvh"

end Feign.Photons
