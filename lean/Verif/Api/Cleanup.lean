import Verif.Api.FlushProps

/-!
# Clean-up after the render

C63. `FeignRenderer::~FeignRenderer`, `src/api/api.cpp:87-147`.
-/

namespace Feign.Api
variable {D T : Type}

/-- The maps whose nodes the destructor deletes, `api.cpp:94-125`, in that order. `trans_funcs` is missing. -/
def dtorKinds : List Kind :=
  [.bsdf, .camera, .emitter, .media, .integrator, .sampler, .filter, .object, .mesh, .geomShader, .matShader,
   .texture, .density, .phase, .medSampling, .transEst]

/-- The nodes deleted, in order; `order k` is the iteration order of the map of kind `k`. A node owns its
definition, which goes with it (`~XNode`); pointers to other nodes are not followed. -/
def freed (order : Kind → List Nat) : List Nat := dtorKinds.flatMap order

/-- **C63**, partial: in every history no node is deleted twice, and every node other than transmittance
functions is deleted. -/
theorem cleanup_partial (clk : Bool) {s : St D T} (hs : Reachable clk s) {order : Kind → List Nat}
    (ho : ∀ k, IsOrder s k (order k)) :
    (freed order).Nodup ∧ ∀ p nd, s.node p = some nd → (p ∈ freed order ↔ nd.kind ≠ .transFunc) := by
  have hI := hs.inv
  have hkind : ∀ k p, p ∈ order k ↔ ∃ nd, s.node p = some nd ∧ nd.kind = k := by
    intro k p
    rw [(ho k).2 p]
    constructor
    · rintro ⟨n, hn⟩
      obtain ⟨nd, h1, h2, _⟩ := (hI.look _ _ _).1 hn
      exact ⟨nd, h1, h2⟩
    · rintro ⟨nd, h1, h2⟩
      exact ⟨nd.name, (hI.look _ _ _).2 ⟨nd, h1, h2, rfl⟩⟩
  refine ⟨?_, ?_⟩
  · unfold freed
    rw [List.nodup_flatMap]
    refine ⟨fun k _ => (ho k).1, ?_⟩
    have hnd : dtorKinds.Nodup := by decide
    refine hnd.imp ?_
    intro k k' hne p hp hp'
    obtain ⟨nd, h1, h2⟩ := (hkind k p).1 hp
    obtain ⟨nd', h1', h2'⟩ := (hkind k' p).1 hp'
    rw [h1, Option.some.injEq] at h1'
    subst h1'
    exact hne (h2.symm.trans h2')
  · intro p nd hn
    unfold freed
    rw [List.mem_flatMap]
    constructor
    · rintro ⟨k, hk, hp⟩
      obtain ⟨nd', h1, h2⟩ := (hkind k p).1 hp
      rw [hn, Option.some.injEq] at h1
      subst h1
      rw [h2]
      rintro rfl
      revert hk
      decide
    · intro hne
      refine ⟨nd.kind, ?_, (hkind _ _).2 ⟨nd, hn, rfl⟩⟩
      revert hne
      cases nd.kind <;> decide

/-- **C63 refuted.** Declaring a transmittance function (or a medium naming one) creates a node that is never
deleted. -/
theorem cleanup_leak_refuted : ∃ (s : St Unit ℕ) (p : Nat), Reachable true s ∧ (s.node p).isSome ∧
    ∀ order : Kind → List Nat, (∀ k, IsOrder s k (order k)) → p ∉ freed order := by
  have hr : Reachable true ((run true (St.init 0) ([.transFunc "f" "exp" ()] : List (Call Unit ℕ))).getD ([], St.init 0)).2 :=
    ⟨0, [.transFunc "f" "exp" ()], [.ok], rfl⟩
  refine ⟨_, 0, hr, by decide, ?_⟩
  intro order ho hm
  exact ((cleanup_partial true hr ho).2 0 _ rfl).1 hm rfl

end Feign.Api
