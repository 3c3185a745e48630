import Verif.Sdf.ViewOrder

/-!
# C144: copies of a shape in the same place change nothing
-/

set_option linter.unusedSectionVars false
set_option linter.unusedVariables false
set_option linter.unusedSimpArgs false

namespace Feign.Sdf

open Integrators

variable {fs fs' : List (V3 ℝ → Option ℝ)}

/-- The least value depends only on which shapes there are, not on how often each of them is there. -/
theorem depth_members (h : ∀ f, f ∈ fs ↔ f ∈ fs') : depth fs = depth fs' := by
  funext q
  apply Option.ext
  intro v
  rw [depth_spec, depth_spec]
  simp only [h]

theorem map_members {α β : Type} (g : α → β) {l l' : List α} (h : ∀ a, a ∈ l ↔ a ∈ l') : ∀ b, b ∈ l.map g ↔ b ∈ l'.map g := by
  intro b
  simp only [List.mem_map, h]

theorem hit_depth (h : depth fs = depth fs') (box : Option (B3 ℝ)) (r : Integrators.Ray) :
    (hitOf fs box r).map (fun a => (a.t, a.normal, a.p)) = (hitOf fs' box r).map (fun a => (a.t, a.normal, a.p)) := by
  have := intersect_perm h box ⟨r.1, r.2, Ext.fin eps, ⊤⟩
  unfold hitOf
  cases h1 : intersect fs box ⟨r.1, r.2, Ext.fin eps, ⊤⟩ with
  | throw e =>
    cases h2 : intersect fs' box ⟨r.1, r.2, Ext.fin eps, ⊤⟩ with
    | throw e' => rfl
    | ub e' => rfl
    | ok m' => rw [h1, h2] at this; cases m' <;> simp_all [forget]
  | ub e =>
    cases h2 : intersect fs' box ⟨r.1, r.2, Ext.fin eps, ⊤⟩ with
    | throw e' => rfl
    | ub e' => rfl
    | ok m' => rw [h1, h2] at this; cases m' <;> simp_all [forget]
  | ok m =>
    cases h2 : intersect fs' box ⟨r.1, r.2, Ext.fin eps, ⊤⟩ with
    | throw e' => rw [h1, h2] at this; cases m <;> simp_all [forget]
    | ub e' => rw [h1, h2] at this; cases m <;> simp_all [forget]
    | ok m' => rw [h1, h2] at this; cases m <;> cases m' <;> simp_all [forget]

theorem look_members {ts ts' : List (Shape × Look)} (h : ∀ t, t ∈ ts ↔ t ∈ ts') (ht : Told ts) (box : Option (B3 ℝ))
    (r : Integrators.Ray) :
    (hitOf (fieldsOf ts) box r).map (fun a => (a.normal, a.p, lookAt ts a.shape)) =
      (hitOf (fieldsOf ts') box r).map (fun a => (a.normal, a.p, lookAt ts' a.shape)) := by
  have hf : depth (fieldsOf ts) = depth (fieldsOf ts') := depth_members (map_members _ (map_members _ h))
  have hh := hit_depth hf box r
  cases h1 : hitOf (fieldsOf ts) box r with
  | none =>
    cases h2 : hitOf (fieldsOf ts') box r with
    | none => rfl
    | some b => rw [h1, h2] at hh; simp at hh
  | some a =>
    cases h2 : hitOf (fieldsOf ts') box r with
    | none => rw [h1, h2] at hh; simp at hh
    | some b =>
      rw [h1, h2] at hh
      simp only [Option.map_some, Option.some.injEq, Prod.mk.injEq] at hh
      obtain ⟨-, hn, hp⟩ := hh
      obtain ⟨ta, hta, hla, v, hv, hdv, hev⟩ := hit_thing h1
      obtain ⟨tb, htb, hlb, w, hw, hdw, hew⟩ := hit_thing h2
      rw [← hp, ← hn] at hdw hew
      rw [← hf, hdv] at hdw
      obtain rfl := Option.some.inj hdw
      simp only [Option.map_some, Option.some.injEq, Prod.mk.injEq]
      exact ⟨hn, hp, by rw [hla, hlb]; exact ht ta hta tb ((h tb).2 htb) _ _ hev hew hv⟩

/-! ## Boxes -/

theorem expandBox_self (b : B3 ℝ) : b.expandBox b = b := by
  simp only [B3.expandBox, minV_min, maxV_max, min_self, max_self]

theorem sceneBox_absorbs {b : B3 ℝ} {bs : List (B3 ℝ)} (h : b ∈ bs) : sceneBox (b :: bs) = sceneBox bs := by
  obtain ⟨l, r, rfl⟩ := List.append_of_mem h
  have hp : (l ++ b :: r).Perm (b :: (l ++ r)) := List.perm_middle
  rw [sceneBox_perm hp, sceneBox_perm (hp.cons b), sceneBox_cons, sceneBox_cons]
  cases sceneBox (l ++ r) with
  | none => simp only [expandBox_self]
  | some c => simp only [← expandBox_assoc, expandBox_self]

open Classical in
theorem sceneBox_dedup (bs : List (B3 ℝ)) : sceneBox bs.dedup = sceneBox bs := by
  induction bs with
  | nil => rfl
  | cons b bs ih =>
    by_cases h : b ∈ bs
    · rw [List.dedup_cons_of_mem h, ih, sceneBox_absorbs h]
    · rw [List.dedup_cons_of_notMem h, sceneBox_cons, sceneBox_cons, ih]

open Classical in
/-- The box around everything depends only on which boxes there are. -/
theorem sceneBox_members {bs bs' : List (B3 ℝ)} (h : ∀ b, b ∈ bs ↔ b ∈ bs') : sceneBox bs = sceneBox bs' := by
  rw [← sceneBox_dedup bs, ← sceneBox_dedup bs']
  exact sceneBox_perm ((List.perm_ext_iff_of_nodup (List.nodup_dedup _) (List.nodup_dedup _)).2 fun b => by simp [h])

theorem boxes_members {ss ss' : List Shape} (h : ∀ s, s ∈ ss ↔ s ∈ ss') {bs bs' : List (B3 ℝ)} (hb : ss.mapM Shape.boundingBox = some bs)
    (hb' : ss'.mapM Shape.boundingBox = some bs') : sceneBox bs = sceneBox bs' := by
  rw [mapM_some] at hb hb'
  apply sceneBox_members
  intro b
  have h1 := map_members Shape.boundingBox h (some b)
  rw [hb, hb'] at h1
  simpa using h1

/-! ## Scenes -/

/-- **C144, scenes of distance functions** (missing: shapes that are not told apart, see `order_refuted`)**.** Two lists of the same shapes
with the same looks, each listed any number of times and in any order, make the same scene: the integrators are told the same about every
ray, for all random numbers. -/
theorem copies_free_partial {ts ts' : List (Shape × Look)} (h : ∀ t, t ∈ ts ↔ t ∈ ts') (ht : Told ts) {bs bs' : List (B3 ℝ)}
    (hb : (ts.map (·.1)).mapM Shape.boundingBox = some bs) (hb' : (ts'.map (·.1)).mapM Shape.boundingBox = some bs')
    (env : V3 ℝ → V3 ℝ) (lamps : List Lamp) :
    litRoom (fieldsOf ts) (sceneBox bs) (lookAt ts) env lamps = litRoom (fieldsOf ts') (sceneBox bs') (lookAt ts') env lamps := by
  rw [← boxes_members (map_members _ h) hb hb']
  have key := look_members h ht (sceneBox bs)
  have g : ∀ {α : Type} (F : V3 ℝ × V3 ℝ × Look → α) (r : Integrators.Ray),
      (hitOf (fieldsOf ts) (sceneBox bs) r).map (fun a => F (a.normal, a.p, lookAt ts a.shape)) =
        (hitOf (fieldsOf ts') (sceneBox bs) r).map (fun a => F (a.normal, a.p, lookAt ts' a.shape)) := by
    intro α F r
    have := congrArg (Option.map F) (key r)
    simpa only [Option.map_map, Function.comp_def] using this
  have gs : ∀ r, (hitOf (fieldsOf ts) (sceneBox bs) r).isSome = (hitOf (fieldsOf ts') (sceneBox bs) r).isSome := by
    intro r
    have := congrArg Option.isSome (key r)
    simpa only [Option.isSome_map] using this
  have hroom : room (fieldsOf ts) (sceneBox bs) (lookAt ts) env = room (fieldsOf ts') (sceneBox bs) (lookAt ts') env := by
    simp only [room, Room.mk.injEq, true_and, and_true]
    refine ⟨funext gs, ?_, ?_, ?_, ?_, ?_, ?_, ?_⟩
    · funext r; exact congrArg (fun o => Option.getD o r.1) (g (fun x => x.2.1) r)
    · funext r; exact congrArg (fun o => Option.getD o _) (g (fun x => frameOf x.1) r)
    · funext r; exact congrArg (fun o => Option.getD o _) (g (fun x => x.2.2.material) r)
    · funext r; exact congrArg (fun o => Option.getD o _) (g (fun x => x.2.2.albedo) r)
    · funext r; exact congrArg (fun o => Option.getD o _) (g (fun x => x.2.2.intIor) r)
    · funext r; exact congrArg (fun o => Option.getD o _) (g (fun x => x.2.2.extIor) r)
    · funext r; exact congrArg (fun o => Option.getD o _) (g (fun x => x.2.2.emitted ((frameOf x.1).toLocal r.2)) r)
  have hbl : blockedBy (fieldsOf ts) (sceneBox bs) = blockedBy (fieldsOf ts') (sceneBox bs) := by
    funext p d t
    exact gs (p, d)
  unfold litRoom
  rw [hroom, hbl]

/-- **C144, copies that look alike.** If all shapes look alike nothing else is needed: this covers copies of a single shape. -/
theorem alike_copies_free {ts ts' : List (Shape × Look)} (h : ∀ t, t ∈ ts ↔ t ∈ ts') {look : Look} (hl : ∀ t ∈ ts, t.2 = look)
    {bs bs' : List (B3 ℝ)}
    (hb : (ts.map (·.1)).mapM Shape.boundingBox = some bs) (hb' : (ts'.map (·.1)).mapM Shape.boundingBox = some bs')
    (env : V3 ℝ → V3 ℝ) (lamps : List Lamp) :
    litRoom (fieldsOf ts) (sceneBox bs) (lookAt ts) env lamps = litRoom (fieldsOf ts') (sceneBox bs') (lookAt ts') env lamps :=
  copies_free_partial h (fun a ha b hb _ _ _ _ _ => by rw [hl a ha, hl b hb]) hb hb' env lamps

/-- **C144, views.** What ambient occlusion and the views of normals, cosines and edges ask of a scene depends only on which shapes there
are, whether or not they are told apart. -/
theorem view_copies_free {ss ss' : List Shape} (h : ∀ s, s ∈ ss ↔ s ∈ ss') {bs bs' : List (B3 ℝ)} (hb : ss.mapM Shape.boundingBox = some bs)
    (hb' : ss'.mapM Shape.boundingBox = some bs') :
    skyOf (evals ss) (sceneBox bs) = skyOf (evals ss') (sceneBox bs') ∧ seenIn (evals ss) (sceneBox bs) = seenIn (evals ss') (sceneBox bs') := by
  rw [← boxes_members h hb hb']
  have key := hit_depth (fs := evals ss) (fs' := evals ss') (depth_members (map_members _ h)) (sceneBox bs)
  have g : ∀ {α : Type} (F : ℝ × V3 ℝ × V3 ℝ → α) (r : Integrators.Ray),
      (hitOf (evals ss) (sceneBox bs) r).map (fun a => F (a.t, a.normal, a.p)) =
        (hitOf (evals ss') (sceneBox bs) r).map (fun a => F (a.t, a.normal, a.p)) := by
    intro α F r
    have := congrArg (Option.map F) (key r)
    simpa only [Option.map_map, Function.comp_def] using this
  have gs : ∀ r, (hitOf (evals ss) (sceneBox bs) r).isSome = (hitOf (evals ss') (sceneBox bs) r).isSome := by
    intro r
    have := congrArg Option.isSome (key r)
    simpa only [Option.isSome_map] using this
  have gp : ∀ r d, ((hitOf (evals ss) (sceneBox bs) r).map fun a => a.p).getD d = ((hitOf (evals ss') (sceneBox bs) r).map fun a => a.p).getD d :=
    fun r d => congrArg (fun o => Option.getD o d) (g (fun x => x.2.2) r)
  have gf : ∀ r d, ((hitOf (evals ss) (sceneBox bs) r).map fun a => frameOf a.normal).getD d =
      ((hitOf (evals ss') (sceneBox bs) r).map fun a => frameOf a.normal).getD d :=
    fun r d => congrArg (fun o => Option.getD o d) (g (fun x => frameOf x.2.1) r)
  have gn : ∀ r d, ((hitOf (evals ss) (sceneBox bs) r).map fun a => (frameOf a.normal).n).getD d =
      ((hitOf (evals ss') (sceneBox bs) r).map fun a => (frameOf a.normal).n).getD d :=
    fun r d => congrArg (fun o => Option.getD o d) (g (fun x => (frameOf x.2.1).n) r)
  constructor
  · simp only [skyOf, gs, gp, gf]
  · simp only [seenIn, gs, gn]

/-- A glass ball and three of them in the same place. -/
example : ∃ ts ts' : List (Shape × Look), (∀ t, t ∈ ts ↔ t ∈ ts') ∧ ts.length ≠ ts'.length ∧ Told ts ∧
    (∃ look : Look, ∀ t ∈ ts, t.2 = look) ∧ (∃ bs, (ts.map (·.1)).mapM Shape.boundingBox = some bs) ∧
    ∃ bs', (ts'.map (·.1)).mapM Shape.boundingBox = some bs' := by
  obtain ⟨b, hb⟩ : ∃ b, Shape.boundingBox (.sphere 0 1) = some b := by simp [Shape.boundingBox]
  refine ⟨[(.sphere 0 1, whiteGlass 2 1)], List.replicate 3 (.sphere 0 1, whiteGlass 2 1), by simp, by simp, ?_, ⟨whiteGlass 2 1, by simp⟩,
    ⟨[b], (mapM_some _ _ _).2 (by simp [hb])⟩, ⟨[b, b, b], (mapM_some _ _ _).2 (by simp [hb, List.replicate])⟩⟩
  intro x hx y hy _ _ _ _ _
  simp only [List.mem_singleton] at hx hy
  rw [hx, hy]

end Feign.Sdf
