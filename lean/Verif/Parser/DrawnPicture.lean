import Verif.Parser.DrawnProps
import Verif.Sdf.LimitedProps

/-!
# C135: from the scene file to the picture
-/

set_option linter.unusedSectionVars false
set_option linter.unusedSimpArgs false
set_option linter.unusedVariables false

namespace Feign.Parser

open Api (Key Kind St Asm Ptr)
open Integrators Sampling MeasureTheory Camera Image Filter
open scoped ENNReal Topology

theorem boxes_exist : ∀ {ss : List Sdf.Shape}, (∀ s ∈ ss, s.WellFormed) → ∃ bs, ss.mapM Sdf.Shape.boundingBox = some bs
  | [], _ => ⟨[], rfl⟩
  | s :: ss, h => by
    obtain ⟨bs, hbs⟩ := boxes_exist fun x hx => h x (List.mem_cons_of_mem _ hx)
    have hs := h s List.mem_cons_self
    have : ∃ b, s.boundingBox = some b := by
      cases s with
      | sphere c r => exact ⟨_, Sdf.sphere_box_eq c r hs⟩
      | plane c n => exact ⟨_, rfl⟩
      | box t b => exact ⟨_, rfl⟩
      | cylinder a b r => exact ⟨_, rfl⟩
      | cone a b r s => exact ⟨_, rfl⟩
    obtain ⟨b, hb⟩ := this
    exact ⟨b :: bs, by rw [List.mapM_cons, hb, hbs]; rfl⟩

/-- Colours made by a BSDF section do not glow. -/
theorem look_dark {p : BsdfP ℝ} {l : Sdf.Look} (h : p.look = some l) : l.emitted = fun _ => 0 := by
  cases p <;> simp only [BsdfP.look, Option.some.injEq, reduceCtorEq] at h <;> rw [← h]

theorem foldl_get (k : Fin 3) : ∀ (cs : List (V3 ℝ)) (a : V3 ℝ),
    (cs.foldl (· + ·) a).get k = a.get k + (cs.map fun c => c.get k).sum
  | [], a => by simp
  | c :: cs, a => by
    rw [List.foldl_cons, foldl_get k cs, List.map_cons, List.sum_cons, ← add_assoc]
    congr 1
    fin_cases k <;> rfl

theorem foldl_nonneg : ∀ (cs : List (V3 ℝ)) {a : V3 ℝ}, (∀ c ∈ cs, NonNeg c) → NonNeg a → NonNeg (cs.foldl (· + ·) a)
  | [], a, _, h => h
  | c :: cs, a, hc, h => by
    refine foldl_nonneg cs (fun x hx => hc x (List.mem_cons_of_mem _ hx)) ?_
    obtain ⟨h1, h2, h3⟩ := hc c List.mem_cons_self
    exact ⟨add_nonneg h.1 h1, add_nonneg h.2.1 h2, add_nonneg h.2.2 h3⟩

variable {T : Type}

theorem forall₂_right {α β : Type} {R : α → β → Prop} : ∀ {l : List α} {r : List β}, List.Forall₂ R l r → ∀ b ∈ r, ∃ a ∈ l, R a b
  | _, _, .nil, b, hb => by simp at hb
  | _, _, .cons h hs, b, hb => by
    rcases List.mem_cons.1 hb with rfl | hb
    · exact ⟨_, List.mem_cons_self, h⟩
    · obtain ⟨a, ha, hr⟩ := forall₂_right hs b hb
      exact ⟨a, List.mem_cons_of_mem _ ha, hr⟩

/-- A shown scene that keeps to the rules is a setting in which the pictures are known, in any order of its things. -/
theorem good_setting {l : List (Entry ℝ T)} {d d' : Drawn T} (hd : Shows l d) (hs : d'.Same d) {ρ E I δ : ℝ} (hρ : 0 ≤ ρ)
    (hE : 0 ≤ E) (hg : d.Good ρ E I δ) :
    Sdf.Setting (d'.things.map (·.1)) (looksOf d'.things) (fun _ => d'.skies.foldl (· + ·) 0) d'.lamps ρ E I δ := by
  obtain ⟨hp, he⟩ := hs
  have hl : d'.lamps = d.lamps := by have := congrArg Drawn.lamps he; exact this
  have hk : d'.skies = d.skies := by have := congrArg Drawn.skies he; exact this
  have hlook : ∀ i, (looksOf d'.things i = ⟨.diffuse, 0, 1, 1, fun _ => 0⟩) ∨
      ∃ t ∈ d.things, looksOf d'.things i = t.2 := by
    intro i
    unfold looksOf
    cases hi : d'.things[i]? with
    | none => exact Or.inl rfl
    | some t => exact Or.inr ⟨t, hp.mem_iff.1 (List.mem_of_getElem? hi), rfl⟩
  have hdark : ∀ i, (looksOf d'.things i).emitted = fun _ => 0 := by
    intro i
    rcases hlook i with h | ⟨t, ht, h⟩
    · rw [h]
    · rw [h]
      obtain ⟨c, -, hm⟩ := forall₂_right hd.things t ht
      obtain ⟨-, -, -, -, -, -, bp, -, -, -, -, -, -, hb⟩ := hm
      exact look_dark (look_of hb)
  have hz : NonNeg (0 : V3 ℝ) := ⟨le_rfl, le_rfl, le_rfl⟩
  refine ⟨?_, ?_, ?_, ?_, measurable_const, ?_, ?_, ?_, ?_, ?_⟩
  · intro s hs
    obtain ⟨t, ht, rfl⟩ := List.mem_map.1 hs
    exact hg.shapes t (hp.mem_iff.1 ht)
  · intro i
    refine ⟨?_, fun _ => ?_, ?_⟩
    · rcases hlook i with h | ⟨t, ht, h⟩
      · rw [h]; exact hz
      · rw [h]; exact (hg.colours t ht).1
    · rw [hdark]; exact hz
    · rw [hdark]; exact measurable_const
  · intro i k
    rcases hlook i with h | ⟨t, ht, h⟩
    · rw [h]; exact (get_zero k).trans_le hρ
    · rw [h]; exact (hg.colours t ht).2 k
  · intro i _ k
    rw [hdark]
    exact (get_zero k).trans_le hE
  · intro _
    rw [hk]
    exact foldl_nonneg _ hg.skies hz
  · intro _ k
    rw [hk, foldl_get, get_zero, zero_add]
    exact hg.skies_le k
  · rw [hl]; exact fun x hx => (hg.lamps x hx).1
  · rw [hl]; exact fun x hx => (hg.lamps x hx).2
  · rw [hl]
    intro x hx s hs q hq
    obtain ⟨t, ht, rfl⟩ := List.mem_map.1 hs
    exact hg.apart x hx t (hp.mem_iff.1 ht) q hq

/-- In a file that is carried out nothing moves the camera. -/
theorem camera_entry (fl : Rat → ℝ) (m : Xf ℝ T) {ms : List (String × Js)}
    (ho : ∀ sec ∈ ms, (sectionOf fl (cstr sec.1) sec.2).out = .ok ()) {x : T} {n t : String} {p : CameraP ℝ}
    (h : (x, .camera n t p) ∈ entries fl m ms) : x = m.one := by
  obtain ⟨sec, hsec, he⟩ := List.mem_filterMap.1 h
  rcases section_shape fl (cstr sec.1) sec.2 (ho sec hsec) with hn | ⟨tr, c, tr', hc, htr, hd, hend⟩
  · simp [sectionEntry, hn] at he
  · rw [sectionEntry_shape fl m hc htr hd.1, Option.some.injEq, Prod.mk.injEq] at he
    obtain ⟨rfl, rfl⟩ := he
    rcases hend with ⟨rfl, -⟩ | ⟨-, hapi⟩
    · rfl
    · simp [Call.api] at hapi

section
variable (fl : Rat → ℝ) {ms : List (String × Js)} {s : St (Call ℝ) (Option (Feign.Xf ℝ))}
  (h : runFile fl matrices (.obj ms) = some (.rendered s)) (hw : Whole ((entries fl matrices ms).map (·.2)))
  {d : Drawn (Option (Feign.Xf ℝ))} (hd : Shows (entries fl matrices ms) d)
  {ρ E I δ : ℝ} (hg : d.Good ρ E I δ) (hρ : 0 ≤ ρ) (hE : 0 ≤ E) (hI : 0 ≤ I) (hδ : 0 < δ)
  (mul : Option (Feign.Xf ℝ) → Option (Feign.Xf ℝ) → Option (Feign.Xf ℝ)) (one : Option (Feign.Xf ℝ))
  {os es mds : List Nat} (hos : Api.IsOrder s .object os) (hes : Api.IsOrder s .emitter es)
  (hms : Api.IsOrder s .media mds)
include h hw hd hg hρ hE hI hδ hos hes hms

/-- **C135, from the file to the picture.** The file was carried out and nothing in it is missing. Its declarations show the
scene `d`, which keeps to the rules and names the path integrator. Then the renderer finds that scene behind its pointers, in some order `d'` of its things.
It draws it with the camera where the file puts it and with the file's limit of bounces. For almost every sequence of
random numbers, as the number of samples grows each pixel tends to the light that paths of at most as many segments carry back,
averaged over the lens and the filter, less at most what the cut of faint paths leaves out. -/
theorem file_picture (hpath : d.view = "path") (hρ1 : ρ ≤ 1) :
    ∃ a d' bs x t, Api.flush true mul one s os es mds = (.ok, a) ∧ drawn s a = some d' ∧ d'.Same d ∧
      (d'.things.map (·.1)).mapM Sdf.Shape.boundingBox = some bs ∧ d'.placed = some x ∧
      cameraToWorld x d.camera.origin d.camera.target d.camera.up = some t ∧
      ∀ {ray : ℝ × ℝ → ℝ × ℝ → Integrators.Ray}, d.camera.persp.Shows t (fun s => (s.1, s.2.1)) ray →
      ∀ {quot : ℝ → ℝ → ℝ}, IsQuot quot → ∀ {L : Integrators.Ray → Stream → V3 ℝ × Stream},
      (d'.room (Sdf.sceneBox bs)).world.Traces quot d.bounces.toNat L →
      ∀ᵐ ω ∂uniform, ∃ img : ℕ → Int → Int → Fin 3 → ℝ,
        (∀ spp, renderWith apiDefaultFilter d.camera.persp.width d.camera.persp.height spp ray L ω = .ok (img spp)) ∧
        ∀ (x y : ℕ) (k : Fin 3), x < d.camera.persp.width → y < d.camera.persp.height → ∃ p : ℝ,
          Tendsto (fun spp => img spp x y k) atTop (𝓝 p) ∧
          let T := (filtered apiDefaultFilter d.camera.persp.width d.camera.persp.height x y (d.camera.persp.throughLens t fun s =>
            (d'.room (Sdf.sceneBox bs)).world.carried k d.bounces.toNat true (s.1, s.2.1))).toReal
          p ≤ T ∧ T ≤ p + d.bounces.toNat * Sdf.found d.lamps.length ρ E I δ / 10000 := by
  obtain ⟨a, d', hfl, hdr, hs⟩ := file_drawn fl matrices h hw hd mul one hos hes hms
  obtain ⟨ho, -⟩ := (rendered_iff fl matrices ms).1 ⟨s, h⟩
  obtain ⟨_, _, _, cam, _, _, _, _, _, _, _, -, -, hcam, -, -, -⟩ := hd.settings
  have hpl : d'.placed = some Feign.Xf.one :=
    (congrArg Drawn.placed hs.2).trans (camera_entry fl matrices ho hcam)
  obtain ⟨bs, hbs⟩ := boxes_exist (ss := d'.things.map (·.1)) (by
    intro x hx
    obtain ⟨t, ht, rfl⟩ := List.mem_map.1 hx
    exact hg.shapes t (hs.1.mem_iff.1 ht))
  obtain ⟨_, _, _, -, t, ht, -, haff, -⟩ := cameraToWorld_spec Feign.Xf.one Xf.valid_one ⟨M4.Affine.one, M4.Affine.one⟩
    d.camera.origin d.camera.target d.camera.up hg.view
  have hset := good_setting hd hs hρ hE hg
  have hl : d'.lamps.length = d.lamps.length := by
    have := congrArg (fun x => x.lamps.length) hs.2; exact this
  refine ⟨a, d', bs, _, t, hfl, hdr, hs, hbs, hpl, ht, fun hray _ hq _ hL => ?_⟩
  have := Sdf.sdf_picture_limited hset hρ hρ1 hE hI hδ hbs hg.camera hg.focus haff hray hq d.bounces.toNat hL
  rw [hl] at this
  exact this

/-- **C135, with absorption.** If no colour reaches white, the same holds with the solution of the rendering equation in
place of the light of limited paths, less what the limit of bounces leaves out. -/
theorem file_picture_solves (hpath : d.view = "path") (hρ1 : ρ < 1) :
    ∃ a d' bs x t, Api.flush true mul one s os es mds = (.ok, a) ∧ drawn s a = some d' ∧ d'.Same d ∧
      (d'.things.map (·.1)).mapM Sdf.Shape.boundingBox = some bs ∧ d'.placed = some x ∧
      cameraToWorld x d.camera.origin d.camera.target d.camera.up = some t ∧
      ∀ {ray : ℝ × ℝ → ℝ × ℝ → Integrators.Ray}, d.camera.persp.Shows t (fun s => (s.1, s.2.1)) ray →
      ∀ {quot : ℝ → ℝ → ℝ}, IsQuot quot → ∀ {L : Integrators.Ray → Stream → V3 ℝ × Stream},
      (d'.room (Sdf.sceneBox bs)).world.Traces quot d.bounces.toNat L →
      ∀ᵐ ω ∂uniform, ∃ img : ℕ → Int → Int → Fin 3 → ℝ,
        (∀ spp, renderWith apiDefaultFilter d.camera.persp.width d.camera.persp.height spp ray L ω = .ok (img spp)) ∧
        ∀ (x y : ℕ) (k : Fin 3), x < d.camera.persp.width → y < d.camera.persp.height → ∃ p : ℝ,
          Tendsto (fun spp => img spp x y k) atTop (𝓝 p) ∧
          let T := (filtered apiDefaultFilter d.camera.persp.width d.camera.persp.height x y (d.camera.persp.throughLens t fun s =>
            (d'.room (Sdf.sceneBox bs)).world.light k true (s.1, s.2.1))).toReal
          p ≤ T ∧ T ≤ p + (ρ ^ d.bounces.toNat + 1 / 10000) * (Sdf.found d.lamps.length ρ E I δ / (1 - ρ)) := by
  obtain ⟨a, d', hfl, hdr, hs⟩ := file_drawn fl matrices h hw hd mul one hos hes hms
  obtain ⟨ho, -⟩ := (rendered_iff fl matrices ms).1 ⟨s, h⟩
  obtain ⟨_, _, _, cam, _, _, _, _, _, _, _, -, -, hcam, -, -, -⟩ := hd.settings
  have hpl : d'.placed = some Feign.Xf.one :=
    (congrArg Drawn.placed hs.2).trans (camera_entry fl matrices ho hcam)
  obtain ⟨bs, hbs⟩ := boxes_exist (ss := d'.things.map (·.1)) (by
    intro x hx
    obtain ⟨t, ht, rfl⟩ := List.mem_map.1 hx
    exact hg.shapes t (hs.1.mem_iff.1 ht))
  obtain ⟨_, _, _, -, t, ht, -, haff, -⟩ := cameraToWorld_spec Feign.Xf.one Xf.valid_one ⟨M4.Affine.one, M4.Affine.one⟩
    d.camera.origin d.camera.target d.camera.up hg.view
  have hset := good_setting hd hs hρ hE hg
  have hl : d'.lamps.length = d.lamps.length := by
    have := congrArg (fun x => x.lamps.length) hs.2; exact this
  refine ⟨a, d', bs, _, t, hfl, hdr, hs, hbs, hpl, ht, fun hray _ hq _ hL => ?_⟩
  have := Sdf.sdf_picture hset hρ hρ1 hE hI hδ hbs hg.camera hg.focus haff hray hq d.bounces.toNat hL
  rw [hl] at this
  exact this

end

end Feign.Parser
