import Verif.Parser.DrawnViews
import Verif.Sdf.WhittedPicture

/-!
# C137: scene files drawn with Whitted's integrator
-/

set_option linter.unusedSectionVars false
set_option linter.unusedSimpArgs false
set_option linter.unusedVariables false

namespace Feign.Parser

open Integrators Sampling MeasureTheory Camera Image
open _root_.Filter Topology
open scoped ENNReal
open Api (St)

variable {T : Type}

/-- The mirrors of the scene are black or reflect at least a ten-thousandth in some channel (glass is white). -/
def Drawn.Polished (d : Drawn T) : Prop :=
  ∀ t ∈ d.things, t.2.material = .mirror → t.2.albedo = 0 ∨ 1 / 10000 ≤ t.2.albedo.maxValue

theorem looks_cases (things : List (Sdf.Shape × Sdf.Look)) (i : ℕ) :
    looksOf things i = ⟨.diffuse, 0, 1, 1, fun _ => 0⟩ ∨ ∃ t ∈ things, looksOf things i = t.2 := by
  unfold looksOf
  cases hi : things[i]? with
  | none => exact Or.inl rfl
  | some t => exact Or.inr ⟨t, List.mem_of_getElem? hi, rfl⟩

theorem thing_coloured {l : List (Entry ℝ T)} {d : Drawn T} (hd : Shows l d) {t : Sdf.Shape × Sdf.Look} (ht : t ∈ d.things) :
    ∃ bp, Coloured bp t.2 := by
  obtain ⟨c, -, hm⟩ := forall₂_right hd.things t ht
  obtain ⟨-, -, -, -, -, -, bp, -, -, -, -, -, -, hb⟩ := hm
  exact ⟨bp, hb⟩

theorem looks_dark {l : List (Entry ℝ T)} {d d' : Drawn T} (hd : Shows l d) (hs : d'.Same d) (i : ℕ) (v : V3 ℝ) :
    (looksOf d'.things i).emitted v = 0 := by
  rcases looks_cases d'.things i with h | ⟨t, ht, h⟩
  · rw [h]
  · obtain ⟨bp, hb⟩ := thing_coloured hd (hs.1.mem_iff.1 ht)
    rw [h, look_dark (look_of hb)]

theorem looks_polished {l : List (Entry ℝ T)} {d d' : Drawn T} (hd : Shows l d) (hs : d'.Same d) (hp : d.Polished) :
    Sdf.Polished (looksOf d'.things) := by
  intro i hm
  rcases looks_cases d'.things i with h | ⟨t, ht, h⟩
  · rw [h] at hm; exact absurd rfl hm
  · have ht' := hs.1.mem_iff.1 ht
    rw [h] at hm ⊢
    obtain ⟨bp, hb⟩ := thing_coloured hd ht'
    have hpt := hp t ht'
    revert hm hpt
    generalize t.2 = look at hb
    cases hb with
    | diffuse => intro hm _; exact absurd rfl hm
    | mirror => intro _ hpt; exact hpt rfl
    | glass => intro _ _; right; norm_num [V3.maxValue]

/-- **C137 (what is seen).** What Whitted's integrator shows of the scene found behind the pointers, in terms of what was declared.
Along a ray on which tracing finds nothing it is the sum of the skies. A hit is near the solid of one of the declared things. A
diffuse one shows the shares of the lamps and nothing else, a mirror what is seen in the mirror direction, glass what is seen in
the mirror and in Snell's directions in the proportion of the reflectance. -/
theorem drawn_seen {l : List (Entry ℝ T)} {d d' : Drawn T} (hd : Shows l d) (hs : d'.Same d) {ρ E I δ : ℝ} (hρ : 0 ≤ ρ)
    (hE : 0 ≤ E) (hδ : 0 < δ) (hg : d.Good ρ E I δ) (box : Option (B3 ℝ)) (k : Fin 3) (r : Integrators.Ray) :
    let hit := Sdf.hitOf (Sdf.evals (d'.things.map (·.1))) box
    let L := (d'.room box).world.seenLight k
    (hit r = none → L r = ENNReal.ofReal ((d.skies.map fun c => c.get k).sum)) ∧
    ∀ a, hit r = some a → ∃ t ∈ d.things, (∃ q ∈ t.1.solid, Sdf.dist a.p q ≤ 2 * Sdf.eps) ∧
      (t.2.material = .diffuse → L r =
        ENNReal.ofReal ((d.lamps.map (lampShare (fun p v => ∃ b, hit (p, v) = some b) a.p a.normal r.2
          (t.2.albedo.get k) k)).sum)) ∧
      (t.2.material = .mirror → L r =
        open Classical in if 0 < (-r.2).dot a.normal then
          ENNReal.ofReal (t.2.albedo.get k) * L (a.p, mirrorImage a.normal r.2) else 0) ∧
      (t.2.material = .glass → r.2.sqrNorm = 1 → 0 < t.2.extIor → 0 < t.2.intIor →
        (0 < (-r.2).dot a.normal ∨ (-r.2).dot a.normal < -Sdf.eps) → ∀ p,
        Bsdf.fresnel ((-r.2).dot a.normal) t.2.extIor t.2.intIor = some p →
        0 ≤ p ∧ p ≤ 1 ∧ ∃ v : V3 ℝ,
          (p < 1 → Bsdf.Refracts t.2.extIor t.2.intIor ((Sdf.frameOf a.normal).toLocal (-r.2))
            ((Sdf.frameOf a.normal).toLocal v)) ∧
          L r = ENNReal.ofReal (t.2.albedo.get k) *
            (ENNReal.ofReal p * L (a.p, mirrorImage a.normal r.2) + ENNReal.ofReal (1 - p) * L (a.p, v))) := by
  intro hit L
  have hset := good_setting hd hs hρ hE hg
  have hl : d'.lamps = d.lamps := by have := congrArg Drawn.lamps hs.2; exact this
  have hk : d'.skies = d.skies := by have := congrArg Drawn.skies hs.2; exact this
  obtain ⟨g0, g⟩ := Sdf.sdf_seen hset hδ box k r
  constructor
  · intro hn
    refine (g0 hn).trans ?_
    rw [hk, foldl_get, get_zero, zero_add]
  · intro a ha
    obtain ⟨s, hsi, hq⟩ := Sdf.hit_near hset.shapes ha
    obtain ⟨t, ht, rfl⟩ : ∃ t, d'.things[a.shape]? = some t ∧ t.1 = s := by
      rw [List.getElem?_map] at hsi
      exact Option.map_eq_some_iff.1 hsi
    have hlk : looksOf d'.things a.shape = t.2 := by unfold looksOf; rw [ht]; rfl
    have htd : t ∈ d.things := hs.1.mem_iff.1 (List.mem_of_getElem? ht)
    have hz : ENNReal.ofReal (((looksOf d'.things a.shape).emitted ((Sdf.frameOf a.normal).toLocal r.2)).get k) = 0 := by
      rw [looks_dark hd hs, get_zero, ENNReal.ofReal_zero]
    obtain ⟨g1, g2, g3⟩ := g a ha
    rw [hz] at g1 g2 g3
    simp only [zero_add] at g1 g2 g3
    rw [hlk] at g1 g2 g3
    refine ⟨t, htd, hq, fun hm => ?_, fun hm => (g2 hm).trans rfl, fun hm h1 h2 h3 h4 p hp => g3 hm h1 h2 h3 h4 p hp⟩
    refine (g1 hm).trans ?_
    rw [← hl]
    refine congrArg (fun l => ENNReal.ofReal l.sum) (List.map_congr_left fun x hx => lampAt_share ?_ ?_ ?_)
    · show ((hit r).map (·.p)).getD r.1 = _
      rw [ha]; rfl
    · show (((hit r).map fun h => Sdf.frameOf h.normal).getD _).n = _
      rw [ha]; exact (Sdf.frameOf_parts _).2.2
    · show ((hit r).map fun h => (looksOf d'.things h.shape).albedo).getD 0 = _
      rw [ha, ← hlk]; rfl

section
variable (fl : Rat → ℝ) {ms : List (String × Js)} {s : St (Call ℝ) (Option (Feign.Xf ℝ))}
  (h : runFile fl matrices (.obj ms) = some (.rendered s)) (hw : Whole ((entries fl matrices ms).map (·.2)))
  {d : Drawn (Option (Feign.Xf ℝ))} (hd : Shows (entries fl matrices ms) d)
  {ρ E I δ : ℝ} (hg : d.Good ρ E I δ) (hρ : 0 ≤ ρ) (hρ1 : ρ ≤ 1) (hE : 0 ≤ E) (hI : 0 ≤ I) (hδ : 0 < δ)
  (mul : Option (Feign.Xf ℝ) → Option (Feign.Xf ℝ) → Option (Feign.Xf ℝ)) (one : Option (Feign.Xf ℝ))
  {os es mds : List Nat} (hos : Api.IsOrder s .object os) (hes : Api.IsOrder s .emitter es)
  (hms : Api.IsOrder s .media mds)
include h hw hd hg hρ hρ1 hE hI hδ hos hes hms

/-- **C137, from the file to Whitted's picture.** The file was carried out, nothing in it is missing, its declarations show the scene
`d`, which keeps to the rules, has polished mirrors and names the integrator `whitted`. Then the renderer finds that scene behind its
pointers, in some order `d'` of its things, and each pixel tends, with probability one, to what is seen (`drawn_seen`), averaged over
the lens and the filter. Missing: mirrors with all channels below a ten-thousandth but not black, which the integrator takes for
black (C104). -/
theorem file_whitted_partial (hview : d.view = "whitted") (hp : d.Polished) :
    ∃ a d' bs x t, Api.flush true mul one s os es mds = (.ok, a) ∧ drawn s a = some d' ∧ d'.Same d ∧ d'.view = "whitted" ∧
      (d'.things.map (·.1)).mapM Sdf.Shape.boundingBox = some bs ∧ d'.placed = some x ∧
      cameraToWorld x d.camera.origin d.camera.target d.camera.up = some t ∧
      ∀ {ray : ℝ × ℝ → ℝ × ℝ → Integrators.Ray}, d.camera.persp.Shows t (fun s => (s.1, s.2.1)) ray →
      ∀ {L : Integrators.Ray → Stream → V3 ℝ × Stream}, (d'.room (Sdf.sceneBox bs)).world.TracesWhitted L →
      (Measurable fun p : Integrators.Ray × Stream => L p.1 p.2) → (∀ r ω, NonNeg (L r ω).1) →
        Sdf.TendsTo d.camera.persp t ray L fun k => (d'.room (Sdf.sceneBox bs)).world.seenLight k := by
  obtain ⟨a, d', bs, x, t, h1, h2, h3, h4, h5, h6, haff, h7, -⟩ := file_found fl h hw hd hg.viewable mul one hos hes hms
  refine ⟨a, d', bs, x, t, h1, h2, h3, h7.trans hview, h4, h5, h6, fun hray _ hL hm hnn => ?_⟩
  exact Sdf.sdf_whitted_partial (good_setting hd h3 hρ hE hg) hρ hρ1 hE hI hδ (looks_dark hd h3) (looks_polished hd h3 hp) _ hg.camera
    hg.focus haff hray hL hm hnn

end

/-- The file with the glass ball and the floor, drawn with Whitted's integrator, meets the hypotheses, and there is a program that
draws it. -/
example : ∃ s d, runFile real matrices (.obj (roomFile "whitted" moved)) = some (.rendered s) ∧
    Whole ((entries real matrices (roomFile "whitted" moved)).map (·.2)) ∧
    Shows (entries real matrices (roomFile "whitted" moved)) d ∧ d.view = "whitted" ∧ d.Good 1 1 9 1 ∧ d.Polished ∧
    (∃ t ∈ d.things, t.2.material = .glass) ∧
    (∃ os es mds, Api.IsOrder s .object os ∧ Api.IsOrder s .emitter es ∧ Api.IsOrder s .media mds) ∧
    ∀ box, ∃ L, (d.room box).world.TracesWhitted L ∧ (Measurable fun p : Integrators.Ray × Stream => L p.1 p.2) ∧
      ∀ r ω, NonNeg (L r ω).1 := by
  have hv : "whitted" ∈ roomViews := by simp [roomViews]
  obtain ⟨s, hs⟩ := room_runs real matrices hv
  have ho := order_exists (s := s) (by
    obtain ⟨-, hx⟩ := (rendered_cases real matrices _ s).1 hs
    obtain ⟨o, hr⟩ := exec_run matrices _ hx
    exact (Api.run_keeps true _ (Api.init_inv _) hr).1)
  obtain ⟨os, h1⟩ := ho .object
  obtain ⟨es, h2⟩ := ho .emitter
  obtain ⟨mds, h3⟩ := ho .media
  have hsh : Shows (entries real matrices (roomFile "whitted" moved)) (roomDrawn "whitted" matrices.one) := by
    rw [room_entries _ _ hv]; exact room_shows _ _ _
  refine ⟨s, roomDrawn "whitted" matrices.one, hs, by rw [room_entries _ _ hv]; exact room_whole _ _ _ _, hsh, rfl, room_good _ _, ?_,
    ⟨_, List.mem_cons_self, rfl⟩, ⟨os, es, mds, h1, h2, h3⟩, fun box => ?_⟩
  · intro t ht hm
    simp only [roomDrawn, List.mem_cons, List.not_mem_nil, or_false] at ht
    rcases ht with rfl | rfl <;> exact absurd hm (by simp)
  · exact whitted_traces _ (room_lawful _ (Sdf.litRoom_lawful (good_setting hsh ⟨List.Perm.refl _, rfl⟩ zero_le_one zero_le_one
      (room_good _ _)) box).2)

/-- `drawn_seen` for the file. -/
example {T : Type} (v : String) (m : Xf ℝ T) (box : Option (B3 ℝ)) :=
  drawn_seen (room_shows m v m.one) (⟨List.Perm.refl _, rfl⟩ : (roomDrawn v m.one).Same (roomDrawn v m.one)) zero_le_one zero_le_one one_pos
    (room_good v m.one) box

end Feign.Parser
