import Verif.Sdf.Clear

/-!
# C142: the order of the shapes does not matter
-/

set_option linter.unusedSectionVars false
set_option linter.unusedVariables false
set_option linter.unusedSimpArgs false

namespace Feign.Sdf

open Integrators

/-! ## Specification -/

/-- Shapes with their looks, told apart: where two of them are at the same depth, and close enough for a hit to be reported, they look
alike. -/
def Told (ts : List (Shape × Look)) : Prop :=
  ∀ a ∈ ts, ∀ b ∈ ts, ∀ q v, a.1.eval q = some v → b.1.eval q = some v → v ≤ eps → a.2 = b.2

/-- The look of the shape with number `i`: the shapes and their materials are gone through together, `src/accel/ray_sdf.cpp:85-110` and
`:168`. A number without a shape does not occur. -/
def lookAt (ts : List (Shape × Look)) (i : ℕ) : Look := ((ts[i]?).map (·.2)).getD ⟨.diffuse, 0, 1, 1, fun _ => 0⟩

/-- The distance functions. -/
noncomputable def fieldsOf (ts : List (Shape × Look)) : List (V3 ℝ → Option ℝ) := evals (ts.map (·.1))

/-! ## Distances -/

variable {fs fs' : List (V3 ℝ → Option ℝ)}

/-- The least value over the shapes. -/
noncomputable def depth (fs : List (V3 ℝ → Option ℝ)) (q : V3 ℝ) : Option ℝ := (sdEvaluate fs q).map (·.1)

theorem depth_spec (fs : List (V3 ℝ → Option ℝ)) (q : V3 ℝ) (v : ℝ) :
    depth fs q = some v ↔ (∃ f ∈ fs, f q = some v) ∧ ∀ f ∈ fs, ∀ w, f q = some w → v ≤ w := by
  have hm := sdEvaluate_firstMin fs q
  unfold depth
  cases hs : sdEvaluate fs q with
  | none =>
    rw [hs] at hm
    simp only [Option.map_none]
    refine iff_of_false (by simp) ?_
    rintro ⟨⟨f, hf, hv⟩, -⟩
    obtain ⟨i, hi⟩ := List.mem_iff_getElem?.mp hf
    rw [hm i f hi] at hv
    cases hv
  | some b =>
    rw [hs] at hm
    obtain ⟨⟨g, hg, hgm⟩, hmin, -⟩ := hm
    have hmin' : ∀ f ∈ fs, ∀ w, f q = some w → b.1 ≤ w := by
      intro f hf w hw
      obtain ⟨i, hi⟩ := List.mem_iff_getElem?.mp hf
      exact hmin i f w hi hw
    simp only [Option.map_some, Option.some.injEq]
    constructor
    · rintro rfl
      exact ⟨⟨g, List.mem_of_getElem? hg, hgm⟩, hmin'⟩
    · rintro ⟨⟨f, hf, hv⟩, hl⟩
      exact le_antisymm (hmin' f hf v hv) (hl g (List.mem_of_getElem? hg) _ hgm)

/-- The least value does not depend on the order. -/
theorem depth_perm (h : fs.Perm fs') : depth fs = depth fs' := by
  funext q
  apply Option.ext
  intro v
  rw [depth_spec, depth_spec]
  simp only [h.mem_iff]

theorem sdDiff_depth (h : depth fs = depth fs') (p e : V3 ℝ) : sdDiff fs p e = sdDiff fs' p e := by
  have d1 := congrFun h (p + e)
  have d2 := congrFun h (p - e)
  unfold depth at d1 d2
  unfold sdDiff
  cases h1 : sdEvaluate fs (p + e) <;> cases h2 : sdEvaluate fs (p - e) <;> cases h3 : sdEvaluate fs' (p + e) <;>
    cases h4 : sdEvaluate fs' (p - e) <;> simp_all

theorem sdNormal_depth (h : depth fs = depth fs') (p : V3 ℝ) : sdNormal fs p = sdNormal fs' p := by
  unfold sdNormal
  simp only [sdDiff_depth h]

/-! ## Hits -/

/-- Everything about the end of a march but the number of the shape. -/
def forget : Res March → Res March
  | .ok (.hit h) => .ok (.hit { h with shape := 0 })
  | x => x

theorem march_perm (h : depth fs = depth fs') (r : Feign.Ray ℝ) (far : Ext ℝ) (n : ℕ) (d : ℝ) :
    forget (march fs r far n d) = forget (march fs' r far n d) := by
  induction n generalizing d with
  | zero => rfl
  | succ n ih =>
    unfold march
    by_cases hd : Ext.fin d ≤ far
    · rw [if_pos hd, if_pos hd]
      have d1 := congrFun h (r.point d)
      unfold depth at d1
      dsimp only
      cases h1 : sdEvaluate fs (r.point d) with
      | none =>
        cases h2 : sdEvaluate fs' (r.point d) with
        | none => rfl
        | some b => rw [h1, h2] at d1; simp at d1
      | some b =>
        cases h2 : sdEvaluate fs' (r.point d) with
        | none => rw [h1, h2] at d1; simp at d1
        | some b' =>
          rw [h1, h2] at d1
          obtain ⟨v, i⟩ := b
          obtain ⟨v', i'⟩ := b'
          obtain rfl : v = v' := by simpa using d1
          dsimp only
          by_cases hv : v ≤ eps
          · rw [if_pos hv, if_pos hv, sdNormal_depth h]
            cases sdNormal fs' (r.point d) with
            | none => rfl
            | some nn =>
              dsimp only
              split_ifs
              · rfl
              · rfl
          · rw [if_neg hv, if_neg hv]
            exact ih _
    · rw [if_neg hd, if_neg hd]

theorem intersect_perm (h : depth fs = depth fs') (box : Option (B3 ℝ)) (r : Feign.Ray ℝ) :
    forget (intersect fs box r) = forget (intersect fs' box r) := by
  unfold intersect
  cases box with
  | none => exact march_perm h _ _ _ _
  | some b => exact march_perm h _ _ _ _

/-- The same rays hit, at the same points, with the same normals. -/
theorem hit_perm (h : fs.Perm fs') (box : Option (B3 ℝ)) (r : Integrators.Ray) :
    (hitOf fs box r).map (fun a => (a.t, a.normal, a.p)) = (hitOf fs' box r).map (fun a => (a.t, a.normal, a.p)) := by
  have := intersect_perm (depth_perm h) box ⟨r.1, r.2, Ext.fin eps, ⊤⟩
  unfold hitOf
  cases h1 : intersect fs box ⟨r.1, r.2, Ext.fin eps, ⊤⟩ with
  | throw e =>
    cases h2 : intersect fs' box ⟨r.1, r.2, Ext.fin eps, ⊤⟩ with
    | throw e' => rfl
    | ub e' => rfl
    | ok m' => rw [h1, h2] at this; cases m' <;> simp_all [forget]
  | ub e =>
    cases h2 : intersect fs' box ⟨r.1, r.2, Ext.fin eps, ⊤⟩ with
    | throw e' => rfl
    | ub e' => rfl
    | ok m' => rw [h1, h2] at this; cases m' <;> simp_all [forget]
  | ok m =>
    cases h2 : intersect fs' box ⟨r.1, r.2, Ext.fin eps, ⊤⟩ with
    | throw e' => rw [h1, h2] at this; cases m <;> simp_all [forget]
    | ub e' => rw [h1, h2] at this; cases m <;> simp_all [forget]
    | ok m' => rw [h1, h2] at this; cases m <;> cases m' <;> simp_all [forget]

/-- A hit tells which thing was hit. -/
theorem hit_thing {ts : List (Shape × Look)} {box : Option (B3 ℝ)} {r : Integrators.Ray} {a : Hit}
    (ha : hitOf (fieldsOf ts) box r = some a) : ∃ th ∈ ts, lookAt ts a.shape = th.2 ∧
      ∃ v, v ≤ eps ∧ depth (fieldsOf ts) (a.p - a.normal.smul eps) = some v ∧ th.1.eval (a.p - a.normal.smul eps) = some v := by
  obtain ⟨-, q, sd, he, hsd, hp⟩ := hitOf_found ha
  have hq : a.p - a.normal.smul eps = q := by rw [hp]; ext <;> simp
  obtain ⟨s, hs, hev⟩ := sdEvaluate_shape he
  rw [List.getElem?_map] at hs
  obtain ⟨th, ht, rfl⟩ := Option.map_eq_some_iff.1 hs
  refine ⟨th, List.mem_of_getElem? ht, by simp [lookAt, ht], sd, hsd, ?_, by rw [hq]; exact hev⟩
  rw [hq]
  unfold depth
  rw [he]
  rfl

/-- The same looks. -/
theorem look_perm {ts ts' : List (Shape × Look)} (h : ts.Perm ts') (ht : Told ts) (box : Option (B3 ℝ)) (r : Integrators.Ray) :
    (hitOf (fieldsOf ts) box r).map (fun a => (a.normal, a.p, lookAt ts a.shape)) =
      (hitOf (fieldsOf ts') box r).map (fun a => (a.normal, a.p, lookAt ts' a.shape)) := by
  have hf : (fieldsOf ts).Perm (fieldsOf ts') := (h.map _).map _
  have hh := hit_perm hf box r
  cases h1 : hitOf (fieldsOf ts) box r with
  | none =>
    cases h2 : hitOf (fieldsOf ts') box r with
    | none => rfl
    | some b => rw [h1, h2] at hh; simp at hh
  | some a =>
    cases h2 : hitOf (fieldsOf ts') box r with
    | none => rw [h1, h2] at hh; simp at hh
    | some b =>
      rw [h1, h2] at hh
      simp only [Option.map_some, Option.some.injEq, Prod.mk.injEq] at hh
      obtain ⟨-, hn, hp⟩ := hh
      obtain ⟨ta, hta, hla, v, hv, hdv, hev⟩ := hit_thing h1
      obtain ⟨tb, htb, hlb, w, hw, hdw, hew⟩ := hit_thing h2
      rw [← hp, ← hn] at hdw hew
      rw [← depth_perm hf, hdv] at hdw
      obtain rfl := Option.some.inj hdw
      simp only [Option.map_some, Option.some.injEq, Prod.mk.injEq]
      exact ⟨hn, hp, by rw [hla, hlb]; exact ht ta hta tb (h.mem_iff.2 htb) _ _ hev hew hv⟩

/-! ## Boxes -/

theorem minV_min (a b : V3 ℝ) : a.minV b = ⟨min a.x b.x, min a.y b.y, min a.z b.z⟩ := by
  have : ∀ s t : ℝ, (if s < t then s else t) = min s t := by
    intro s t; split_ifs with h
    · exact (min_eq_left h.le).symm
    · exact (min_eq_right (not_lt.1 h)).symm
  simp only [V3.minV, this]

theorem maxV_max (a b : V3 ℝ) : a.maxV b = ⟨max a.x b.x, max a.y b.y, max a.z b.z⟩ := by
  have : ∀ s t : ℝ, (if s > t then s else t) = max s t := by
    intro s t; split_ifs with h
    · exact (max_eq_left (le_of_lt h)).symm
    · exact (max_eq_right (not_lt.1 h)).symm
  simp only [V3.maxV, this]

theorem expandBox_comm (a b : B3 ℝ) : a.expandBox b = b.expandBox a := by
  simp only [B3.expandBox, minV_min, maxV_max, min_comm, max_comm]

theorem expandBox_assoc (a b c : B3 ℝ) : (a.expandBox b).expandBox c = a.expandBox (b.expandBox c) := by
  simp only [B3.expandBox, minV_min, maxV_max, min_assoc, max_assoc]

theorem foldl_expand (a b : B3 ℝ) (bs : List (B3 ℝ)) :
    bs.foldl B3.expandBox (a.expandBox b) = a.expandBox (bs.foldl B3.expandBox b) := by
  induction bs generalizing b with
  | nil => rfl
  | cons c cs ih => simp only [List.foldl_cons, expandBox_assoc, ih]

theorem sceneBox_cons (b : B3 ℝ) (bs : List (B3 ℝ)) :
    sceneBox (b :: bs) = some (match sceneBox bs with | none => b | some c => b.expandBox c) := by
  cases bs with
  | nil => rfl
  | cons c cs =>
    show some ((c :: cs).foldl B3.expandBox b) = some (b.expandBox (cs.foldl B3.expandBox c))
    rw [List.foldl_cons, foldl_expand]

/-- The box around everything does not depend on the order. -/
theorem sceneBox_perm {bs bs' : List (B3 ℝ)} (h : bs.Perm bs') : sceneBox bs = sceneBox bs' := by
  induction h with
  | nil => rfl
  | cons x _ ih => rw [sceneBox_cons, sceneBox_cons, ih]
  | swap x y l =>
    rw [sceneBox_cons, sceneBox_cons, sceneBox_cons, sceneBox_cons]
    cases sceneBox l with
    | none => simp only [expandBox_comm]
    | some c =>
      simp only [Option.some.injEq]
      rw [← expandBox_assoc, expandBox_comm y x, expandBox_assoc]
  | trans _ _ ih1 ih2 => exact ih1.trans ih2

theorem mapM_some {α β : Type} (f : α → Option β) (l : List α) (bs : List β) : l.mapM f = some bs ↔ l.map f = bs.map some := by
  induction l generalizing bs with
  | nil => cases bs <;> simp
  | cons a l ih =>
    rw [List.mapM_cons]
    cases bs with
    | nil =>
      cases f a <;> simp
      cases l.mapM f <;> simp
    | cons b bs =>
      simp only [List.map_cons, List.cons.injEq, ← ih]
      cases f a <;> simp
      cases l.mapM f <;> simp

theorem boxes_perm {ss ss' : List Shape} (h : ss.Perm ss') {bs bs' : List (B3 ℝ)} (hb : ss.mapM Shape.boundingBox = some bs)
    (hb' : ss'.mapM Shape.boundingBox = some bs') : sceneBox bs = sceneBox bs' := by
  rw [mapM_some] at hb hb'
  have h1 : (bs.map some).Perm (bs'.map some) := by rw [← hb, ← hb']; exact h.map _
  have h2 := h1.filterMap id
  simp only [List.filterMap_map, Function.comp_def, id, List.filterMap_some] at h2
  exact sceneBox_perm h2

/-! ## Scenes -/

/-- **C142, scenes of distance functions** (missing: shapes that are not told apart, see `order_refuted`)**.** The order of the shapes makes no difference to what the integrators are told: hits, points,
normals, materials, colours and light samples are the same for every ray and all random numbers. -/
theorem order_free_partial {ts ts' : List (Shape × Look)} (h : ts.Perm ts') (ht : Told ts) {bs bs' : List (B3 ℝ)}
    (hb : (ts.map (·.1)).mapM Shape.boundingBox = some bs) (hb' : (ts'.map (·.1)).mapM Shape.boundingBox = some bs')
    (env : V3 ℝ → V3 ℝ) (lamps : List Lamp) :
    litRoom (fieldsOf ts) (sceneBox bs) (lookAt ts) env lamps = litRoom (fieldsOf ts') (sceneBox bs') (lookAt ts') env lamps := by
  have hbox : sceneBox bs = sceneBox bs' := boxes_perm (h.map _) hb hb'
  rw [← hbox]
  have key := look_perm h ht (sceneBox bs)
  have g : ∀ {α : Type} (F : V3 ℝ × V3 ℝ × Look → α) (r : Integrators.Ray),
      (hitOf (fieldsOf ts) (sceneBox bs) r).map (fun a => F (a.normal, a.p, lookAt ts a.shape)) =
        (hitOf (fieldsOf ts') (sceneBox bs) r).map (fun a => F (a.normal, a.p, lookAt ts' a.shape)) := by
    intro α F r
    have := congrArg (Option.map F) (key r)
    simpa only [Option.map_map, Function.comp_def] using this
  have gs : ∀ r, (hitOf (fieldsOf ts) (sceneBox bs) r).isSome = (hitOf (fieldsOf ts') (sceneBox bs) r).isSome := by
    intro r
    have := congrArg Option.isSome (key r)
    simpa only [Option.isSome_map] using this
  have hroom : room (fieldsOf ts) (sceneBox bs) (lookAt ts) env = room (fieldsOf ts') (sceneBox bs) (lookAt ts') env := by
    simp only [room, Room.mk.injEq, true_and, and_true]
    refine ⟨funext gs, ?_, ?_, ?_, ?_, ?_, ?_, ?_⟩
    · funext r; exact congrArg (fun o => Option.getD o r.1) (g (fun x => x.2.1) r)
    · funext r; exact congrArg (fun o => Option.getD o _) (g (fun x => frameOf x.1) r)
    · funext r; exact congrArg (fun o => Option.getD o _) (g (fun x => x.2.2.material) r)
    · funext r; exact congrArg (fun o => Option.getD o _) (g (fun x => x.2.2.albedo) r)
    · funext r; exact congrArg (fun o => Option.getD o _) (g (fun x => x.2.2.intIor) r)
    · funext r; exact congrArg (fun o => Option.getD o _) (g (fun x => x.2.2.extIor) r)
    · funext r; exact congrArg (fun o => Option.getD o _) (g (fun x => x.2.2.emitted ((frameOf x.1).toLocal r.2)) r)
  have hbl : blockedBy (fieldsOf ts) (sceneBox bs) = blockedBy (fieldsOf ts') (sceneBox bs) := by
    funext p d t
    exact gs (p, d)
  unfold litRoom
  rw [hroom, hbl]

/-- Solids that look different and are more than two tolerances apart are told apart. -/
theorem told_apart {ts : List (Shape × Look)} (hw : ∀ t ∈ ts, t.1.WellFormed)
    (hs : ∀ a ∈ ts, ∀ b ∈ ts, a.2 ≠ b.2 → ∀ p ∈ a.1.solid, ∀ q ∈ b.1.solid, 2 * eps < dist p q) : Told ts := by
  intro a ha b hb q v hva hvb hv
  by_contra hne
  have near : ∀ t ∈ ts, t.1.eval q = some v → ∃ p ∈ t.1.solid, dist q p ≤ eps := by
    intro t ht he
    obtain ⟨g, hg, hd⟩ := primitives_exact t.1 (hw t ht)
    rw [hg] at he
    obtain rfl := Option.some.inj he
    by_cases h0 : 0 < g q
    · obtain ⟨q', hq', e⟩ := hd.outside_attained _ h0
      exact ⟨q', hq', by linarith⟩
    · refine ⟨q, (hd.inside_iff _).mp (not_lt.mp h0), ?_⟩
      have : dist q q = 0 := by
        unfold dist
        rw [V3.norm_eq]
        simp [V3.sqrNorm]
      rw [this]
      exact eps_pos.le
  obtain ⟨p1, h1, d1⟩ := near a ha hva
  obtain ⟨p2, h2, d2⟩ := near b hb hvb
  have h3 := hs a ha b hb hne p1 h1 p2 h2
  have h4 := dist_triangle p1 q p2
  have h5 : dist p1 q = dist q p1 := by
    unfold dist
    rw [V3.norm_eq, V3.norm_eq]
    congr 1
    simp only [V3.sqrNorm, V3.sub_x, V3.sub_y, V3.sub_z]
    ring
  linarith

/-! ## Shapes in the same place -/

theorem march_congr (h : sdEvaluate fs = sdEvaluate fs') (r : Feign.Ray ℝ) (far : Ext ℝ) (n : ℕ) (d : ℝ) :
    march fs r far n d = march fs' r far n d := by
  have hn : sdNormal fs = sdNormal fs' := by
    funext p
    exact sdNormal_depth (by funext q; unfold depth; rw [h]) p
  induction n generalizing d with
  | zero => rfl
  | succ n ih => unfold march; simp only [h, hn, ih]

theorem twice_evaluate (f : V3 ℝ → Option ℝ) : sdEvaluate [f, f] = sdEvaluate [f] := by
  funext q
  simp only [sdEvaluate, sdEvaluateFrom]
  cases f q <;> simp [better]

/-- Two balls in the same place, the first red and the second green, or the other way round. -/
noncomputable def twins (a b : V3 ℝ) : List (Shape × Look) :=
  [(.sphere ⟨0, 0, 2⟩ 1, ⟨.diffuse, a, 1, 1, fun _ => 0⟩), (.sphere ⟨0, 0, 2⟩ 1, ⟨.diffuse, b, 1, 1, fun _ => 0⟩)]

theorem twins_first (a b : V3 ℝ) : hitOf (fieldsOf (twins a b)) ballBox (0, ⟨0, 0, 1⟩) = some ⟨1, 0, ⟨0, 0, -1⟩, ⟨0, 0, 1 - eps⟩⟩ := by
  rw [← ball_first]
  have h : sdEvaluate (fieldsOf (twins a b)) = sdEvaluate ballScene := twice_evaluate _
  unfold hitOf intersect
  simp only [march_congr h]

/-- **C142 refuted for shapes that are not told apart.** Of two balls of the same size in the same place the first one is seen: exchanging
them changes the colour. -/
theorem order_refuted (a b : V3 ℝ) (hab : a ≠ b) (env : V3 ℝ → V3 ℝ) (lamps : List Lamp) :
    (twins a b).Perm (twins b a) ∧ (∃ bs, ((twins a b).map (·.1)).mapM Shape.boundingBox = some bs ∧ sceneBox bs = ballBox) ∧
      litRoom (fieldsOf (twins a b)) ballBox (lookAt (twins a b)) env lamps ≠
        litRoom (fieldsOf (twins b a)) ballBox (lookAt (twins b a)) env lamps := by
  refine ⟨List.Perm.swap _ _ _, ⟨[⟨⟨-1, -1, 1⟩, ⟨1, 1, 3⟩⟩, ⟨⟨-1, -1, 1⟩, ⟨1, 1, 3⟩⟩], ?_, ?_⟩, fun h => hab ?_⟩
  · rw [mapM_some]
    have : Shape.boundingBox (.sphere ⟨0, 0, 2⟩ 1) = some ⟨⟨-1, -1, 1⟩, ⟨1, 1, 3⟩⟩ := by
      simp [Shape.boundingBox]
      constructor <;> first | (ext <;> norm_num) | norm_num
    simp [twins, this]
  · show some (B3.expandBox _ _) = some _
    simp [B3.expandBox, V3.minV, V3.maxV]
  · have := congrFun (congrArg Room.albedo h) (0, ⟨0, 0, 1⟩)
    have e : ∀ a b, (litRoom (fieldsOf (twins a b)) ballBox (lookAt (twins a b)) env lamps).albedo (0, ⟨0, 0, 1⟩) = a := by
      intro a b
      show ((hitOf (fieldsOf (twins a b)) ballBox (0, ⟨0, 0, 1⟩)).map fun h => (lookAt (twins a b) h.shape).albedo).getD 0 = a
      rw [twins_first]
      rfl
    rwa [e, e] at this

/-- Red and green. -/
example : (⟨1, 0, 0⟩ : V3 ℝ) ≠ ⟨0, 1, 0⟩ := by intro h; have := congrArg V3.x h; norm_num at this

/-- A glass ball above a floor. -/
noncomputable def hovering : List (Shape × Look) :=
  [(.sphere 0 1, ⟨.glass, ⟨1, 1, 1⟩, 3 / 2, 1, fun _ => 0⟩),
    (.plane ⟨0, -3, 0⟩ ⟨0, 1, 0⟩, ⟨.diffuse, ⟨4 / 5, 4 / 5, 4 / 5⟩, 1, 1, fun _ => 0⟩)]

theorem hovering_wellFormed : ∀ t ∈ hovering, t.1.WellFormed := by
  simp only [hovering, List.forall_mem_cons]
  refine ⟨?_, ?_, by simp⟩
  · show (0 : ℝ) ≤ 1
    norm_num
  · show V3.sqrNorm _ = 1
    simp [V3.sqrNorm]

/-- Its two things are told apart. -/
theorem hovering_told : Told hovering := by
  have he : eps = 1 / 1000 := rfl
  have ball : ∀ p ∈ (Shape.sphere 0 1).solid, -1 ≤ p.y := by
    intro p hp
    have h1 : (p - 0).norm ≤ 1 := hp
    have h2 := norm_ge_y (p - 0)
    have h3 := neg_abs_le (p - 0).y
    have h4 : (p - 0).y = p.y - 0 := rfl
    linarith
  have floor : ∀ p ∈ (Shape.plane ⟨0, -3, 0⟩ ⟨0, 1, 0⟩).solid, p.y ≤ -3 := by
    intro p hp
    simp [Shape.solid, planeSet, V3.dot] at hp
    linarith
  refine told_apart hovering_wellFormed ?_
  simp only [hovering, List.forall_mem_cons]
  refine ⟨⟨fun h => absurd rfl h, fun _ p hp q hq => ?_, by simp⟩, ⟨fun _ p hp q hq => ?_, fun h => absurd rfl h, by simp⟩, by simp⟩
  · have h1 := ball p hp
    have h2 := floor q hq
    have h3 := norm_ge_y (p - q)
    have h4 := le_abs_self (p - q).y
    have h5 : (p - q).y = p.y - q.y := rfl
    unfold dist
    rw [he]
    linarith
  · have h1 := ball q hq
    have h2 := floor p hp
    have h3 := norm_ge_y (p - q)
    have h4 := neg_abs_le (p - q).y
    have h5 : (p - q).y = p.y - q.y := rfl
    unfold dist
    rw [he]
    linarith

end Feign.Sdf
