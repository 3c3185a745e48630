import Verif.Image.Shoot
import Verif.Image.ShootSpec
import Verif.Image.SplatProps
import Verif.Sampling.Repeat
import Verif.Integrators.WalkLemmas

/-! # Rendering with one stream of random numbers: lemmas -/

set_option linter.unusedSectionVars false
set_option linter.unusedSimpArgs false
set_option linter.unusedVariables false

namespace Feign.Image

open Sampling MeasureTheory Warp Integrators
open scoped ENNReal

variable {R : Type} (ray : ℝ × ℝ → ℝ × ℝ → R) (Li : R → Stream → V3 ℝ × Stream)

/-! ## The loops as a list of samples -/

/-- Rows and columns in the order of the loops. -/
def scan (w h : ℕ) : List (ℕ × ℕ) := (List.range h).flatMap fun i => (List.range w).map fun j => (i, j)

/-- The stream after the samples of a list of pixels. -/
def after (l : List (ℕ × ℕ)) (ω : Stream) : Stream := l.foldl (fun ω p => (shoot ray Li p.1 p.2 ω).2) ω

theorem after_append (l m : List (ℕ × ℕ)) (ω : Stream) : after ray Li (l ++ m) ω = after ray Li m (after ray Li l ω) :=
  List.foldl_append

/-- What comes before a pixel. -/
def before (w h : ℕ) (p : ℕ × ℕ) : List (ℕ × ℕ) := (scan w h).takeWhile (fun q => decide (q ≠ p))

/-- The sample `k` of a pixel. -/
def obsAt (w h : ℕ) (ω : Stream) (k i j : ℕ) : Obs ℝ :=
  toObs (shoot ray Li i j (after ray Li (before w h (i, j)) ((after ray Li (scan w h))^[k] ω))).1

theorem scan_nodup (w h : ℕ) : (scan w h).Nodup := by
  unfold scan
  rw [List.nodup_flatMap]
  refine ⟨fun i _ => (List.nodup_range).map fun a b h => by simpa using h, ?_⟩
  refine List.nodup_range.pairwise_of_forall_ne fun a _ b _ hab => ?_
  rw [Function.onFun, List.disjoint_left]
  intro q h1 h2
  simp only [List.mem_map] at h1 h2
  obtain ⟨_, _, rfl⟩ := h1
  obtain ⟨_, _, h2⟩ := h2
  exact hab (by simpa using (congrArg Prod.fst h2).symm)

theorem mem_scan {w h : ℕ} {p : ℕ × ℕ} : p ∈ scan w h ↔ p.1 < h ∧ p.2 < w := by
  unfold scan
  simp only [List.mem_flatMap, List.mem_range, List.mem_map]
  constructor
  · rintro ⟨a, ha, b, hb, rfl⟩; exact ⟨ha, hb⟩
  · rintro ⟨ha, hb⟩; exact ⟨p.1, ha, p.2, hb, rfl⟩

theorem takeWhile_split {α : Type} [DecidableEq α] {l m n : List α} {p : α} (hl : l = m ++ p :: n) (hd : l.Nodup) :
    l.takeWhile (fun q => decide (q ≠ p)) = m := by
  subst hl
  rw [List.takeWhile_append_of_pos]
  · simp
  · intro a ha
    simp only [decide_eq_true_eq]
    rintro rfl
    exact (List.disjoint_of_nodup_append hd) ha (by simp)

/-- One pass over part of the pixels. -/
theorem pass_eq (flt : Filter ℝ) (w h k : ℕ) (o : ℕ → ℕ → ℕ → Obs ℝ) (ω : Stream) :
    ∀ (suf pre : List (ℕ × ℕ)) (b : Buf ℝ),
      (∀ m p n, suf = m ++ p :: n → o k p.1 p.2 = toObs (shoot ray Li p.1 p.2 (after ray Li (pre ++ m) ω)).1) →
      (suf.map fun p => (k, p.1, p.2)).foldlM (shootOnce flt w h ray Li) (b, after ray Li pre ω) =
        (accumulate id flt w h o (suf.map fun p => (k, p.1, p.2)) b).bind fun b' =>
          .ok (b', after ray Li (pre ++ suf) ω) := by
  intro suf
  induction suf with
  | nil => intro pre b _; simp [accumulate]; rfl
  | cons p suf ih =>
    intro pre b hb
    have h0 := hb [] p suf rfl
    rw [List.append_nil] at h0
    have hshoot : after ray Li (pre ++ [p]) ω = (shoot ray Li p.1 p.2 (after ray Li pre ω)).2 := by
      rw [after_append]; rfl
    simp only [List.map_cons, List.foldlM_cons, accumulate, shootOnce, ← h0, ← hshoot]
    cases hs : sampleOnce id flt w h p.1 p.2 (o k p.1 p.2) b with
    | ub m => rfl
    | «throw» m => rfl
    | ok b1 =>
      simp only [Res.bind_ok, Res.pure_eq]
      have := ih (pre ++ [p]) b1 (by
        intro m q n hq
        have := hb (p :: m) q n (by rw [hq]; rfl)
        rw [this, List.append_assoc]
        rfl)
      rw [this, List.append_assoc]
      rfl

theorem foldlM_two {α β : Type} (f : β → α → Res β) (l m : List α) (b : β) :
    (l ++ m).foldlM f b = (l.foldlM f b).bind fun b' => m.foldlM f b' := by
  induction l generalizing b with
  | nil => rfl
  | cons a l ih =>
    simp only [List.cons_append, List.foldlM_cons]
    cases h : f b a with
    | ub m => rfl
    | «throw» m => rfl
    | ok b' => exact ih b'

theorem renderOrder_scan (spp w h : ℕ) :
    renderOrder spp w h = (List.range spp).flatMap fun k => (scan w h).map fun p => (k, p.1, p.2) := by
  unfold renderOrder scan
  simp only [List.map_flatMap, List.map_map]
  rfl

theorem loops_eq (flt : Filter ℝ) (w h : ℕ) (ω : Stream) (spp : ℕ) :
    (renderOrder spp w h).foldlM (shootOnce flt w h ray Li) (fun _ _ _ => 0, ω) =
      (accumulate id flt w h (obsAt ray Li w h ω) (renderOrder spp w h) (fun _ _ _ => 0)).bind fun b =>
        .ok (b, (after ray Li (scan w h))^[spp] ω) := by
  induction spp with
  | zero => rfl
  | succ n ih =>
    have e : renderOrder (n + 1) w h = renderOrder n w h ++ (scan w h).map fun p => (n, p.1, p.2) := by
      rw [renderOrder_scan, renderOrder_scan, List.range_succ, List.flatMap_append]
      simp
    rw [e, foldlM_two, ih]
    have ea : accumulate id flt w h (obsAt ray Li w h ω)
        (renderOrder n w h ++ (scan w h).map fun p => (n, p.1, p.2)) (fun _ _ _ => 0) =
        (accumulate id flt w h (obsAt ray Li w h ω) (renderOrder n w h) (fun _ _ _ => 0)).bind fun b =>
          accumulate id flt w h (obsAt ray Li w h ω) ((scan w h).map fun p => (n, p.1, p.2)) b := by
      exact foldlM_two _ _ _ _
    rw [ea]
    cases hacc : accumulate id flt w h (obsAt ray Li w h ω) (renderOrder n w h) (fun _ _ _ => 0) with
    | ub m => rfl
    | «throw» m => rfl
    | ok b =>
      have := pass_eq ray Li flt w h n (obsAt ray Li w h ω) ((after ray Li (scan w h))^[n] ω) (scan w h) [] b (by
        intro m p q hp
        rw [obsAt, before, takeWhile_split hp (scan_nodup w h)]
        rfl)
      refine this.trans ?_
      rw [Function.iterate_succ_apply']
      rfl

/-- The loops with the sampler are the loops of `Image/Splat` for the samples `obsAt`. -/
theorem renderWith_eq (flt : Filter ℝ) (w h spp : ℕ) (ω : Stream) :
    renderWith flt w h spp ray Li ω = render id flt w h spp (obsAt ray Li w h ω) := by
  unfold renderWith render
  rw [loops_eq]
  cases accumulate id flt w h (obsAt ray Li w h ω) (renderOrder spp w h) (fun _ _ _ => 0) <;> rfl

/-! ## Samples of one pixel are independent -/

variable [MeasurableSpace R]

/-- What the theorems assume of camera and integrator: measurable, the sampler is left in order, nothing negative, and
the mean for a ray is bounded. -/
structure Lawful : Prop where
  cam : Measurable fun q : (ℝ × ℝ) × (ℝ × ℝ) => ray q.1 q.2
  meas : Measurable fun q : R × Stream => Li q.1 q.2
  fresh : ∀ r, Fresh (Li r)
  nonneg : ∀ r ω, NonNeg (Li r ω).1
  bounded : ∃ B : ℝ≥0∞, B ≠ ∞ ∧ ∀ r c, ∫⁻ ω, ENNReal.ofReal ((Li r ω).1.get c) ∂uniform ≤ B

variable {ray Li}

theorem measurable_shoot (hL : Lawful ray Li) (i j : ℕ) : Measurable (shoot ray Li i j) := by
  have m1 : Measurable fun ω => (next2 ω).1 := measurable_fst.comp measurable_next2
  have m2 : Measurable fun ω => next2 (next2 ω).2 := measurable_next2.comp (measurable_snd.comp measurable_next2)
  have m3 : Measurable fun ω => ((j : ℝ) + (next2 ω).1.1, (i : ℝ) + (next2 ω).1.2) :=
    (measurable_const.add (measurable_fst.comp m1)).prodMk (measurable_const.add (measurable_snd.comp m1))
  have m4 : Measurable fun ω => Li (ray ((j : ℝ) + (next2 ω).1.1, (i : ℝ) + (next2 ω).1.2) (next2 (next2 ω).2).1)
      (next2 (next2 ω).2).2 :=
    hL.meas.comp ((hL.cam.comp (m3.prodMk (measurable_fst.comp m2))).prodMk (measurable_snd.comp m2))
  exact (m1.prodMk (measurable_fst.comp m4)).prodMk (measurable_snd.comp m4)

theorem fresh_shoot (hL : Lawful ray Li) (i j : ℕ) : Fresh (shoot ray Li i j) := by
  have mpos : Measurable fun s : ℝ × ℝ => ((j : ℝ) + s.1, (i : ℝ) + s.2) :=
    (measurable_const.add measurable_fst).prodMk (measurable_const.add measurable_snd)
  -- after the position numbers
  let k1 : ((ℝ × ℝ) × (ℝ × ℝ)) × Stream → ((ℝ × ℝ) × V3 ℝ) × Stream := fun q =>
    ((q.1.1, (Li (ray ((j : ℝ) + q.1.1.1, (i : ℝ) + q.1.1.2) q.1.2) q.2).1),
      (Li (ray ((j : ℝ) + q.1.1.1, (i : ℝ) + q.1.1.2) q.1.2) q.2).2)
  have mk1 : Measurable k1 := by
    have m4 : Measurable fun q : ((ℝ × ℝ) × (ℝ × ℝ)) × Stream =>
        Li (ray ((j : ℝ) + q.1.1.1, (i : ℝ) + q.1.1.2) q.1.2) q.2 :=
      hL.meas.comp ((hL.cam.comp ((mpos.comp (measurable_fst.comp measurable_fst)).prodMk
        (measurable_snd.comp measurable_fst))).prodMk measurable_snd)
    exact ((measurable_fst.comp measurable_fst).prodMk (measurable_fst.comp m4)).prodMk (measurable_snd.comp m4)
  have f1 : ∀ s a, Fresh fun ω => k1 ((s, a), ω) := fun s a =>
    fresh_map (m := fun v => (s, v)) (hL.fresh (ray ((j : ℝ) + s.1, (i : ℝ) + s.2) a))
      (measurable_const.prodMk measurable_id)
  let k0 : (ℝ × ℝ) × Stream → ((ℝ × ℝ) × V3 ℝ) × Stream := fun q => k1 ((q.1, (next2 q.2).1), (next2 q.2).2)
  have mk0 : Measurable k0 := by
    have m2 : Measurable fun q : (ℝ × ℝ) × Stream => next2 q.2 := measurable_next2.comp measurable_snd
    exact mk1.comp ((measurable_fst.prodMk (measurable_fst.comp m2)).prodMk (measurable_snd.comp m2))
  have f0 : ∀ s, Fresh fun ω => k0 (s, ω) := fun s =>
    fresh_bind (k := fun q : (ℝ × ℝ) × Stream => k1 ((s, q.1), q.2)) fresh_next2
      (mk1.comp ((measurable_const.prodMk measurable_fst).prodMk measurable_snd)) fun a => f1 s a
  exact fresh_bind (k := k0) fresh_next2 mk0 f0

theorem after_preserving (hL : Lawful ray Li) (l : List (ℕ × ℕ)) :
    MeasurePreserving (after ray Li l) uniform uniform := by
  induction l with
  | nil => exact MeasurePreserving.id _
  | cons p l ih => exact ih.comp (fresh_shoot hL p.1 p.2).measurePreserving

theorem fresh_after (hL : Lawful ray Li) (l : List (ℕ × ℕ)) {A : Type} [MeasurableSpace A] (a : A) :
    Fresh fun ω => (a, after ray Li l ω) := by
  induction l with
  | nil => exact fresh_pure a
  | cons p l ih =>
    have hm : Measurable fun q : ((ℝ × ℝ) × V3 ℝ) × Stream => (a, after ray Li l q.2) :=
      measurable_const.prodMk ((after_preserving hL l).measurable.comp measurable_snd)
    exact fresh_bind (k := fun q : ((ℝ × ℝ) × V3 ℝ) × Stream => (a, after ray Li l q.2)) (fresh_shoot hL p.1 p.2) hm
      fun _ => ih

variable (ray Li) in
/-- One pass over the whole image, of which the sample of one pixel is kept. -/
def frame (w h : ℕ) (p : ℕ × ℕ) (ω : Stream) : ((ℝ × ℝ) × V3 ℝ) × Stream :=
  ((shoot ray Li p.1 p.2 (after ray Li (before w h p) ω)).1, after ray Li (scan w h) ω)

theorem frame_fresh (hL : Lawful ray Li) (w h : ℕ) (p : ℕ × ℕ) (hp : p ∈ scan w h) : Fresh (frame ray Li w h p) := by
  obtain ⟨m, n, hmn⟩ := List.append_of_mem hp
  have hb : before w h p = m := takeWhile_split hmn (scan_nodup w h)
  have e : frame ray Li w h p = fun ω =>
      (fun q : Unit × Stream => (fun s : ((ℝ × ℝ) × V3 ℝ) × Stream => (s.1, after ray Li n s.2))
        (shoot ray Li p.1 p.2 q.2)) ((), after ray Li m ω) := by
    funext ω
    simp only [frame, hb, hmn, after_append]
    rfl
  rw [e]
  have hk : Measurable fun s : ((ℝ × ℝ) × V3 ℝ) × Stream => (s.1, after ray Li n s.2) :=
    measurable_fst.prodMk ((after_preserving hL n).measurable.comp measurable_snd)
  have h1 := fresh_bind (k := fun s : ((ℝ × ℝ) × V3 ℝ) × Stream => (s.1, after ray Li n s.2)) (fresh_shoot hL p.1 p.2) hk
    fun a => fresh_after hL n a
  exact fresh_bind (k := fun q : Unit × Stream => (fun s : ((ℝ × ℝ) × V3 ℝ) × Stream => (s.1, after ray Li n s.2))
    (shoot ray Li p.1 p.2 q.2)) (fresh_after hL m ()) (hk.comp ((measurable_shoot hL p.1 p.2).comp measurable_snd))
    fun _ => h1

theorem result_frame (w h : ℕ) (p : ℕ × ℕ) (k : ℕ) (ω : Stream) :
    toObs (result (frame ray Li w h p) k ω) = obsAt ray Li w h ω k p.1 p.2 := rfl

end Feign.Image
