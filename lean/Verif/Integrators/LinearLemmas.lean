import Verif.Integrators.LinearSpec
import Verif.Integrators.Lemmas
import Verif.Integrators.VolLemmas
import Verif.Image.Shoot
import Mathlib.Tactic.Ring

/-! # Lemmas about relighting -/

set_option linter.unusedSectionVars false
set_option linter.unusedVariables false
set_option linter.unusedSimpArgs false

namespace Feign.Integrators

variable {K M : Type} [Field K] [LinearOrder K]

/-! ## Colours -/

theorem Mix.zero (s : V3 K) : Mix s 0 0 0 := by unfold Mix; ext <;> simp

theorem Mix.add {s a b c a' b' c' : V3 K} (h : Mix s a b c) (h' : Mix s a' b' c') :
    Mix s (a + a') (b + b') (c + c') := by
  unfold Mix at *; subst h h'
  ext <;> simp <;> ring

theorem Mix.mul {s a b c : V3 K} (h : Mix s a b c) (t : V3 K) : Mix s (t * a) (t * b) (t * c) := by
  unfold Mix at *; subst h
  ext <;> simp <;> ring

theorem Mix.mul_right {s a b c : V3 K} (h : Mix s a b c) (t : V3 K) : Mix s (a * t) (b * t) (c * t) := by
  unfold Mix at *; subst h
  ext <;> simp <;> ring

theorem Mix.smul {s a b c : V3 K} (h : Mix s a b c) (t : K) : Mix s (a.smul t) (b.smul t) (c.smul t) := by
  unfold Mix at *; subst h
  ext <;> simp <;> ring

theorem Mix.ite {s a b c : V3 K} (h : Mix s a b c) (p : Prop) [Decidable p] :
    Mix s (if p then a else 0) (if p then b else 0) (if p then c else 0) := by
  split_ifs
  · exact h
  · exact Mix.zero s

theorem Mix.ite' {s a b c : V3 K} (h : Mix s a b c) (p : Prop) [Decidable p] :
    Mix s (if p then 0 else a) (if p then 0 else b) (if p then 0 else c) := by
  split_ifs
  · exact Mix.zero s
  · exact h

/-! ## The closure -/

structure MixClosure (s : V3 K) (a b c : Closure K) : Prop where
  emission : Mix s a.emission b.emission c.emission
  nee : Mix s a.nee b.nee c.nee
  albedo : a.albedo = c.albedo ∧ b.albedo = c.albedo
  pdf : a.pdf = c.pdf ∧ b.pdf = c.pdf
  isSpecular : a.isSpecular = c.isSpecular ∧ b.isSpecular = c.isSpecular
  lastSpec : a.lastSpec = c.lastSpec ∧ b.lastSpec = c.lastSpec
  acceptsShadows : a.acceptsShadows = c.acceptsShadows ∧ b.acceptsShadows = c.acceptsShadows

theorem MixClosure.fresh (s : V3 K) : MixClosure s Closure.fresh Closure.fresh Closure.fresh :=
  ⟨Mix.zero s, Mix.zero s, ⟨rfl, rfl⟩, ⟨rfl, rfl⟩, ⟨rfl, rfl⟩, ⟨rfl, rfl⟩, ⟨rfl, rfl⟩⟩

theorem MixClosure.clear {s : V3 K} {a b c : Closure K} (h : MixClosure s a b c) :
    MixClosure s { a with emission := 0, nee := 0, albedo := 0 } { b with emission := 0, nee := 0, albedo := 0 }
      { c with emission := 0, nee := 0, albedo := 0 } :=
  ⟨Mix.zero s, Mix.zero s, ⟨rfl, rfl⟩, h.pdf, h.isSpecular, h.lastSpec, h.acceptsShadows⟩

theorem evaluate_mix {s : V3 K} {a b c : Surface K} (h : MixSurface s a b c) {ca cb cc : Closure K}
    (hc : MixClosure s ca cb cc) :
    MixClosure s (evaluate a ca).1 (evaluate b cb).1 (evaluate c cc).1 ∧
      Each3 (MixRay s) (evaluate a ca).2.1 (evaluate b cb).2.1 (evaluate c cc).2.1 := by
  obtain ⟨⟨h1, h1'⟩, ⟨h2, h2'⟩, h3, h4, ⟨h5, h5'⟩, ⟨h6, h6'⟩, ⟨h7, h7'⟩⟩ := h
  obtain ⟨e, n, ⟨al, al'⟩, ⟨p, p'⟩, ⟨sp, sp'⟩, ⟨ls, ls'⟩, ⟨ac, ac'⟩⟩ := hc
  unfold evaluate
  rw [ls, ls', h2, h2', h1, h1']
  cases cc.lastSpec <;> cases c.delta <;> cases c.shader <;> simp only [ac, ac', if_true, if_false, Bool.false_eq_true] <;>
    cases cc.acceptsShadows <;>
    first
    | exact ⟨⟨by assumption, by assumption, ⟨by assumption, by assumption⟩, ⟨by assumption, by assumption⟩,
        by simp [*], by simp [*], by simp [*]⟩, by first | exact Each3.nil | exact h4⟩

theorem accumulate_mix {s : V3 K} {ra rb rc : List (ShadowRay K)} (h : Each3 (MixRay s) ra rb rc) :
    ∀ {ca cb cc : Closure K}, MixClosure s ca cb cc →
      MixClosure s (accumulate ra ca) (accumulate rb cb) (accumulate rc cc) := by
  induction h with
  | nil => intro ca cb cc hc; exact hc
  | @cons a b c as bs cs hr _ ih =>
    intro ca cb cc hc
    refine ih (ca := if a.valid then { ca with nee := ca.nee + a.throughput * a.albedo } else ca)
      (cb := if b.valid then { cb with nee := cb.nee + b.throughput * b.albedo } else cb)
      (cc := if c.valid then { cc with nee := cc.nee + c.throughput * c.albedo } else cc) ?_
    rw [hr.valid.1, hr.valid.2, hr.albedo.1, hr.albedo.2]
    split_ifs
    · exact ⟨hc.emission, hc.nee.add (hr.throughput.mul_right _), hc.albedo, hc.pdf, hc.isSpecular, hc.lastSpec,
        hc.acceptsShadows⟩
    · exact hc

theorem sample_mix {s : V3 K} {a b c : Surface K} (h : MixSurface s a b c) {ca cb cc : Closure K}
    (hc : MixClosure s ca cb cc) : MixClosure s (sample a ca) (sample b cb) (sample c cc) := by
  unfold sample
  rw [h.scatter.1, h.scatter.2]
  cases c.scatter with
  | bsdf al p => exact ⟨hc.emission, hc.nee, ⟨rfl, rfl⟩, ⟨rfl, rfl⟩, hc.isSpecular, hc.lastSpec, hc.acceptsShadows⟩
  | null => exact ⟨hc.emission, hc.nee, ⟨rfl, rfl⟩, hc.pdf, hc.isSpecular, hc.lastSpec, ⟨rfl, rfl⟩⟩

theorem shaded_mix {s : V3 K} {a b c : Surface K} (h : MixSurface s a b c) {ca cb cc : Closure K}
    (hc : MixClosure s ca cb cc) : MixClosure s (shaded a ca) (shaded b cb) (shaded c cc) := by
  obtain ⟨h1, h2⟩ := evaluate_mix h hc.clear
  exact accumulate_mix h2 h1

/-! ## The surface integrators -/

theorem pathPure_mix (quot : K → K → K) {s : V3 K} {A B C : ℕ → Answer K} (h : ∀ i, MixAnswer s (A i) (B i) (C i))
    (n : ℕ) : ∀ (i : ℕ) (β la lb lc : V3 K) (ca cb cc : Closure K), Mix s la lb lc → MixClosure s ca cb cc →
      Mix s (pathPure quot A n i ⟨la, β, ca⟩) (pathPure quot B n i ⟨lb, β, cb⟩) (pathPure quot C n i ⟨lc, β, cc⟩) := by
  induction n with
  | zero => intro i β la lb lc ca cb cc hl _; exact hl
  | succ n ih =>
    intro i β la lb lc ca cb cc hl hc
    rw [pathPure, pathPure, pathPure]
    simp only
    by_cases hz : isZero β = true
    · rw [if_pos hz, if_pos hz, if_pos hz]; exact hl
    · rw [if_neg hz, if_neg hz, if_neg hz]
      have hi := h i
      generalize A i = a at hi
      generalize B i = b at hi
      generalize C i = c at hi
      cases hi with
      | escape he => exact hl.add (he.mul β)
      | @surface qa qb qc a b c hs =>
        have hsh := shaded_mix hs hc
        have hsm := sample_mix hs hsh
        simp only [hs.u.1, hs.u.2, hsm.pdf.1, hsm.pdf.2]
        split_ifs
        · exact hl.add ((hsh.emission.add hsh.nee).mul β)
        · simp only [nextState, hsm.albedo.1, hsm.albedo.2, hsm.isSpecular.1, hsm.isSpecular.2, hs.cos.1, hs.cos.2,
            hsm.pdf.1, hsm.pdf.2]
          exact ih _ _ _ _ _ _ _ _ (hl.add ((hsh.nee.add hsh.emission).mul β)) hsm

/-- Three optional colours. -/
inductive MixOption (s : V3 K) : Option (V3 K) → Option (V3 K) → Option (V3 K) → Prop where
  | none : MixOption s none none none
  | some {a b c : V3 K} : Mix s a b c → MixOption s (some a) (some b) (some c)

theorem whittedPure_mix {s : V3 K} {A B C : ℕ → Answer K} (h : ∀ i, MixAnswer s (A i) (B i) (C i)) (n : ℕ) :
    ∀ i, MixOption s (whittedPure A n i) (whittedPure B n i) (whittedPure C n i) := by
  induction n with
  | zero => intro i; exact .none
  | succ n ih =>
    intro i
    rw [whittedPure, whittedPure, whittedPure]
    have hi := h i
    generalize A i = a at hi
    generalize B i = b at hi
    generalize C i = c at hi
    cases hi with
    | escape he => exact .some he
    | @surface qa qb qc a b c hs =>
      obtain ⟨h1, h2⟩ := evaluate_mix hs (MixClosure.fresh s)
      have hsh := accumulate_mix h2 h1
      have hsm := sample_mix hs hsh
      simp only [hs.u.1, hs.u.2, hsh.isSpecular.1, hsh.isSpecular.2, hsm.albedo.1, hsm.albedo.2]
      split_ifs
      · exact .some (Mix.zero s)
      · exact .some (hsh.nee.add hsh.emission)
      · have hr := ih (i + 1)
        generalize whittedPure A n (i + 1) = x at hr
        generalize whittedPure B n (i + 1) = y at hr
        generalize whittedPure C n (i + 1) = z at hr
        cases hr with
        | none => exact .none
        | some hv => exact .some (((hv.mul _).add hsh.nee).add hsh.emission)
      · exact .some ((hsh.emission.add hsh.nee).add hsh.emission)

/-! ## The volumetric integrators -/

theorem vAccumulate_mix {s : V3 K} {a b c : VSurface K} (h : a.mat = c.mat ∧ b.mat = c.mat) {ra rb rc : List (VRay K)}
    (hr : Each3 (MixVRay s) ra rb rc) : ∀ {ca cb cc : Closure K}, MixClosure s ca cb cc →
      MixClosure s (vAccumulate a ra ca) (vAccumulate b rb cb) (vAccumulate c rc cc) := by
  induction hr with
  | nil => intro ca cb cc hc; exact hc
  | @cons x y z as bs cs hx _ ih =>
    intro ca cb cc hc
    refine ih (ca := if x.valid then { ca with nee := ca.nee + x.throughput * a.mat x.dir } else ca)
      (cb := if y.valid then { cb with nee := cb.nee + y.throughput * b.mat y.dir } else cb)
      (cc := if z.valid then { cc with nee := cc.nee + z.throughput * c.mat z.dir } else cc) ?_
    rw [hx.valid.1, hx.valid.2, hx.dir.1, hx.dir.2, h.1, h.2]
    split_ifs
    · exact ⟨hc.emission, hc.nee.add (hx.throughput.mul_right _), hc.albedo, hc.pdf, hc.isSpecular, hc.lastSpec,
        hc.acceptsShadows⟩
    · exact hc

theorem vEvaluate_mix {s : V3 K} {a b c : VSurface K} (h : MixVSurface s a b c) {ca cb cc : Closure K}
    (hc : MixClosure s ca cb cc) {ra rb rc : List (VRay K)} (hr : Each3 (MixVRay s) ra rb rc) :
    MixClosure s (vEvaluate a ca ra).1 (vEvaluate b cb rb).1 (vEvaluate c cc rc).1 ∧
      Each3 (MixVRay s) (vEvaluate a ca ra).2 (vEvaluate b cb rb).2 (vEvaluate c cc rc).2 := by
  obtain ⟨⟨h1, h1'⟩, ⟨h2, h2'⟩, h3, h4, ⟨hm, hm'⟩, ⟨h5, h5'⟩, ⟨h6, h6'⟩, ⟨h7, h7'⟩⟩ := h
  obtain ⟨e, n, ⟨al, al'⟩, ⟨p, p'⟩, ⟨sp, sp'⟩, ⟨ls, ls'⟩, ⟨ac, ac'⟩⟩ := hc
  unfold vEvaluate
  rw [ls, ls', h2, h2', h1, h1']
  cases cc.lastSpec <;> cases c.delta <;> cases c.shader <;> simp only [ac, ac', if_true, if_false, Bool.false_eq_true] <;>
    cases cc.acceptsShadows <;>
    first
    | exact ⟨⟨by assumption, by assumption, ⟨by assumption, by assumption⟩, ⟨by assumption, by assumption⟩,
        by simp [*], by simp [*], by simp [*]⟩, by first | exact hr | exact h4⟩

theorem vSample_mix {s : V3 K} {a b c : VSurface K} (h : MixVSurface s a b c) {ca cb cc : Closure K}
    (hc : MixClosure s ca cb cc) : MixClosure s (vSample a ca) (vSample b cb) (vSample c cc) := by
  unfold vSample
  rw [h.scatter.1, h.scatter.2]
  cases c.scatter with
  | bsdf al p => exact ⟨hc.emission, hc.nee, ⟨rfl, rfl⟩, ⟨rfl, rfl⟩, hc.isSpecular, hc.lastSpec, hc.acceptsShadows⟩
  | null => exact ⟨hc.emission, hc.nee, ⟨rfl, rfl⟩, hc.pdf, hc.isSpecular, hc.lastSpec, ⟨rfl, rfl⟩⟩

theorem mediumNee_mix {s β : V3 K} {a b c : MediumVertex K} (h : MixVertex s a b c) :
    Mix s (mediumNee β a) (mediumNee β b) (mediumNee β c) := by
  unfold mediumNee
  rw [h.phase.1, h.phase.2, h.wi.1, h.wi.2]
  have key : ∀ {ra rb rc : List (VRay K)}, Each3 (MixVRay s) ra rb rc → ∀ {x y z : V3 K}, Mix s x y z →
      Mix s (ra.foldl (fun nee r => if r.valid then nee + β.smul (c.phase c.wi) * r.throughput else nee) x)
        (rb.foldl (fun nee r => if r.valid then nee + β.smul (c.phase c.wi) * r.throughput else nee) y)
        (rc.foldl (fun nee r => if r.valid then nee + β.smul (c.phase c.wi) * r.throughput else nee) z) := by
    intro ra rb rc hr
    induction hr with
    | nil => intro x y z hx; exact hx
    | cons hv _ ih =>
      intro x y z hx
      simp only [List.foldl_cons]
      refine ih ?_
      rw [hv.valid.1, hv.valid.2]
      split_ifs
      · exact hx.add (hv.throughput.mul _)
      · exact hx
  exact key h.rays (Mix.zero s)

structure MixState (s : V3 K) (a b c : VolState K M) : Prop where
  Li : Mix s a.Li b.Li c.Li
  beta : a.beta = c.beta ∧ b.beta = c.beta
  closure : MixClosure s a.closure b.closure c.closure
  rays : Each3 (MixVRay s) a.rays b.rays c.rays
  media : a.media = c.media ∧ b.media = c.media
  bounces : a.bounces = c.bounces ∧ b.bounces = c.bounces

inductive MixStep (s : V3 K) : VolStep K M → VolStep K M → VolStep K M → Prop where
  | done {a b c : V3 K} : Mix s a b c → MixStep s (.done a) (.done b) (.done c)
  | next {a b c : VolState K M} : MixState s a b c → MixStep s (.next a) (.next b) (.next c)

theorem scatterStep_mix (quot : K → K → K) {s : V3 K} (β : V3 K) {va vb vc : MediumVertex K}
    (h : MixVertex s va vb vc) {a b c : VolState K M} (hs : MixState s a b c) :
    MixStep s (scatterStep quot β va a) (scatterStep quot β vb b) (scatterStep quot β vc c) := by
  have hn := mediumNee_mix (β := β) h
  unfold scatterStep
  simp only [h.u.1, h.u.2]
  split_ifs
  · exact .done (hs.Li.add hn)
  · exact .next ⟨hs.Li.add hn, ⟨rfl, rfl⟩, ⟨Mix.zero s, hn, ⟨rfl, rfl⟩, hs.closure.pdf, ⟨rfl, rfl⟩,
      hs.closure.isSpecular, hs.closure.acceptsShadows⟩, h.rays, hs.media, by simp [hs.bounces.1, hs.bounces.2]⟩

theorem ite3 {α : Type} {P : α → α → α → Prop} {p : Prop} [Decidable p] {a b c a' b' c' : α} (h : p → P a b c)
    (h' : ¬p → P a' b' c') : P (if p then a else a') (if p then b else b') (if p then c else c') := by
  by_cases hp : p
  · rw [if_pos hp, if_pos hp, if_pos hp]; exact h hp
  · rw [if_neg hp, if_neg hp, if_neg hp]; exact h' hp

theorem surfaceStep_mix (quot : K → K → K) {s : V3 K} (β : V3 K) {sa sb sc : VSurface K}
    (h : MixVSurface s sa sb sc) {a b c : VolState K M} (hs : MixState s a b c) :
    MixStep s (surfaceStep quot β sa a) (surfaceStep quot β sb b) (surfaceStep quot β sc c) := by
  obtain ⟨h1, h2⟩ := vEvaluate_mix h hs.closure.clear hs.rays
  have hsh := vAccumulate_mix h.mat h2 h1
  have hsm := vSample_mix h hsh
  unfold surfaceStep
  simp only [h.u.1, h.u.2, hsm.pdf.1, hsm.pdf.2]
  refine ite3 (fun _ => .done (hs.Li.add ((hsh.emission.add hsh.nee).mul β))) fun _ =>
    ite3 (fun _ => .done (hs.Li.add ((hsm.emission.add hsm.nee).mul β))) fun _ => ?_
  refine .next ⟨hs.Li.add ((hsm.nee.add hsm.emission).mul β), ?_, hsm, .nil, hs.media,
    by simp [hs.bounces.1, hs.bounces.2]⟩
  simp only [hsm.albedo.1, hsm.albedo.2, hsm.isSpecular.1, hsm.isSpecular.2, h.cos.1, h.cos.2, and_self]

theorem volStep_mix (quot : K → K → K) (maxBounces : ℕ) {s : V3 K} {A B C : VolAnswer K M} (h : MixVolAnswer s A B C)
    {a b c : VolState K M} (hs : MixState s a b c) :
    MixStep s (volStep quot maxBounces A a) (volStep quot maxBounces B b) (volStep quot maxBounces C c) := by
  unfold volStep
  rw [hs.bounces.1, hs.bounces.2, hs.beta.1, hs.beta.2]
  by_cases hb : c.bounces < maxBounces
  · rw [if_pos hb, if_pos hb, if_pos hb]
    by_cases hz : isZero c.beta = true
    · rw [if_pos hz, if_pos hz, if_pos hz]; exact .done hs.Li
    · rw [if_neg hz, if_neg hz, if_neg hz]
      cases h with
      | escape he => exact .done (hs.Li.add (he.mul _))
      | @hit ma mb mc bd ta tb tc hm ht =>
        simp only [throughMedium, hs.media.1, hs.media.2, hs.beta.1, hs.beta.2]
        have target : ∀ β, MixStep s
            (match (generalizing := false) ta with | .null => nullStep β bd a | .surface s => surfaceStep quot β s a)
            (match (generalizing := false) tb with | .null => nullStep β bd b | .surface s => surfaceStep quot β s b)
            (match (generalizing := false) tc with | .null => nullStep β bd c | .surface s => surfaceStep quot β s c) := by
          intro β
          cases ht with
          | null =>
            refine .next ⟨hs.Li, ⟨rfl, rfl⟩, hs.closure, hs.rays, ?_, hs.bounces⟩
            simp only [hs.media.1, hs.media.2, and_self]
          | surface hv => exact surfaceStep_mix quot β hv hs
        cases c.media with
        | none => exact target _
        | some m =>
          simp only
          have hmm := hm m
          generalize ma m = xa at hmm
          generalize mb m = xb at hmm
          generalize mc m = xc at hmm
          cases hmm with
          | through => exact target _
          | scatter hv => exact scatterStep_mix quot _ hv hs
  · rw [if_neg hb, if_neg hb, if_neg hb]; exact .done hs.Li

theorem volLoop_mix (quot : K → K → K) (maxBounces : ℕ) {s : V3 K} {A B C : ℕ → VolAnswer K M}
    (h : ∀ i, MixVolAnswer s (A i) (B i) (C i)) (fuel : ℕ) : ∀ (i : ℕ) {a b c : VolState K M}, MixState s a b c →
      MixOption s (volLoop quot maxBounces A fuel i a) (volLoop quot maxBounces B fuel i b)
        (volLoop quot maxBounces C fuel i c) := by
  induction fuel with
  | zero => intro i a b c _; exact .none
  | succ n ih =>
    intro i a b c hs
    rw [volLoop, volLoop, volLoop]
    have hst := volStep_mix quot maxBounces (h i) hs
    generalize volStep quot maxBounces (A i) a = x at hst
    generalize volStep quot maxBounces (B i) b = y at hst
    generalize volStep quot maxBounces (C i) c = z at hst
    cases hst with
    | done hv => exact .some hv
    | next hv => exact ih _ hv

/-! ## Lights -/

open Lights in
theorem meshNode_recolour (I : V3 ℝ) (l : Light) : (recolour I l).meshNode = l.meshNode := by cases l <;> rfl

open Lights in
theorem needsCheck_recolour (I : V3 ℝ) (l : Light) : (recolour I l).needsCheck = l.needsCheck := by cases l <;> rfl

open Lights

/-- A light sample in three colours. -/
inductive MixSample (s : V3 ℝ) : Option LightSample → Option LightSample → Option LightSample → Prop where
  | none : MixSample s none none none
  | some {wi : V3 ℝ} {d : Option ℝ} {a b c : V3 ℝ} {p : ℝ} : Mix s a b c →
      MixSample s (some ⟨wi, d, a, p⟩) (some ⟨wi, d, b, p⟩) (some ⟨wi, d, c, p⟩)

theorem Each3Res.bind {α β : Type} {P : α → α → α → Prop} {Q : β → β → β → Prop} {a b c : Res α} {f g h : α → Res β}
    (hp : Each3Res P a b c) (hq : ∀ x y z, P x y z → Each3Res Q (f x) (g y) (h z)) :
    Each3Res Q (a >>= f) (b >>= g) (c >>= h) := by
  cases hp with
  | ok hv => exact hq _ _ _ hv
  | throw e => exact .throw e
  | ub e => exact .ub e

theorem Each3Res.refl {α : Type} (a : Res α) : Each3Res (fun x y z => x = z ∧ y = z) a a a := by
  cases a with
  | ok x => exact .ok ⟨rfl, rfl⟩
  | throw e => exact .throw e
  | ub e => exact .ub e

theorem areaSample_mix {s I J H : V3 ℝ} (h : Mix s I J H) (p q n : V3 ℝ) (pdf : ℝ) :
    MixSample s (areaSample I p q n pdf) (areaSample J p q n pdf) (areaSample H p q n pdf) := by
  unfold areaSample
  cases (q - p).normalized with
  | none => exact .none
  | some wi =>
    simp only
    split_ifs
    · exact .some (Mix.zero s)
    · exact .some h

theorem meshSample_mix {s I J H : V3 ℝ} (h : Mix s I J H) (m : Shapes.Mesh ℝ) (cdf : List ℝ) (p : V3 ℝ) (u : V2 ℝ) :
    Each3Res (MixSample s) (meshSample I m cdf p u) (meshSample J m cdf p u) (meshSample H m cdf p u) := by
  unfold meshSample
  refine (Each3Res.refl _).bind ?_
  rintro x _ _ ⟨rfl, rfl⟩
  refine (Each3Res.refl _).bind ?_
  rintro f _ _ ⟨rfl, rfl⟩
  refine (Each3Res.refl _).bind ?_
  rintro c _ _ ⟨rfl, rfl⟩
  refine (Each3Res.refl _).bind ?_
  rintro _ n _ ⟨rfl, rfl⟩
  cases n with
  | none => exact .ok .none
  | some n =>
    simp only
    split_ifs
    · exact .ok .none
    · exact .ok (areaSample_mix h _ _ _ _)

theorem sampleNee_mix {s I J H : V3 ℝ} (h : Mix s I J H) (l : Light) (p : V3 ℝ) (u : V2 ℝ) :
    Each3Res (MixSample s) ((recolour I l).sampleNee p u) ((recolour J l).sampleNee p u)
      ((recolour H l).sampleNee p u) := by
  cases l with
  | point I0 pos =>
    simp only [recolour, Light.sampleNee]
    cases (pos - p).normalized with
    | none => exact .ok .none
    | some wi => exact .ok (.some ((h.smul _).smul _))
  | spot pos dir r c =>
    simp only [recolour, Light.sampleNee]
    cases (pos - p).normalized with
    | none => exact .ok .none
    | some wi => exact .ok (.some (h.ite _))
  | directional dir r => exact .ok (.some h)
  | mesh I0 inst m cdf => exact meshSample_mix h m cdf p u
  | dirMesh dir I0 inst => exact .ok (.some h)
  | environment I0 => exact .throw _

theorem initialCheck_mix {s : V3 ℝ} (w : Lights.World) (p : V3 ℝ) {la lb lc : Light}
    (h1 : la.needsCheck = lc.needsCheck ∧ lb.needsCheck = lc.needsCheck)
    (h2 : la.meshNode = lc.meshNode ∧ lb.meshNode = lc.meshNode) {wi : V3 ℝ} {d : Option ℝ} {a b c : V3 ℝ} {pdf : ℝ}
    (h : Mix s a b c) :
    MixSample s (initialCheck w p la ⟨wi, d, a, pdf⟩) (initialCheck w p lb ⟨wi, d, b, pdf⟩)
      (initialCheck w p lc ⟨wi, d, c, pdf⟩) := by
  unfold initialCheck
  rw [h1.1, h1.2, h2.1, h2.2]
  simp only
  split_ifs
  · cases w.first wi with
    | none => exact .some (Mix.zero s)
    | some mq =>
      obtain ⟨m, q⟩ := mq
      simp only
      split_ifs
      · exact .none
      · exact .some (h.smul _)
      · exact .some (Mix.zero s)
  · exact .some h

theorem lightEval_mix {s : V3 ℝ} (w : Lights.World) (sp : Spot) (normal : V3 ℝ) (inMedia : Bool) (choice : ℝ)
    {a b c : Light} (h : MixLight s a b c) (u : V2 ℝ) :
    Each3Res (MixEval s) (lightEval w sp normal inMedia choice a u) (lightEval w sp normal inMedia choice b u)
      (lightEval w sp normal inMedia choice c u) := by
  obtain ⟨l, I, J, rfl, rfl, rfl⟩ := h
  unfold lightEval
  refine (sampleNee_mix (s := s) (H := s * I + J) rfl l sp.p u).bind ?_
  intro x y z hx
  cases hx with
  | none => exact .ok .nan
  | @some wi0 d0 a0 b0 c0 p0 hv =>
    have hi := initialCheck_mix (la := recolour I l) (lb := recolour J l) (lc := recolour (s * I + J) l) w sp.p
      (by simp only [needsCheck_recolour, and_self]) (by simp only [meshNode_recolour, and_self]) hv
      (wi := wi0) (d := d0) (pdf := p0)
    simp only
    revert hi
    generalize initialCheck w sp.p (recolour I l) _ = xa
    generalize initialCheck w sp.p (recolour J l) _ = xb
    generalize initialCheck w sp.p (recolour (s * I + J) l) _ = xc
    intro hi
    cases hi with
    | none => exact .ok .nan
    | @some wi d a b c p hm =>
      cases d with
      | none => exact .ub _
      | some d2 =>
        simp only
        have hli : Mix s (if inMedia = true then a else a.smul (cosTerm (normal.dot wi)))
            (if inMedia = true then b else b.smul (cosTerm (normal.dot wi)))
            (if inMedia = true then c else c.smul (cosTerm (normal.dot wi))) := by
          split_ifs
          · exact hm
          · exact hm.smul _
        by_cases hb : ((w.shadow wi (Real.sqrt d2 - eps)).1 && !w.ignoreShadows) = true
        · simp only [hb, if_true]; exact .ok .hidden
        · simp only [hb, if_false]
          exact .ok (.seen (((hli.smul _).mul_right _).ite' _))

theorem evalAll_mix {s : V3 ℝ} (w : Lights.World) (sp : Spot) (inMedia : Bool) {as bs cs : List Light}
    (h : Each3 (MixLight s) as bs cs) : ∀ us, Each3Res (Each3 (MixEval s)) (evalAll w sp inMedia as us)
      (evalAll w sp inMedia bs us) (evalAll w sp inMedia cs us) := by
  induction h with
  | nil => intro us; exact .ok .nil
  | cons hl _ ih =>
    intro us
    cases us with
    | nil => exact .ok .nil
    | cons u us =>
      simp only [evalAll]
      refine (lightEval_mix w sp sp.gn inMedia 1 hl u).bind fun x y z hx => ?_
      exact (ih us).bind fun xs ys zs hxs => .ok (.cons hx hxs)

theorem MixLight.node {s : V3 ℝ} {a b c : Light} (h : MixLight s a b c) :
    a.meshNode = c.meshNode ∧ b.meshNode = c.meshNode := by
  obtain ⟨l, I, J, rfl, rfl, rfl⟩ := h
  simp only [meshNode_recolour, and_self]

theorem Each3.infos {s : V3 ℝ} {as bs cs : List Light} (h : Each3 (MixLight s) as bs cs) :
    (as.map fun l => (⟨l.meshNode⟩ : Sampling.LightInfo)) = cs.map (fun l => ⟨l.meshNode⟩) ∧
    (bs.map fun l => (⟨l.meshNode⟩ : Sampling.LightInfo)) = cs.map (fun l => ⟨l.meshNode⟩) := by
  induction h with
  | nil => exact ⟨rfl, rfl⟩
  | cons hl _ ih => simp [ih.1, ih.2, hl.node.1, hl.node.2]

theorem Each3.get? {α : Type} {P : α → α → α → Prop} {as bs cs : List α} (h : Each3 P as bs cs) :
    ∀ i : ℕ, (∃ a b c, as[i]? = some a ∧ bs[i]? = some b ∧ cs[i]? = some c ∧ P a b c) ∨
      (as[i]? = none ∧ bs[i]? = none ∧ cs[i]? = none) := by
  induction h with
  | nil => intro i; right; simp
  | cons hp _ ih =>
    intro i
    cases i with
    | zero => left; exact ⟨_, _, _, rfl, rfl, rfl, hp⟩
    | succ i => simpa using ih i

theorem getAt_mix {α : Type} {P : α → α → α → Prop} {as bs cs : List α} (h : Each3 P as bs cs) (i : Int) :
    Each3Res P (Sampling.getAt as i) (Sampling.getAt bs i) (Sampling.getAt cs i) := by
  unfold Sampling.getAt
  refine ite3 (fun _ => .ub _) fun _ => ?_
  rcases h.get? i.toNat with ⟨a, b, c, ha, hb, hc, hp⟩ | ⟨ha, hb, hc⟩
  · rw [ha, hb, hc]; exact .ok hp
  · rw [ha, hb, hc]; exact .ub _

theorem evalOne_mix {s : V3 ℝ} (w : Lights.World) (sp : Spot) (inMedia : Bool) {as bs cs : List Light}
    (h : Each3 (MixLight s) as bs cs) (c : ℝ) (u : V2 ℝ) :
    Each3Res (Each3 (MixEval s)) (evalOne w sp inMedia as c u) (evalOne w sp inMedia bs c u)
      (evalOne w sp inMedia cs c u) := by
  unfold evalOne
  rw [h.infos.1, h.infos.2]
  refine (Each3Res.refl _).bind ?_
  rintro _ ⟨i, pdf⟩ _ ⟨rfl, rfl⟩
  cases i with
  | none => exact .ok (.cons .hidden .nil)
  | some i =>
    cases pdf with
    | none => exact .ok (.cons .hidden .nil)
    | some pdf =>
      refine (getAt_mix h i).bind fun x y z hx => ?_
      exact (lightEval_mix w sp _ inMedia pdf hx u).bind fun x y z hx => .ok (.cons hx .nil)

theorem Each3.map {α β : Type} {P : α → α → α → Prop} {Q : β → β → β → Prop} {f : α → β} {as bs cs : List α}
    (h : Each3 P as bs cs) (hf : ∀ a b c, P a b c → Q (f a) (f b) (f c)) :
    Each3 Q (as.map f) (bs.map f) (cs.map f) := by
  induction h with
  | nil => exact .nil
  | cons hp _ ih => exact .cons (hf _ _ _ hp) ih

theorem Each3.length {α : Type} {P : α → α → α → Prop} {as bs cs : List α} (h : Each3 P as bs cs) :
    as.length = cs.length ∧ bs.length = cs.length := by
  induction h with
  | nil => exact ⟨rfl, rfl⟩
  | cons _ _ ih => simp [ih.1, ih.2]

/-- An entry of the list of light samples in three colours. -/
structure MixEntry (s : V3 ℝ) (a b c : Entry) : Prop where
  valid : a.valid = c.valid ∧ b.valid = c.valid
  dir : a.dir = c.dir ∧ b.dir = c.dir
  throughput : Mix s a.throughput b.throughput c.throughput

theorem toEntry_mix {s : V3 ℝ} {a b c : LightEval} (h : MixEval s a b c) :
    MixEntry s (toEntry a) (toEntry b) (toEntry c) := by
  cases h with
  | nan => exact ⟨⟨rfl, rfl⟩, ⟨rfl, rfl⟩, Mix.zero s⟩
  | hidden => exact ⟨⟨rfl, rfl⟩, ⟨rfl, rfl⟩, Mix.zero s⟩
  | seen hm => exact ⟨⟨rfl, rfl⟩, ⟨rfl, rfl⟩, hm⟩

theorem entries_mix {s : V3 ℝ} (bsdf : V3 ℝ → V3 ℝ) {as bs cs : List Entry} (h : Each3 (MixEntry s) as bs cs) :
    Mix s (Lights.accumulate bsdf as) (Lights.accumulate bsdf bs) (Lights.accumulate bsdf cs) := by
  unfold Lights.accumulate
  have key : ∀ {x y z : V3 ℝ}, Mix s x y z →
      Mix s (as.foldl (fun acc e => if e.valid then acc + e.throughput * bsdf e.dir else acc) x)
        (bs.foldl (fun acc e => if e.valid then acc + e.throughput * bsdf e.dir else acc) y)
        (cs.foldl (fun acc e => if e.valid then acc + e.throughput * bsdf e.dir else acc) z) := by
    induction h with
    | nil => intro x y z hx; exact hx
    | cons hv _ ih =>
      intro x y z hx
      simp only [List.foldl_cons]
      refine ih ?_
      rw [hv.valid.1, hv.valid.2, hv.dir.1, hv.dir.2]
      exact ite3 (fun _ => hx.add (hv.throughput.mul_right _)) fun _ => hx
  exact key (Mix.zero s)

theorem modify_mix {α : Type} {P : α → α → α → Prop} {as bs cs : List α} (h : Each3 P as bs cs) {f g k : α → α}
    (hf : ∀ a b c, P a b c → P (f a) (g b) (k c)) : ∀ i, Each3 P (as.modify i f) (bs.modify i g) (cs.modify i k) := by
  induction h with
  | nil => intro i; simp only [List.modify_nil]; exact .nil
  | cons hp hr ih =>
    intro i
    cases i with
    | zero => simp only [List.modify_zero_cons]; exact .cons (hf _ _ _ hp) hr
    | succ i => simp only [List.modify_succ_cons]; exact .cons hp (ih i)

theorem multiWrite_mix {s : V3 ℝ} (i : ℕ) {a b c : LightEval} (h : MixEval s a b c) {as bs cs : List Entry}
    (hs : Each3 (MixEntry s) as bs cs) :
    Each3 (MixEntry s) (multiWrite i a as) (multiWrite i b bs) (multiWrite i c cs) := by
  cases h with
  | nan => exact hs
  | hidden => exact hs
  | seen hm =>
    refine modify_mix (modify_mix hs (fun x y z hx => ?_) 0) (fun x y z hx => ?_) i
    · exact ⟨⟨rfl, rfl⟩, ⟨rfl, rfl⟩, hx.throughput⟩
    · exact ⟨hx.valid, hx.dir, hm⟩

theorem multiLoop_mix {s : V3 ℝ} {a b c : List LightEval} (h : Each3 (MixEval s) a b c) :
    ∀ (i : ℕ) {as bs cs : List Entry}, Each3 (MixEntry s) as bs cs →
      Each3 (MixEntry s) (multiLoop i a as) (multiLoop i b bs) (multiLoop i c cs) := by
  induction h with
  | nil => intro i as bs cs hs; exact hs
  | cons hv _ ih => intro i as bs cs hs; exact ih (i + 1) (multiWrite_mix i hv hs)

theorem evalMulti_mix {s : V3 ℝ} {a b c : List LightEval} (h : Each3 (MixEval s) a b c) :
    Each3 (MixEntry s) (evalMulti a) (evalMulti b) (evalMulti c) := by
  unfold evalMulti
  rw [h.length.1, h.length.2]
  refine multiLoop_mix h 0 ?_
  generalize c.length = n
  induction n with
  | zero => exact .nil
  | succ n ih => exact .cons ⟨⟨rfl, rfl⟩, ⟨rfl, rfl⟩, Mix.zero s⟩ ih

/-! ## Scenes -/

theorem samples_mix {R : Type} {s : V3 ℝ} {A B C : World R} (h : MixWorld s A B C) (r : R) (ω : Sampling.Stream) :
    Each3 (MixRay s) (A.samples r ω).1 (B.samples r ω).1 (C.samples r ω).1 ∧
      (A.samples r ω).2 = (C.samples r ω).2 ∧ (B.samples r ω).2 = (C.samples r ω).2 := by
  unfold World.samples
  rw [h.delta.1, h.delta.2]
  cases C.delta r with
  | true => exact ⟨.nil, rfl, rfl⟩
  | false => exact h.lights r ω

theorem advance_mix {R : Type} {s : V3 ℝ} {A B C : World R} (h : MixWorld s A B C) (p : R × Sampling.Stream) :
    A.advance p = C.advance p ∧ B.advance p = C.advance p := by
  unfold World.advance
  obtain ⟨_, h1, h2⟩ := samples_mix h p.1 p.2
  rw [h.escapes.1, h.escapes.2, h.scatter.1, h.scatter.2, h1, h2]
  exact ⟨rfl, rfl⟩

theorem walk_mix {R : Type} {s : V3 ℝ} {A B C : World R} (h : MixWorld s A B C) (p : R × Sampling.Stream) (k : ℕ) :
    A.walk p k = C.walk p k ∧ B.walk p k = C.walk p k := by
  induction k with
  | zero => exact ⟨rfl, rfl⟩
  | succ k ih =>
    simp only [World.walk]
    rw [ih.1, ih.2]
    exact advance_mix h _

theorem answer_mix {R : Type} {s : V3 ℝ} {A B C : World R} (h : MixWorld s A B C) (p : R × Sampling.Stream) :
    MixAnswer s (A.answer p) (B.answer p) (C.answer p) := by
  unfold World.answer
  obtain ⟨h0, h1, h2⟩ := samples_mix h p.1 p.2
  simp only [h.escapes.1, h.escapes.2, h.scatter.1, h.scatter.2, h1, h2, h.delta.1, h.delta.2]
  refine ite3 (fun _ => .escape (h.env p.1)) fun _ => .surface ?_
  exact ⟨⟨rfl, rfl⟩, ⟨rfl, rfl⟩, h.emitted p.1, h0, ⟨rfl, rfl⟩, ⟨rfl, rfl⟩, ⟨rfl, rfl⟩⟩

theorem left_mix {R : Type} {s : V3 ℝ} {A B C : World R} (h : MixWorld s A B C) (quot : ℝ → ℝ → ℝ) (n : ℕ) :
    ∀ β p, A.left quot n β p = C.left quot n β p ∧ B.left quot n β p = C.left quot n β p := by
  induction n with
  | zero => intro β p; exact ⟨rfl, rfl⟩
  | succ n ih =>
    intro β p
    rw [World.left, World.left, World.left]
    obtain ⟨_, h1, h2⟩ := samples_mix h p.1 p.2
    simp only [h.escapes.1, h.escapes.2, h.scatter.1, h.scatter.2, h1, h2, h.delta.1, h.delta.2, (ih _ _).1, (ih _ _).2,
      and_self]

end Feign.Integrators

namespace Feign.Image

open Integrators Sampling

/-! ## Images -/

variable {K : Type} [Field K] [LinearOrder K] [IsStrictOrderedRing K] [FloorRing K]

/-- Buffers: the colours are mixed, the weights are equal. -/
structure MixBuf (s : Fin 3 → K) (a b c : Buf K) : Prop where
  colour : ∀ x y i, c x y i.castSucc = s i * a x y i.castSucc + b x y i.castSucc
  weight : ∀ x y, a x y 3 = c x y 3 ∧ b x y 3 = c x y 3

theorem addAt_mix (s : Fin 3 → K) (w h : ℕ) {a b c : Buf K} (hb : MixBuf s a b c) (x y : Int) {ra rb rc : Fin 3 → K}
    (hr : ∀ i, rc i = s i * ra i + rb i) (wt : K) :
    Each3Res (MixBuf s) (addAt id w h a x y ra wt) (addAt id w h b x y rb wt) (addAt id w h c x y rc wt) := by
  unfold addAt
  refine ite3 (fun _ => .ok ⟨fun x' y' i => ?_, fun x' y' => ?_⟩) fun _ => .ub _
  · have hi : ((i.castSucc : Fin 4) : ℕ) < 3 := by simp
    have e : (⟨((i.castSucc : Fin 4) : ℕ), hi⟩ : Fin 3) = i := by ext; simp
    by_cases hxy : x' = x ∧ y' = y
    · simp only [if_pos hxy, dif_pos hi, id, e, hb.colour, hr]; ring
    · simp only [if_neg hxy, hb.colour]
  · by_cases hxy : x' = x ∧ y' = y
    · simp only [if_pos hxy, (hb.weight _ _).1, (hb.weight _ _).2, id]
      exact ⟨rfl, rfl⟩
    · simp only [if_neg hxy, (hb.weight _ _).1, (hb.weight _ _).2, and_self]

theorem foldlM_mix {σ α : Type} {P : σ → σ → σ → Prop} (l : List α) {f g k : σ → α → Res σ}
    (hf : ∀ a b c x, P a b c → Each3Res P (f a x) (g b x) (k c x)) :
    ∀ {a b c : σ}, P a b c → Each3Res P (l.foldlM f a) (l.foldlM g b) (l.foldlM k c) := by
  induction l with
  | nil => intro a b c h; exact .ok h
  | cons x l ih =>
    intro a b c h
    simp only [List.foldlM_cons]
    exact (hf a b c x h).bind fun _ _ _ h' => ih h'

/-- Samples in the same place, with mixed light. -/
structure MixObs (s : Fin 3 → K) (a b c : Obs K) : Prop where
  u : a.u = c.u ∧ b.u = c.u
  v : a.v = c.v ∧ b.v = c.v
  rad : ∀ i, c.rad i = s i * a.rad i + b.rad i

theorem sampleOnce_mix (s : Fin 3 → K) (flt : Filter K) (w h i j : ℕ) {oa ob oc : Obs K} (ho : MixObs s oa ob oc)
    {a b c : Buf K} (hb : MixBuf s a b c) :
    Each3Res (MixBuf s) (sampleOnce id flt w h i j oa a) (sampleOnce id flt w h i j ob b)
      (sampleOnce id flt w h i j oc c) := by
  unfold sampleOnce splat
  rw [ho.u.1, ho.u.2, ho.v.1, ho.v.2]
  refine foldlM_mix _ (fun a b c x h' => ?_) hb
  exact addAt_mix s w h h' _ _ ho.rad _

theorem normalize_mix {s : Fin 3 → K} {a b c : Buf K} (hb : MixBuf s a b c) (x y : Int) (i : Fin 3) :
    normalize id c x y i = s i * normalize id a x y i + normalize id b x y i := by
  unfold normalize
  rw [(hb.weight x y).1, (hb.weight x y).2]
  split_ifs
  · simp
  · simp only [id, hb.colour]; ring

theorem normalizePool_mix {s : Fin 3 → K} {a b c : Buf K} (hb : MixBuf s a b c) (x y : Int) (i : Fin 3) :
    normalizePool id c x y i = s i * normalizePool id a x y i + normalizePool id b x y i := by
  unfold normalizePool
  rw [(hb.weight x y).1, (hb.weight x y).2]
  split_ifs
  · simp only [id, hb.colour]; ring
  · simp only [hb.colour]

end Feign.Image
