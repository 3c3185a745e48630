import Mathlib.MeasureTheory.Constructions.BorelSpace.Basic
import Mathlib.MeasureTheory.MeasurableSpace.Prod

/-! # Partial functions that depend measurably on their argument (helper lemmas) -/

set_option linter.unusedSectionVars false

namespace Feign.Sampling

open MeasureTheory

variable {α β γ : Type} [MeasurableSpace α] [MeasurableSpace β] [MeasurableSpace γ]

/-- A partial function: the set where it is defined is measurable, and so is the function completed by any measurable
one. -/
def OM (f : α → Option β) : Prop :=
  MeasurableSet {a | (f a).isSome = true} ∧ ∀ d : α → β, Measurable d → Measurable fun a => (f a).getD (d a)

theorem OM.some {g : α → β} (h : Measurable g) : OM fun a => Option.some (g a) :=
  ⟨by simp, fun d _ => by simpa using h⟩

theorem OM.none : OM fun _ : α => (Option.none : Option β) :=
  ⟨by simp, fun d hd => by simpa using hd⟩

theorem OM.ite {p : α → Prop} [DecidablePred p] {f g : α → Option β} (hp : MeasurableSet {a | p a}) (hf : OM f) (hg : OM g) :
    OM fun a => if p a then f a else g a := by
  refine ⟨?_, fun d hd => ?_⟩
  · have e : {a | (if p a then f a else g a).isSome = true} =
        ({a | p a} ∩ {a | (f a).isSome = true}) ∪ ({a | p a}ᶜ ∩ {a | (g a).isSome = true}) := by
      ext a
      by_cases h : p a <;> simp [h]
    rw [e]
    exact (hp.inter hf.1).union (hp.compl.inter hg.1)
  · have e : (fun a => (if p a then f a else g a).getD (d a)) =
        fun a => if p a then (f a).getD (d a) else (g a).getD (d a) := by
      funext a
      by_cases h : p a <;> simp [h]
    rw [e]
    exact Measurable.ite hp (hf.2 d hd) (hg.2 d hd)

theorem OM.comp {f : β → Option γ} (hf : OM f) {g : α → β} (hg : Measurable g) : OM fun a => f (g a) := by
  refine ⟨hg hf.1, fun d hd => ?_⟩
  classical
  by_cases hn : Nonempty γ
  · obtain ⟨c⟩ := hn
    have h1 : Measurable fun a => (f (g a)).getD c := (hf.2 (fun _ => c) measurable_const).comp hg
    have e : (fun a => (f (g a)).getD (d a)) = fun a => if (f (g a)).isSome = true then (f (g a)).getD c else d a := by
      funext a
      cases f (g a) <;> simp
    rw [e]
    exact Measurable.ite (hg hf.1) h1 hd
  · have : IsEmpty α := ⟨fun a => hn ⟨d a⟩⟩
    exact measurable_of_empty _

theorem OM.bind {f : α → Option β} (hf : OM f) {g : α → β → Option γ} (hg : OM fun q : α × β => g q.1 q.2) :
    OM fun a => (f a).bind (g a) := by
  classical
  by_cases hn : Nonempty β
  · obtain ⟨b⟩ := hn
    have hm : Measurable fun a => ((a, (f a).getD b) : α × β) := measurable_id.prodMk (hf.2 _ measurable_const)
    have hc := hg.comp hm
    have e : (fun a => (f a).bind (g a)) =
        fun a => if (f a).isSome = true then (fun q : α × β => g q.1 q.2) (a, (f a).getD b) else Option.none := by
      funext a
      cases f a <;> simp
    rw [e]
    exact OM.ite hf.1 hc OM.none
  · have e : (fun a => (f a).bind (g a)) = fun _ => Option.none := by
      funext a
      cases h : f a with
      | none => rfl
      | some x => exact absurd ⟨x⟩ hn
    rw [e]
    exact OM.none

theorem OM.map {f : α → Option β} (hf : OM f) {g : α → β → γ} (hg : Measurable fun q : α × β => g q.1 q.2) :
    OM fun a => (f a).map (g a) := by
  have e : (fun a => (f a).map (g a)) = fun a => (f a).bind fun b => Option.some (g a b) := by
    funext a
    cases f a <;> rfl
  rw [e]
  exact hf.bind (OM.some hg)

theorem OM.getD {f : α → Option β} (hf : OM f) {d : α → β} (hd : Measurable d) : Measurable fun a => (f a).getD (d a) :=
  hf.2 d hd

theorem OM.isSome {f : α → Option β} (hf : OM f) : Measurable fun a => (f a).isSome := by
  refine measurable_to_bool ?_
  have : (fun a => (f a).isSome) ⁻¹' {true} = {a | (f a).isSome = true} := rfl
  rw [this]
  exact hf.1

end Feign.Sampling
