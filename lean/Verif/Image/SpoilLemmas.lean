import Verif.Image.Spoil
import Verif.Image.SplatProps
import Verif.Shaders.SphereLemmas

/-! Helper lemmas for `Verif/Image/SpoilProps.lean`. -/

set_option linter.unusedSectionVars false

namespace Feign.Image

open Flt

/-- The factor of a channel: radiance, or one for the weights. -/
def chanF (rad : Fin 3 → Flt) (c : Fin 4) : Flt := if hc : (c : ℕ) < 3 then rad ⟨c, hc⟩ else .fin 1

theorem addAtF_eq (w h : ℕ) (b : BufF) (x y : Int) (rad : Fin 3 → Flt) (wt : ℝ)
    (hx : 0 ≤ x ∧ x < w) (hy : 0 ≤ y ∧ y < h) :
    addAtF w h b x y rad wt =
      .ok fun x' y' c => if x' = x ∧ y' = y then b x' y' c + .fin wt * chanF rad c else b x' y' c := by
  unfold addAtF chanF
  rw [if_pos ⟨hx.1, hx.2, hy.1, hy.2⟩]
  congr 1
  ext x' y' c
  split_ifs <;> simp

/-- Adding at a list of different pixels. -/
theorem addAll (w h : ℕ) (rad : Fin 3 → Flt) (wt : Int × Int → ℝ) (l : List (Int × Int)) (hnd : l.Nodup)
    (hin : ∀ p ∈ l, (0 ≤ p.1 ∧ p.1 < w) ∧ (0 ≤ p.2 ∧ p.2 < h)) (b : BufF) :
    ∃ b', l.foldlM (init := b) (fun b p => addAtF w h b p.1 p.2 rad (wt p)) = .ok b' ∧
      ∀ x y c, b' x y c = if (x, y) ∈ l then b x y c + .fin (wt (x, y)) * chanF rad c else b x y c := by
  induction l generalizing b with
  | nil => exact ⟨b, rfl, by simp⟩
  | cons p l ih =>
    obtain ⟨hp, hnd⟩ := List.nodup_cons.1 hnd
    have h1 := hin p (by simp)
    rw [List.foldlM_cons, addAtF_eq w h b p.1 p.2 rad (wt p) h1.1 h1.2, Res.bind_ok]
    obtain ⟨b', e, hb⟩ := ih hnd (fun q hq => hin q (by simp [hq]))
      (fun x' y' c => if x' = p.1 ∧ y' = p.2 then b x' y' c + .fin (wt p) * chanF rad c else b x' y' c)
    refine ⟨b', e, fun x y c => ?_⟩
    rw [hb]
    by_cases hxy : (x, y) = p
    · subst hxy
      rw [if_neg hp]
      simp
    · have h2 : ¬ (x = p.1 ∧ y = p.2) := fun h => hxy (Prod.ext h.1 h.2)
      simp only [if_neg h2, List.mem_cons, hxy, false_or]

theorem splat_list_mem (flt : Filter ℝ) (w h : ℕ) (px py : ℝ) (x y : Int) :
    (x, y) ∈ ((splatRange id py flt.sizeY h).flatMap fun y => (splatRange id px flt.sizeX w).map fun x => (x, y)) ↔
      x ∈ splatRange id px flt.sizeX w ∧ y ∈ splatRange id py flt.sizeY h := by
  simp only [List.mem_flatMap, List.mem_map, Prod.mk.injEq]
  constructor
  · rintro ⟨y', hy, x', hx, rfl, rfl⟩; exact ⟨hx, hy⟩
  · rintro ⟨hx, hy⟩; exact ⟨y, hy, x, hx, rfl, rfl⟩

theorem splat_list_nodup (flt : Filter ℝ) (w h : ℕ) (px py : ℝ) :
    ((splatRange id py flt.sizeY h).flatMap fun y => (splatRange id px flt.sizeX w).map fun x => (x, y)).Nodup := by
  rw [List.nodup_flatMap]
  refine ⟨fun y _ => (nodup_intRange _ _).map fun a b h => by simpa using h, (nodup_intRange _ _).imp ?_⟩
  intro a b hab
  simp only [Function.onFun, List.disjoint_left, List.mem_map, not_exists, not_and]
  rintro _ ⟨x, _, rfl⟩ x' _ h
  simp only [Prod.mk.injEq] at h
  exact hab h.2.symm

theorem splatF_at (flt : Filter ℝ) (w h : ℕ) (px py : ℝ) (rad : Fin 3 → Flt) (b : BufF) :
    ∃ b', splatF flt w h px py rad b = .ok b' ∧ ∀ x y c,
      b' x y c = if x ∈ splatRange id px flt.sizeX w ∧ y ∈ splatRange id py flt.sizeY h
        then b x y c + .fin (flt.eval (x + 1 / 2 - px) (y + 1 / 2 - py)) * chanF rad c else b x y c := by
  obtain ⟨b', e, hb⟩ := addAll w h rad (fun xy => flt.eval (xy.1 + 1 / 2 - px) (xy.2 + 1 / 2 - py)) _
    (splat_list_nodup flt w h px py) (by
      rintro ⟨x, y⟩ hp
      rw [splat_list_mem] at hp
      exact ⟨splatRange_bounds id px _ w rfl x hp.1, splatRange_bounds id py _ h rfl y hp.2⟩) b
  refine ⟨b', e, fun x y c => ?_⟩
  rw [hb]
  simp only [splat_list_mem]

/-- The sample is added to the pixel. -/
def Reached (flt : Filter ℝ) (w h : ℕ) (obs : ℕ → ℕ → ℕ → ObsF) (x y : Int) (q : ℕ × ℕ × ℕ) : Prop :=
  x ∈ splatRange id (q.2.2 + (obs q.1 q.2.1 q.2.2).u) flt.sizeX w ∧
    y ∈ splatRange id (q.2.1 + (obs q.1 q.2.1 q.2.2).v) flt.sizeY h

/-- What it adds. -/
noncomputable def share (flt : Filter ℝ) (obs : ℕ → ℕ → ℕ → ObsF) (x y : Int) (c : Fin 4) (q : ℕ × ℕ × ℕ) : Flt :=
  .fin (flt.eval (x + 1 / 2 - (q.2.2 + (obs q.1 q.2.1 q.2.2).u)) (y + 1 / 2 - (q.2.1 + (obs q.1 q.2.1 q.2.2).v))) *
    chanF (obs q.1 q.2.1 q.2.2).rad c

open Classical in
theorem accumulateF_at (flt : Filter ℝ) (w h : ℕ) (obs : ℕ → ℕ → ℕ → ObsF) (order : List (ℕ × ℕ × ℕ)) (b : BufF) :
    ∃ b', accumulateF flt w h obs order b = .ok b' ∧ ∀ x y c,
      b' x y c = (order.filter fun q => decide (Reached flt w h obs x y q)).foldl
        (fun acc q => acc + share flt obs x y c q) (b x y c) := by
  induction order generalizing b with
  | nil => exact ⟨b, rfl, by simp⟩
  | cons q l ih =>
    obtain ⟨b1, e1, h1⟩ := splatF_at flt w h (q.2.2 + (obs q.1 q.2.1 q.2.2).u) (q.2.1 + (obs q.1 q.2.1 q.2.2).v)
      (obs q.1 q.2.1 q.2.2).rad b
    obtain ⟨b2, e2, h2⟩ := ih b1
    refine ⟨b2, ?_, ?_⟩
    · unfold accumulateF at e2 ⊢
      rw [List.foldlM_cons]
      simp only
      rw [e1, Res.bind_ok, e2]
    · intro x y c
      rw [h2, h1]
      by_cases hr : Reached flt w h obs x y q
      · rw [if_pos (show _ ∧ _ from hr), List.filter_cons_of_pos (by simpa using hr), List.foldl_cons]; rfl
      · rw [if_neg (show ¬ (_ ∧ _) from hr), List.filter_cons_of_neg (by simpa using hr)]

theorem isFin_iff (a : Flt) : a.IsFin ↔ ∃ x, a = .fin x := by
  cases a <;> simp [IsFin]

/-- A sum of floating point numbers is finite exactly if all of them are. -/
theorem foldl_fin {α : Type} (f : α → Flt) (l : List α) (a : Flt) :
    (l.foldl (fun acc q => acc + f q) a).IsFin ↔ a.IsFin ∧ ∀ q ∈ l, (f q).IsFin := by
  induction l generalizing a with
  | nil => simp
  | cons q l ih =>
    rw [List.foldl_cons, ih]
    have : (a + f q).IsFin ↔ a.IsFin ∧ (f q).IsFin := by
      constructor
      · intro h
        refine ⟨?_, ?_⟩
        · by_contra hb
          cases a with
          | fin x => exact hb trivial
          | inf s =>
            revert h
            cases f q with
            | fin x => exact id
            | inf t =>
              show (if s = t then inf s else nan).IsFin → False
              split <;> exact id
            | nan => exact id
          | nan => exact h
        · by_contra hb
          exact (bad_iff _).1 (Bad.add_right a ((bad_iff _).2 hb)) h
      · rintro ⟨h1, h2⟩
        obtain ⟨x, rfl⟩ := (isFin_iff _).1 h1
        obtain ⟨y, hy⟩ := (isFin_iff _).1 h2
        rw [hy]; trivial
    rw [this]
    simp [and_assoc]

theorem share_fin (flt : Filter ℝ) (obs : ℕ → ℕ → ℕ → ObsF) (x y : Int) (c : Fin 4) (q : ℕ × ℕ × ℕ) :
    (share flt obs x y c q).IsFin ↔ (chanF (obs q.1 q.2.1 q.2.2).rad c).IsFin := by
  unfold share
  constructor
  · intro h
    by_contra hb
    exact (bad_iff _).1 (Bad.mul_right _ ((bad_iff _).2 hb)) h
  · intro h
    obtain ⟨r, hr⟩ := (isFin_iff _).1 h
    rw [hr]; trivial

theorem foldl_real {α : Type} (f : α → ℝ) (l : List α) (a : ℝ) :
    l.foldl (fun acc q => acc + .fin (f q)) (.fin a) = (.fin (a + (l.map f).sum) : Flt) := by
  induction l generalizing a with
  | nil => simp
  | cons q l ih => rw [List.foldl_cons, fin_add, ih, List.map_cons, List.sum_cons, add_assoc]

/-- Samples that are not added have no weight. -/
theorem sum_filter_reached (flt : Filter ℝ) (hs : ∀ x y, flt.sizeX ≤ |x| ∨ flt.sizeY ≤ |y| → flt.eval x y = 0)
    (w h : ℕ) (obs : ℕ → ℕ → ℕ → ObsF) (x y : Int) (hx0 : 0 ≤ x) (hx : x < w) (hy0 : 0 ≤ y) (hy : y < h)
    (q : ℕ × ℕ × ℕ) (hr : ¬ Reached flt w h obs x y q) :
    flt.eval (x + 1 / 2 - (q.2.2 + (obs q.1 q.2.1 q.2.2).u)) (y + 1 / 2 - (q.2.1 + (obs q.1 q.2.1 q.2.2).v)) = 0 := by
  apply hs
  by_contra hc
  push Not at hc
  exact hr ⟨splatRange_complete _ _ w x hx0 hx hc.1, splatRange_complete _ _ h y hy0 hy hc.2⟩

theorem sum_filter_zero {α : Type} (p : α → Prop) [DecidablePred p] (f : α → ℝ) (l : List α)
    (h : ∀ q ∈ l, ¬ p q → f q = 0) : ((l.filter fun q => decide (p q)).map f).sum = (l.map f).sum := by
  induction l with
  | nil => rfl
  | cons q l ih =>
    have ih := ih fun q' hq' => h q' (by simp [hq'])
    by_cases hq : p q
    · rw [List.filter_cons_of_pos (by simpa using hq), List.map_cons, List.map_cons, List.sum_cons, List.sum_cons, ih]
    · rw [List.filter_cons_of_neg (by simpa using hq), List.map_cons, List.sum_cons, ih, h q (by simp) hq, zero_add]

/-- Which pixels a sample is added to. -/
theorem mem_splatRange (p s : ℝ) (n : ℕ) (x : Int) (h0 : 0 ≤ x) (hn : x < n) :
    x ∈ splatRange id p s n ↔ (x : ℝ) ≤ p + s ∧ p - s < x + 1 := by
  unfold splatRange
  rw [mem_intRange, Int.le_floor, ← Int.lt_add_one_iff, Int.floor_lt]
  have h0' : (0 : ℝ) ≤ x := by exact_mod_cast h0
  have hn' : (x : ℝ) ≤ (n : ℝ) - 1 := by
    have : x ≤ (n : Int) - 1 := by omega
    have h3 : ((x : Int) : ℝ) ≤ (((n : Int) - 1 : Int) : ℝ) := by exact_mod_cast this
    push_cast at h3
    exact h3
  unfold clipMin clipMax
  simp only [id]
  push_cast
  split_ifs with h1 h2 h2
  · constructor
    · rintro ⟨_, _⟩; exact ⟨by linarith, by linarith⟩
    · rintro ⟨_, _⟩; exact ⟨by linarith, by linarith⟩
  · constructor
    · rintro ⟨_, _⟩; exact ⟨by linarith, by linarith⟩
    · rintro ⟨_, _⟩; exact ⟨by linarith, by linarith⟩
  · constructor
    · rintro ⟨_, _⟩; exact ⟨by linarith, by linarith⟩
    · rintro ⟨_, _⟩; exact ⟨by linarith, by linarith⟩
  · exact and_comm

/-- The real samples have the same positions, and the same radiance wherever that is a number. -/
def Agree (obs : ℕ → ℕ → ℕ → ObsF) (o : ℕ → ℕ → ℕ → Obs ℝ) : Prop :=
  ∀ k i j, (o k i j).u = (obs k i j).u ∧ (o k i j).v = (obs k i j).v ∧
    ∀ c, ((obs k i j).rad c).IsFin → (obs k i j).rad c = .fin ((o k i j).rad c)

theorem core_weight (flt : Filter ℝ) (hs : ∀ x y, flt.sizeX ≤ |x| ∨ flt.sizeY ≤ |y| → flt.eval x y = 0)
    (w h : ℕ) (obs : ℕ → ℕ → ℕ → ObsF) (o : ℕ → ℕ → ℕ → Obs ℝ) (ha : Agree obs o) (order : List (ℕ × ℕ × ℕ))
    (x y : Int) (hx0 : 0 ≤ x) (hx : x < w) (hy0 : 0 ≤ y) (hy : y < h) (c : Fin 4) [DecidablePred (Reached flt w h obs x y)]
    (hc : ∀ q ∈ order, Reached flt w h obs x y q → (chanF (obs q.1 q.2.1 q.2.2).rad c).IsFin) (a : ℝ) :
    (order.filter fun q => decide (Reached flt w h obs x y q)).foldl (fun acc q => acc + share flt obs x y c q) (.fin a) =
      .fin (a + (order.map (contribution flt o x y c)).sum) := by
  have h1 : ∀ q ∈ order, Reached flt w h obs x y q → share flt obs x y c q = .fin (contribution flt o x y c q) := by
    intro q hq hr
    have hf := hc q hq hr
    obtain ⟨hu, hv, hrad⟩ := ha q.1 q.2.1 q.2.2
    have : chanF (obs q.1 q.2.1 q.2.2).rad c = .fin (chan (o q.1 q.2.1 q.2.2).rad c) := by
      unfold chanF chan at *
      split_ifs with h3
      · rw [dif_pos h3] at hf
        exact hrad _ hf
      · rfl
    unfold share contribution
    simp only
    rw [this, hu, hv, fin_mul]
  have h2 : ∀ (l : List (ℕ × ℕ × ℕ)) (acc : Flt), (∀ q ∈ l, q ∈ order ∧ Reached flt w h obs x y q) →
      l.foldl (fun acc q => acc + share flt obs x y c q) acc =
        l.foldl (fun acc q => acc + .fin (contribution flt o x y c q)) acc := by
    intro l
    induction l with
    | nil => intros; rfl
    | cons q l ih =>
      intro acc hl
      obtain ⟨hq, hr⟩ := hl q (by simp)
      rw [List.foldl_cons, List.foldl_cons, h1 q hq hr, ih _ fun q' hq' => hl q' (by simp [hq'])]
  rw [h2 _ _ (fun q hq => by simpa using hq), foldl_real, sum_filter_zero]
  intro q hq hr
  obtain ⟨hu, hv, -⟩ := ha q.1 q.2.1 q.2.2
  unfold contribution
  simp only
  rw [hu, hv, sum_filter_reached flt hs w h obs x y hx0 hx hy0 hy q hr, zero_mul]

end Feign.Image
