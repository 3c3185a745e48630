import Verif.Sdf.ShapeProps
import Verif.Math.BBoxProps

/-! # Helper lemmas for scene evaluation and marching -/

namespace Feign.Sdf
open Feign.V3

/-- `r` is the first minimum of the defined values of `l` at `p` (`none`: there is no defined value). -/
def IsFirstMin (l : List (V3 ℝ → Option ℝ)) (p : V3 ℝ) : Option (ℝ × ℕ) → Prop
  | none => ∀ (j : ℕ) (g : V3 ℝ → Option ℝ), l[j]? = some g → g p = none
  | some (m, i) => (∃ f, l[i]? = some f ∧ f p = some m) ∧
      (∀ (j : ℕ) (g : V3 ℝ → Option ℝ) (d : ℝ), l[j]? = some g → g p = some d → m ≤ d) ∧
      (∀ (j : ℕ) (g : V3 ℝ → Option ℝ) (d : ℝ), j < i → l[j]? = some g → g p = some d → m < d)

theorem IsFirstMin.snoc {l : List (V3 ℝ → Option ℝ)} {p : V3 ℝ} {best : Option (ℝ × ℕ)}
    (h : IsFirstMin l p best) (f : V3 ℝ → Option ℝ) :
    IsFirstMin (l ++ [f]) p (better (f p) l.length best) := by
  -- look-up in the longer list
  have look : ∀ (j : ℕ) (g : V3 ℝ → Option ℝ), (l ++ [f])[j]? = some g → l[j]? = some g ∨ (j = l.length ∧ g = f) := by
    intro j g hj
    rcases lt_trichotomy j l.length with hlt | heq | hgt
    · left; rwa [List.getElem?_append_left hlt] at hj
    · right
      subst heq
      rw [List.getElem?_append_right le_rfl] at hj
      simp at hj
      exact ⟨rfl, hj.symm⟩
    · rw [List.getElem?_append_right hgt.le] at hj
      have : j - l.length ≠ 0 := by omega
      obtain ⟨k, hk⟩ := Nat.exists_eq_succ_of_ne_zero this
      rw [hk] at hj
      simp at hj
  have old : ∀ (j : ℕ) (g : V3 ℝ → Option ℝ), l[j]? = some g → (l ++ [f])[j]? = some g := by
    intro j g hj
    obtain ⟨hlt, -⟩ := List.getElem?_eq_some_iff.mp hj
    rwa [List.getElem?_append_left hlt]
  have new : (l ++ [f])[l.length]? = some f := by
    rw [List.getElem?_append_right le_rfl]; simp
  cases hf : f p with
  | none =>
    cases best with
    | none =>
      intro j g hj
      rcases look j g hj with h1 | ⟨-, rfl⟩
      · exact h j g h1
      · exact hf
    | some b =>
      obtain ⟨m, i⟩ := b
      obtain ⟨⟨g, hg, hgm⟩, hmin, hfirst⟩ := h
      refine ⟨⟨g, old i g hg, hgm⟩, ?_, ?_⟩
      · intro j g' d hj hd
        rcases look j g' hj with h1 | ⟨-, rfl⟩
        · exact hmin j g' d h1 hd
        · rw [hf] at hd; cases hd
      · intro j g' d hji hj hd
        rcases look j g' hj with h1 | ⟨-, rfl⟩
        · exact hfirst j g' d hji h1 hd
        · rw [hf] at hd; cases hd
  | some d =>
    cases best with
    | none =>
      refine ⟨⟨f, new, hf⟩, ?_, ?_⟩
      · intro j g d' hj hd
        rcases look j g hj with h1 | ⟨-, rfl⟩
        · rw [h j g h1] at hd; cases hd
        · rw [hf] at hd; exact (Option.some.inj hd).le
      · intro j g d' hji hj hd
        rcases look j g hj with h1 | ⟨h2, -⟩
        · rw [h j g h1] at hd; cases hd
        · omega
    | some b =>
      obtain ⟨m, i⟩ := b
      obtain ⟨⟨g, hg, hgm⟩, hmin, hfirst⟩ := h
      by_cases hmd : m > d
      · simp only [better, hmd, if_true]
        refine ⟨⟨f, new, hf⟩, ?_, ?_⟩
        · intro j g' d' hj hd
          rcases look j g' hj with h1 | ⟨-, rfl⟩
          · exact hmd.le.trans (hmin j g' d' h1 hd)
          · rw [hf] at hd; exact (Option.some.inj hd).le
        · intro j g' d' hji hj hd
          rcases look j g' hj with h1 | ⟨h2, -⟩
          · exact lt_of_lt_of_le hmd (hmin j g' d' h1 hd)
          · omega
      · simp only [better, hmd, if_false]
        refine ⟨⟨g, old i g hg, hgm⟩, ?_, ?_⟩
        · intro j g' d' hj hd
          rcases look j g' hj with h1 | ⟨-, rfl⟩
          · exact hmin j g' d' h1 hd
          · rw [hf] at hd; cases hd; exact not_lt.mp hmd
        · intro j g' d' hji hj hd
          rcases look j g' hj with h1 | ⟨h2, -⟩
          · exact hfirst j g' d' hji h1 hd
          · obtain ⟨hlt, -⟩ := List.getElem?_eq_some_iff.mp hg
            omega

theorem sdEvaluateFrom_firstMin (p : V3 ℝ) (fs : List (V3 ℝ → Option ℝ)) :
    ∀ (l : List (V3 ℝ → Option ℝ)) (best : Option (ℝ × ℕ)), IsFirstMin l p best →
      IsFirstMin (l ++ fs) p (sdEvaluateFrom p fs l.length best) := by
  induction fs with
  | nil => intro l best h; simpa [sdEvaluateFrom] using h
  | cons f fs ih =>
    intro l best h
    have := ih (l ++ [f]) _ (h.snoc f)
    rw [List.append_assoc, List.length_append] at this
    simpa [sdEvaluateFrom] using this

theorem sdEvaluate_firstMin (fs : List (V3 ℝ → Option ℝ)) (p : V3 ℝ) :
    IsFirstMin fs p (sdEvaluate fs p) := by
  have := sdEvaluateFrom_firstMin p fs [] none (by intro j g h; simp at h)
  simpa [sdEvaluate] using this

theorem sdEvaluate_isSome (fs : List (V3 ℝ → Option ℝ)) (p : V3 ℝ)
    (h : ∃ f ∈ fs, f p ≠ none) : ∃ m i, sdEvaluate fs p = some (m, i) := by
  have hm := sdEvaluate_firstMin fs p
  cases hs : sdEvaluate fs p with
  | some b => exact ⟨b.1, b.2, rfl⟩
  | none =>
    rw [hs] at hm
    obtain ⟨f, hf, hne⟩ := h
    obtain ⟨i, hi⟩ := List.mem_iff_getElem?.mp hf
    exact absurd (hm i f hi) hne

/-- With a shape that is defined everywhere, the numerical normal is a unit vector. -/
theorem sdNormal_unit (fs : List (V3 ℝ → Option ℝ)) (p : V3 ℝ)
    (h : ∃ f ∈ fs, ∀ q, f q ≠ none) : ∃ n, sdNormal fs p = some n ∧ n.norm = 1 := by
  obtain ⟨f, hf, hd⟩ := h
  have hdiff : ∀ e, ∃ d, sdDiff fs p e = some d := by
    intro e
    obtain ⟨m, i, h1⟩ := sdEvaluate_isSome fs (p + e) ⟨f, hf, hd _⟩
    obtain ⟨m', i', h2⟩ := sdEvaluate_isSome fs (p - e) ⟨f, hf, hd _⟩
    unfold sdDiff
    rw [h1, h2]
    exact ⟨_, rfl⟩
  obtain ⟨dx, hx⟩ := hdiff ⟨eps, 0, 0⟩
  obtain ⟨dy, hy⟩ := hdiff ⟨0, eps, 0⟩
  obtain ⟨dz, hz⟩ := hdiff ⟨0, 0, eps⟩
  unfold sdNormal
  rw [hx, hy, hz]
  dsimp only
  have hne : (if dx = dy ∧ dx = dz ∧ dx = 0 then (⟨0, 1, 0⟩ : V3 ℝ) else ⟨dx, dy, dz⟩) ≠ 0 := by
    split_ifs with hc
    · intro e
      have := congrArg V3.y e
      simp at this
    · intro e
      have h1 := congrArg V3.x e
      have h2 := congrArg V3.y e
      have h3 := congrArg V3.z e
      simp at h1 h2 h3
      exact hc ⟨by rw [h1, h2], by rw [h1, h3], h1⟩
  obtain ⟨u, hu, h1, -⟩ := normalized_spec _ hne
  exact ⟨u, hu, by rw [norm_eq, h1, Real.sqrt_one]⟩

/-- Points of a unit-direction ray are as far apart as their parameters. -/
theorem ray_dist (r : Ray ℝ) (hd : r.dir.sqrNorm = 1) (s t : ℝ) :
    dist (r.point s) (r.point t) = |s - t| := by
  unfold dist
  have : r.point s - r.point t = r.dir.smul (s - t) := by
    unfold Ray.point
    ext <;> simp only [sub_x, sub_y, sub_z, add_x, add_y, add_z, smul_x, smul_y, smul_z] <;> ring
  rw [this, norm_smul', norm_eq, hd, Real.sqrt_one, one_mul]

/-- `near` and `far` when the slab loop succeeds are those of `B3.slabs`. -/
theorem slabNF_some (o d mn mx : ℝ) (s s' : Ext ℝ × Ext ℝ)
    (h : B3.slabAxis o d mn mx s = some s') : slabNF o d mn mx (true, s) = (true, s') := by
  unfold B3.slabAxis at h
  unfold slabNF
  rw [if_neg (by simp)]
  by_cases hd : d = 0
  · rw [if_pos hd] at h ⊢
    by_cases ho : o < mn ∨ o > mx
    · rw [if_pos ho] at h; cases h
    · rw [if_neg ho] at h ⊢
      cases h; rfl
  · rw [if_neg hd] at h ⊢
    dsimp only at h ⊢
    generalize (if (mn - o) * (1 / d) > (mx - o) * (1 / d) then (mx - o) * (1 / d)
      else (mn - o) * (1 / d)) = lo at h ⊢
    generalize (if (mn - o) * (1 / d) > (mx - o) * (1 / d) then (mn - o) * (1 / d)
      else (mx - o) * (1 / d)) = hi at h ⊢
    by_cases hle : max (Ext.fin lo) s.1 ≤ min (Ext.fin hi) s.2
    · rw [if_neg (not_not.mpr hle)] at h
      cases h
      simp only [Prod.mk.injEq, decide_eq_true_eq, and_true]
      exact hle
    · rw [if_pos hle] at h; cases h

theorem boxNearFar_of_slabs (b : B3 ℝ) (r : Ray ℝ) (s : Ext ℝ × Ext ℝ)
    (h : b.slabs r = some s) : boxNearFar b r = s := by
  unfold B3.slabs at h
  unfold boxNearFar
  cases h1 : B3.slabAxis r.origin.x r.dir.x b.min.x b.max.x (⊥, ⊤) with
  | none => rw [h1] at h; cases h
  | some s1 =>
    rw [h1] at h
    change (B3.slabAxis r.origin.y r.dir.y b.min.y b.max.y s1).bind _ = some s at h
    cases h2 : B3.slabAxis r.origin.y r.dir.y b.min.y b.max.y s1 with
    | none => rw [h2] at h; cases h
    | some s2 =>
      rw [h2] at h
      change B3.slabAxis r.origin.z r.dir.z b.min.z b.max.z s2 = some s at h
      rw [slabNF_some _ _ _ _ _ _ h1, slabNF_some _ _ _ _ _ _ h2, slabNF_some _ _ _ _ _ _ h]

end Feign.Sdf
