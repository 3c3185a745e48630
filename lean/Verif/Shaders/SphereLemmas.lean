import Verif.Shaders.Sphere
import Verif.Shaders.SphereSpec
import Verif.Math.VecRealLemmas
import Mathlib.Tactic.Ring
import Mathlib.Tactic.FieldSimp
import Mathlib.Tactic.Linarith

set_option linter.unusedSectionVars false
set_option linter.unusedSimpArgs false

namespace Feign

namespace Flt

@[simp] theorem fin_add (x y : ℝ) : fin x + fin y = fin (x + y) := rfl
@[simp] theorem fin_neg (x : ℝ) : -fin x = fin (-x) := rfl
@[simp] theorem fin_sub (x y : ℝ) : fin x - fin y = fin (x - y) := by
  show fin (x + -y) = _; rw [sub_eq_add_neg]
@[simp] theorem fin_mul (x y : ℝ) : fin x * fin y = fin (x * y) := rfl
theorem fin_div (x y : ℝ) (h : y ≠ 0) : fin x / fin y = fin (x / y) := if_neg h
theorem fin_sqrt (x : ℝ) (h : 0 ≤ x) : (fin x).sqrt = fin (Real.sqrt x) := if_neg (not_lt.2 h)

/-- Infinite or not a number. -/
def Bad : Flt → Prop
  | fin _ => False
  | _ => True

theorem bad_iff (a : Flt) : a.Bad ↔ ¬ a.IsFin := by cases a <;> simp [Bad, IsFin]

theorem Bad.neg {a : Flt} (h : a.Bad) : (-a).Bad := by
  cases a
  · exact h.elim
  · exact trivial
  · exact trivial

theorem Bad.add_right {b : Flt} (a : Flt) (h : b.Bad) : (a + b).Bad := by
  cases b with
  | fin x => exact h.elim
  | inf s =>
    cases a with
    | fin x => exact trivial
    | inf t =>
      show (if t = s then inf t else nan).Bad
      split <;> exact trivial
    | nan => exact trivial
  | nan => cases a <;> exact trivial

theorem Bad.sub_right {b : Flt} (a : Flt) (h : b.Bad) : (a - b).Bad := Bad.add_right a h.neg

theorem Bad.mul_left {a : Flt} (b : Flt) (h : a.Bad) : (a * b).Bad := by
  cases a with
  | fin x => exact h.elim
  | inf s =>
    cases b with
    | fin x =>
      show (if x = 0 then nan else inf (decide (x < 0) != s)).Bad
      split <;> exact trivial
    | inf t => exact trivial
    | nan => exact trivial
  | nan => cases b <;> exact trivial

theorem Bad.mul_right {b : Flt} (a : Flt) (h : b.Bad) : (a * b).Bad := by
  cases b with
  | fin x => exact h.elim
  | inf s =>
    cases a with
    | fin x =>
      show (if x = 0 then nan else inf (decide (x < 0) != s)).Bad
      split <;> exact trivial
    | inf t => exact trivial
    | nan => exact trivial
  | nan => cases a <;> exact trivial

theorem Bad.div_fin {a : Flt} (y : ℝ) (h : a.Bad) : (a / fin y).Bad := by
  cases a with
  | fin x => exact h.elim
  | inf s => exact trivial
  | nan => exact trivial

theorem Bad.sqrt {a : Flt} (h : a.Bad) : a.sqrt.Bad := by
  cases a with
  | fin x => exact h.elim
  | inf s => cases s <;> exact trivial
  | nan => exact trivial

theorem Bad.div_bad {a b : Flt} (ha : a.Bad) (hb : b.Bad) : (a / b).Bad := by
  cases a with
  | fin x => exact ha.elim
  | inf s =>
    cases b with
    | fin x => exact hb.elim
    | inf t => exact trivial
    | nan => exact trivial
  | nan => cases b <;> exact trivial

end Flt

namespace FV

open Flt

theorem ofReal_add (a b : V3 ℝ) : add (ofReal a) (ofReal b) = ofReal (a + b) := rfl
theorem ofReal_sub (a b : V3 ℝ) : sub (ofReal a) (ofReal b) = ofReal (a - b) := by
  simp [sub, ofReal]
theorem ofReal_smul (a : V3 ℝ) (c : ℝ) : smul (ofReal a) (.fin c) = ofReal (a.smul c) := rfl
theorem ofReal_cross (a b : V3 ℝ) : cross (ofReal a) (ofReal b) = ofReal (a.cross b) := by
  simp [cross, ofReal, V3.cross]
theorem ofReal_sqrNorm (a : V3 ℝ) : sqrNorm (ofReal a) = .fin a.sqrNorm := rfl

theorem ofReal_normalized (a : V3 ℝ) (h : a ≠ 0) : normalized (ofReal a) = ofReal (a.smul (1 / a.norm)) := by
  have hn := ne_of_gt (V3.norm_pos a h)
  have hs : (sqrNorm (ofReal a)).sqrt = .fin a.norm := by
    rw [ofReal_sqrNorm, fin_sqrt _ (V3.sqrNorm_nonneg a), V3.norm_eq]
  simp only [normalized, hs]
  simp only [ofReal, fin_div _ _ hn, V3.smul_x, V3.smul_y, V3.smul_z, mul_one_div]

end FV

namespace Shaders

open Flt Shapes

theorem unitOrUp_ofReal (n : V3 ℝ) : unitOrUp (FV.ofReal n) = FV.ofReal (direction n) := by
  have hup : up = FV.ofReal ⟨0, 1, 0⟩ := rfl
  unfold unitOrUp direction
  rw [FV.ofReal_sqrNorm]
  by_cases h : n = 0
  · have h0 : (Flt.fin n.sqrNorm).eqZero := (V3.sqrNorm_eq_zero n).2 h
    rw [if_pos h0, if_pos h, hup, FV.ofReal_normalized]
    · have : (⟨0, 1, 0⟩ : V3 ℝ).norm = 1 := by simp [V3.norm]
      rw [this]
      simp [V3.smul]
    · intro hc
      have := congrArg V3.y hc
      simp at this
  · have h0 : ¬ (Flt.fin n.sqrNorm).eqZero := fun hc => h ((V3.sqrNorm_eq_zero n).1 hc)
    rw [if_neg h0, if_neg h, FV.ofReal_normalized n h]

theorem direction_unit (n : V3 ℝ) : (direction n).sqrNorm = 1 := by
  unfold direction
  split
  · simp [V3.sqrNorm]
  · rename_i h
    have hn := ne_of_gt (V3.norm_pos n h)
    have := V3.norm_sq n
    simp only [V3.sqrNorm, V3.smul_x, V3.smul_y, V3.smul_z] at this ⊢
    field_simp
    nlinarith

theorem movePoint_ofReal (c : V3 ℝ) (r t : ℝ) (p : V3 ℝ) (h : p ≠ c) :
    movePoint (FV.ofReal c) (.fin r) (.fin t) (FV.ofReal p) = FV.ofReal (toSphere c r t p) := by
  have h' : p - c ≠ 0 := by
    intro hc
    apply h
    have hx := congrArg V3.x hc
    have hy := congrArg V3.y hc
    have hz := congrArg V3.z hc
    simp only [V3.sub_x, V3.sub_y, V3.sub_z, V3.zero_x, V3.zero_y, V3.zero_z] at hx hy hz
    ext <;> linarith
  simp only [movePoint, FV.ofReal_sub, FV.ofReal_normalized _ h', FV.ofReal_smul, FV.ofReal_add, fin_sub]
  congr 1
  unfold toSphere onSphere
  ext <;> simp only [V3.add_x, V3.add_y, V3.add_z, V3.smul_x, V3.smul_y, V3.smul_z] <;> ring

/-- The list of vectors `f 0, …, f (n - 1)`. -/
def tab (n : ℕ) (f : ℕ → V3 ℝ) : List (V3 Flt) := (List.range n).map fun i => FV.ofReal (f i)

theorem tab_get (n : ℕ) (f : ℕ → V3 ℝ) (i : ℕ) (h : i < n) : (tab n f)[i]? = some (FV.ofReal (f i)) := by
  simp [tab, h]

theorem readAt_tab (n : ℕ) (f : ℕ → V3 ℝ) (i : ℕ) (h : i < n) : readAt (tab n f) i = .ok (FV.ofReal (f i)) := by
  simp only [readAt, tab_get n f i h]

theorem addAt_tab (n : ℕ) (f : ℕ → V3 ℝ) (i : ℕ) (v : V3 ℝ) (h : i < n) :
    addAt (tab n f) i (FV.ofReal v) = .ok (tab n fun j => f j + v.smul (if i = j then 1 else 0)) := by
  simp only [addAt, tab_get n f i h]
  congr 1
  apply List.ext_getElem?
  intro j
  by_cases hj : j < n
  · rw [tab_get _ _ _ hj]
    by_cases hij : i = j
    · subst hij
      rw [List.getElem?_set_self (by simpa [tab] using hj), FV.ofReal_add]
      congr 2
      ext <;> simp
    · rw [List.getElem?_set_ne hij, tab_get _ _ _ hj]
      congr 2
      ext <;> simp [hij]
  · have h1 : n ≤ j := not_lt.1 hj
    rw [List.getElem?_eq_none (by simpa [tab] using h1), List.getElem?_eq_none (by simpa [tab] using h1)]

/-- Every index of the face is in range. -/
def InRange (nv nn : ℕ) (f : Face) : Prop := ∀ k, f.v k < nv ∧ f.n k < nn

theorem accumulate_tab (nv nn : ℕ) (pos : ℕ → V3 ℝ) (fs : List Face) (h : ∀ f ∈ fs, InRange nv nn f)
    (acc : ℕ → V3 ℝ) :
    accumulate (tab nv pos) fs (tab nn acc) = .ok (tab nn fun j => acc j + normalSum pos fs j) := by
  induction fs generalizing acc with
  | nil =>
    simp only [accumulate, normalSum]
    congr 2
    funext j
    ext <;> simp
  | cons f fs ih =>
    have hf := h f (List.mem_cons_self ..)
    have hn : unitOrUp (FV.cross (FV.sub (FV.ofReal (pos (f.v 1))) (FV.ofReal (pos (f.v 0))))
        (FV.sub (FV.ofReal (pos (f.v 2))) (FV.ofReal (pos (f.v 0))))) = FV.ofReal (faceNormal pos f) := by
      rw [FV.ofReal_sub, FV.ofReal_sub, FV.ofReal_cross, unitOrUp_ofReal]
      rfl
    simp only [accumulate, readAt_tab _ _ _ (hf 0).1, readAt_tab _ _ _ (hf 1).1, readAt_tab _ _ _ (hf 2).1, Res.bind_ok, hn,
      addAt_tab _ _ _ _ (hf 0).2, addAt_tab _ _ _ _ (hf 1).2, addAt_tab _ _ _ _ (hf 2).2]
    rw [ih fun g hg => h g (List.mem_cons_of_mem _ hg)]
    congr 2
    funext j
    simp only [normalSum, uses]
    push_cast
    ext <;> simp only [V3.add_x, V3.add_y, V3.add_z, V3.smul_x, V3.smul_y, V3.smul_z] <;> ring

/-- No component is finite. -/
def AllBad (v : V3 Flt) : Prop := v.x.Bad ∧ v.y.Bad ∧ v.z.Bad

theorem AllBad.add_right {b : V3 Flt} (a : V3 Flt) (h : AllBad b) : AllBad (FV.add a b) :=
  ⟨h.1.add_right _, h.2.1.add_right _, h.2.2.add_right _⟩

theorem AllBad.smul_left {a : V3 Flt} (c : Flt) (h : AllBad a) : AllBad (FV.smul a c) :=
  ⟨h.1.mul_left _, h.2.1.mul_left _, h.2.2.mul_left _⟩

theorem allBad_smul_bad (a : V3 Flt) {c : Flt} (h : c.Bad) : AllBad (FV.smul a c) :=
  ⟨h.mul_right _, h.mul_right _, h.mul_right _⟩

theorem allBad_sub {b : V3 Flt} (a : V3 Flt) (h : AllBad b) : AllBad (FV.sub a b) :=
  ⟨h.1.sub_right _, h.2.1.sub_right _, h.2.2.sub_right _⟩

theorem allBad_normalized {a : V3 Flt} (h : AllBad a) : AllBad (FV.normalized a) := by
  have hn : (FV.sqrNorm a).sqrt.Bad := Bad.sqrt (Bad.add_right _ (h.2.2.mul_left _))
  exact ⟨h.1.div_bad hn, h.2.1.div_bad hn, h.2.2.div_bad hn⟩

/-- What makes the shader fail: the centre is not finite, or the centre is the origin and the radius is not finite. -/
def Broken (s : SphereShader) (st : ObjState) : Prop :=
  AllBad st.center ∨ (st.center = FV.ofReal 0 ∧ (sphereRadius s st).Bad)

theorem bad_add_fin {a : Flt} (y : ℝ) (h : a.Bad) : (a + .fin y).Bad := by
  cases a with
  | fin x => exact h.elim
  | inf s => exact trivial
  | nan => exact trivial

theorem movePoint_bad {s : SphereShader} {st : ObjState} (h : Broken s st) (t : Flt) (p : V3 Flt) :
    AllBad (movePoint st.center (sphereRadius s st) t p) := by
  apply AllBad.add_right
  apply AllBad.smul_left
  rcases h with h | ⟨hc, hr⟩
  · exact AllBad.add_right _ h
  · rw [hc]
    have := allBad_smul_bad (FV.normalized (FV.sub p (FV.ofReal 0))) hr
    exact ⟨bad_add_fin _ this.1, bad_add_fin _ this.2.1, bad_add_fin _ this.2.2⟩

theorem foldl_add_bad (vs : List (V3 Flt)) (h : ∀ v ∈ vs, AllBad v) (a : V3 Flt) (hne : vs ≠ [] ∨ AllBad a) :
    AllBad (vs.foldl FV.add a) := by
  induction vs generalizing a with
  | nil => exact hne.resolve_left (fun h => h rfl)
  | cons v vs ih =>
    exact ih (fun w hw => h w (List.mem_cons_of_mem _ hw)) _
      (.inr (AllBad.add_right _ (h v (List.mem_cons_self ..))))

theorem computeCentroid_bad (vs : List (V3 Flt)) (h : ∀ v ∈ vs, AllBad v) : AllBad (computeCentroid vs) := by
  cases vs with
  | nil =>
    have : (Flt.fin 0 / Flt.fin ((0 : ℕ) : ℝ)).Bad := by
      show (if ((0 : ℕ) : ℝ) = 0 then (if (0 : ℝ) = 0 then nan else _) else _ : Flt).Bad
      rw [if_pos (by simp), if_pos rfl]
      exact trivial
    exact ⟨this, this, this⟩
  | cons v vs =>
    have := foldl_add_bad (v :: vs) h ⟨.fin 0, .fin 0, .fin 0⟩ (.inl (by simp))
    exact ⟨this.1.div_fin _, this.2.1.div_fin _, this.2.2.div_fin _⟩

theorem evaluate_vs {s : SphereShader} {st st' : ObjState} (h : evaluate s st = .ok st') :
    st'.vs = st.vs.map (movePoint st.center (sphereRadius s st) (.fin s.interp)) := by
  simp only [evaluate, Res.bind_eq_ok, Res.pure_eq] at h
  obtain ⟨n, -, h⟩ := h
  injection h with h
  rw [← h]

theorem preProcess_bad {s : SphereShader} {st st' : ObjState} {file : Mesh ℝ} {req : Bool} (hb : Broken s st)
    (h : preProcess (some s) st file req = .ok st') :
    st'.vs.length = file.vs.length ∧ (∀ v ∈ st'.vs, AllBad v) ∧ AllBad st'.center := by
  simp only [preProcess, Res.bind_eq_ok] at h
  obtain ⟨st1, h1, h⟩ := h
  have hvs := evaluate_vs h1
  have hbad : ∀ v ∈ st1.vs, AllBad v := by
    intro v hv
    rw [hvs] at hv
    obtain ⟨p, -, rfl⟩ := List.mem_map.1 hv
    exact movePoint_bad (s := s) (st := { st with vs := file.vs.map FV.ofReal, ns := file.ns.map FV.ofReal, tris := file.tris }) hb _ p
  have hlen : st1.vs.length = file.vs.length := by rw [hvs]; simp
  have hc := computeCentroid_bad st1.vs hbad
  split at h
  all_goals injection h with h; rw [← h]
  all_goals exact ⟨hlen, hbad, hc⟩

theorem fresh_broken (s : SphereShader) : Broken s .fresh := by
  right
  refine ⟨rfl, ?_⟩
  have : ∀ i, ((FV.sub ObjState.fresh.boxMax ObjState.fresh.boxMin).get i).Bad := by
    intro i
    have h : ∀ x : Flt, (x - Flt.inf false).Bad := fun x => Bad.sub_right x trivial
    match i with
    | 0 => exact h _
    | 1 => exact h _
    | 2 => exact h _
  exact (this _).mul_left _

end Shaders
end Feign
