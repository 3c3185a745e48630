import Verif.Bsdf.Model
import Verif.Math.Ieee
import Mathlib.Algebra.Group.Int.Even

/-!
# Glossy materials with any exponent (model)

`Verif/Bsdf/Model.lean` has natural exponents. Scene files give any number (`src/parsers/json_parser.cpp:1092-1095`,
`:1119-1122`), and `powf` then need not have a finite value. Finite numbers are reals without rounding.
-/

namespace Feign.Bsdf

open Warp

open Classical in
/-- `powf(x, e)` of the C library for a finite exponent; zero has no sign here and counts as positive. -/
noncomputable def powf : Flt → ℝ → Flt
  | .nan, e => if e = 0 then .fin 1 else .nan
  | .inf s, e =>
    if e = 0 then .fin 1
    else if e < 0 then .fin 0
    else .inf (s && decide (∃ n : ℤ, Odd n ∧ e = n))
  | .fin x, e =>
    if e = 0 then .fin 1
    else if 0 < x then .fin (x ^ e)
    else if x = 0 then (if 0 < e then .fin 0 else .inf false)
    else if h : ∃ n : ℤ, e = n then .fin (x ^ h.choose)
    else .nan

/-- `Phong::evaluate`, `src/bsdfs/phong.cpp:79-84`, channel `c`. -/
noncomputable def phongEvalF (kd : V3 ℝ) (ks e : ℝ) (wi wo : V3 ℝ) (c : Fin 3) : Flt :=
  let wr : V3 ℝ := ⟨0, 0, 2 * wi.z⟩ - wi
  .fin (kd.get c * (1 / Real.pi)) + .fin (ks * (e + 2) * (1 / (2 * Real.pi))) * powf (.fin (wo.dot wr)) e

/-- `Phong::sample`, `phong.cpp:23-77`, as `Phong.sample`. The base of the power is at least `eps` there. -/
noncomputable def phongSampleR (kd : V3 ℝ) (ks e eps : ℝ) (wi : V3 ℝ) (u : V2 ℝ) : Option Sample :=
  if wi.z ≤ 0 then none
  else
    let wr : V3 ℝ := ⟨0, 0, 2 * wi.z⟩ - wi
    (Frame.ofNormal wr).map fun frame =>
      let wo := if u.x < ks then frame.toWorld (cosPowHemi ⟨u.x / ks, u.y⟩ e)
        else cosHemi ⟨(u.x - ks) / (1 - ks), u.y⟩
      let val := frame.toLocal wo
      let dotProd := max (wr.dot wo) eps
      let diffPdf := (1 - ks) * cosHemiPdf wo
      let specPdf := ks * cosPowHemiPdf val e
      let s := ks * (e + 2) * (1 / (2 * Real.pi)) * dotProd ^ e
      ⟨wo, kd.smul (1 / Real.pi) + ⟨s, s, s⟩, diffPdf + specPdf, 1⟩

open Classical in
/-- `Blinn::evaluate`, `src/bsdfs/blinn.cpp:86-100`, channel `c`. `std::max(a, b)` is `a < b ? b : a`. -/
noncomputable def blinnEvalF (kd ks : V3 ℝ) (e : ℝ) (wi wo : V3 ℝ) (c : Fin 3) : Flt :=
  if wi.z ≤ 0 then .fin 0
  else
    let wh := FV.normalized (FV.ofReal (wo + wi))
    let expVal := if wh.z.lt (.fin 0) then .fin 0 else wh.z
    .fin (kd.get c * (1 / Real.pi)) + .fin (ks.get c * (e + 2) * (1 / (2 * Real.pi))) * powf expVal e

end Feign.Bsdf
