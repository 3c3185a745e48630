import Verif.Math.VecReal
import Verif.Math.Frame
import Verif.Sampling.Warp

/-!
# Materials (model)

`src/bsdfs/*.cpp` and `fresnel`/`SQRT` of `include/feign/common.h`, over the reals with exact arithmetic. Directions
are local: the normal is `(0, 0, 1)`. A result that is not a number is `none`; comparisons with it are false, as in
C++.
-/

namespace Feign.Bsdf

open Warp

/-- What `sample` writes into the closure: direction, albedo, density and relative index of refraction. -/
structure Sample where
  wo : V3 ℝ
  albedo : V3 ℝ
  pdf : ℝ
  eta : ℝ

/-- `Diffuse::sample`, `src/bsdfs/diffuse.cpp:20-34`. `none`: black with density zero. -/
noncomputable def diffuseSample (albedo : V3 ℝ) (wi : V3 ℝ) (u : V2 ℝ) : Option Sample :=
  if wi.z ≤ 0 then none
  else
    let wo := cosHemi u
    some ⟨wo, albedo.smul (1 / Real.pi), 1 / Real.pi * wo.z, 1⟩

/-- `Diffuse::evaluate`, `diffuse.cpp:36-47`. -/
noncomputable def diffuseEval (albedo : V3 ℝ) (wi wo : V3 ℝ) : V3 ℝ :=
  if wi.z ≤ 0 ∨ wo.z ≤ 0 then 0 else albedo.smul (1 / Real.pi)

/-- `Mirror::sample`, `src/bsdfs/mirror.cpp:18-39`. -/
noncomputable def mirrorSample (albedo : V3 ℝ) (wi : V3 ℝ) : Option Sample :=
  if wi.z ≤ 0 then none else some ⟨⟨-wi.x, -wi.y, wi.z⟩, albedo, 1, 1⟩

/-- `Mirror::evaluate`, `mirror.cpp:41-51`. -/
noncomputable def mirrorEval (albedo : V3 ℝ) (wi : V3 ℝ) : V3 ℝ := if wi.z ≤ 0 then 0 else albedo

/-- `fresnel`, `include/feign/common.h:173-209`; `none` when it divides by zero (for positive indices only at
`c = 0`, where it computes `0/0`). The local `cosThetaT` is computed and not used. -/
noncomputable def fresnel (c ext int : ℝ) : Option ℝ :=
  if ext = int then some 0
  else
    let etaI := if c < 0 then int else ext
    let etaT := if c < 0 then ext else int
    let c := if c < 0 then -c else c
    if etaT = 0 then none
    else
      let eta := etaI / etaT
      let sinThetaTSqr := eta * eta * (1 - c * c)
      if sinThetaTSqr > 1 then some 1
      else if etaI * c + etaT * c = 0 then none
      else
        let rs := (etaI * c - etaT * c) / (etaI * c + etaT * c)
        let rp := (etaT * c - etaI * c) / (etaT * c + etaI * c)
        some ((rs * rs + rp * rp) / 2)

/-- `SQRT`, `common.h:242-247`; `eps` is `Epsilon` (`common.h:87`). -/
noncomputable def SQRT (eps v : ℝ) : ℝ := if v < eps then 0 else Real.sqrt v

/-- `u < p` where `p` may be no number. -/
def below (u : ℝ) (p : Option ℝ) : Prop := ∃ x, p = some x ∧ u < x

open Classical in
/-- `Dielectric::sample`, `src/bsdfs/dielectric.cpp:18-69`. -/
noncomputable def dielectricSample (eps int ext : ℝ) (albedo wi : V3 ℝ) (u : ℝ) : Sample :=
  let eta := if wi.z < 0 then int / ext else ext / int
  if below u (fresnel wi.z ext int) then ⟨⟨-wi.x, -wi.y, wi.z⟩, albedo, 1, 1⟩
  else
    let perp : V3 ℝ := (⟨-wi.x, -wi.y, 0⟩ : V3 ℝ).smul eta
    let para : V3 ℝ := ⟨0, 0, -SQRT eps (1 - perp.sqrNorm)⟩
    let wo := perp + para
    let wo : V3 ℝ := if wi.z < -eps then ⟨wo.x, wo.y, -wo.z⟩ else wo
    ⟨wo, albedo, 1, eta⟩

/-- `std::sqrt`: `none` (not a number) below zero. -/
noncomputable def sqrtF (v : ℝ) : Option ℝ := if v < 0 then none else some (Real.sqrt v)

open Classical in
/-- `OneWayDielectric::sample`, `src/bsdfs/one_way_dielectric.cpp:21-76`; `none` if the direction is not a number. -/
noncomputable def oneWaySample (eps int ext : ℝ) (albedo wi : V3 ℝ) (u : ℝ) : Option Sample :=
  let eta := if wi.z < 0 then int / ext else ext / int
  if below u (fresnel wi.z ext int) ∨ wi.z < 0 then some ⟨⟨-wi.x, -wi.y, wi.z⟩, albedo, 1, 1⟩
  else
    let perp : V3 ℝ := (⟨-wi.x, -wi.y, 0⟩ : V3 ℝ).smul eta
    match sqrtF (1 - perp.sqrNorm) with
    | none => none
    | some r =>
      let wo : V3 ℝ := perp + ⟨0, 0, -r⟩
      let wo : V3 ℝ := if wi.z < -eps then ⟨wo.x, wo.y, -wo.z⟩ else wo
      some ⟨wo, albedo, 1, eta⟩

/-- `NullBSDF::sample`, `src/bsdfs/null.cpp:18-29`; the density is left as it was (`pdf`). -/
def nullSample (wi : V3 ℝ) (pdf : ℝ) : Sample := ⟨-wi, ⟨1, 1, 1⟩, pdf, 1⟩

/-- A Phong material as its constructor leaves it, `src/bsdfs/phong.cpp:16-20`: the line
`ks *= 1.f - kd.maxValue()` changes the parameter of that name, not the member. -/
structure Phong where
  kd : V3 ℝ
  ks : ℝ
  exponent : ℕ

/-- `Phong::Phong`, `phong.cpp:16-20`. Exponents are natural numbers here, so that powers of negative numbers have
a value; for other exponents `powf` of a negative number is not a number. -/
def Phong.make (kd : V3 ℝ) (ks : ℝ) (exponent : ℕ) : Phong := ⟨kd, ks, exponent⟩

/-- `Phong::evaluate`, `phong.cpp:79-84`. -/
noncomputable def Phong.eval (m : Phong) (wi wo : V3 ℝ) : V3 ℝ :=
  let wr : V3 ℝ := ⟨0, 0, 2 * wi.z⟩ - wi
  let s := m.ks * (m.exponent + 2) * (1 / (2 * Real.pi)) * (wo.dot wr) ^ m.exponent
  m.kd.smul (1 / Real.pi) + ⟨s, s, s⟩

/-- `Phong::sample`, `phong.cpp:23-77`; `none`: black with density zero, or (never for a unit direction) a frame that
divides by zero. -/
noncomputable def Phong.sample (m : Phong) (eps : ℝ) (wi : V3 ℝ) (u : V2 ℝ) : Option Sample :=
  if wi.z ≤ 0 then none
  else
    let wr : V3 ℝ := ⟨0, 0, 2 * wi.z⟩ - wi
    (Frame.ofNormal wr).map fun frame =>
      let wo := if u.x < m.ks then frame.toWorld (cosPowHemi ⟨u.x / m.ks, u.y⟩ m.exponent)
        else cosHemi ⟨(u.x - m.ks) / (1 - m.ks), u.y⟩
      let val := frame.toLocal wo
      let dotProd := max (wr.dot wo) eps
      let diffPdf := (1 - m.ks) * cosHemiPdf wo
      let specPdf := m.ks * cosPowHemiPdf val m.exponent
      let s := m.ks * (m.exponent + 2) * (1 / (2 * Real.pi)) * dotProd ^ m.exponent
      ⟨wo, m.kd.smul (1 / Real.pi) + ⟨s, s, s⟩, diffPdf + specPdf, 1⟩

/-- `Blinn::sample`, `src/bsdfs/blinn.cpp:23-84`; `eta0` is the relative index of refraction already in the closure,
which the diffuse branch does not set. `none`: black with density zero, or (never) a frame that divides by zero. -/
noncomputable def blinnSample (kd ks : V3 ℝ) (exponent : ℕ) (eps eta0 : ℝ) (wi : V3 ℝ) (u : V2 ℝ) : Option Sample :=
  if wi.z ≤ 0 then none
  else
    let k := ks.maxValue
    let wh0 := cosPowHemi ⟨u.x / k, u.y⟩ exponent
    let wo := if u.x < k then (wh0.smul 2).smul (wh0.dot wi) - wi else cosHemi ⟨(u.x - k) / (1 - k), u.y⟩
    let eta := if u.x < k then 1 else eta0
    if (wi + wo).norm < eps then none
    else match (wi + wo).normalized with
      | none => none
      | some wh => (Frame.ofNormal wh).map fun frame =>
        let val := frame.toLocal wo
        let dotProd := max (wh.dot wo) eps
        let diffPdf := (1 - k) * cosHemiPdf val
        let specPdf := k * cosPowHemiPdf val exponent * (1 / (4 * dotProd))
        ⟨wo, kd.smul (1 / Real.pi) + ks.smul ((exponent + 2) * (1 / (2 * Real.pi)) * (max wh.z 0) ^ exponent),
          diffPdf + specPdf, eta⟩

/-- `Blinn::evaluate`, `src/bsdfs/blinn.cpp:86-100`; `none` when the half vector cannot be normalised. -/
noncomputable def blinnEval (kd ks : V3 ℝ) (exponent : ℕ) (wi wo : V3 ℝ) : Option (V3 ℝ) :=
  if wi.z ≤ 0 then some 0
  else match (wo + wi).normalized with
    | none => none
    | some wh => some (kd.smul (1 / Real.pi) +
        ks.smul ((exponent + 2) * (1 / (2 * Real.pi)) * (max wh.z 0) ^ exponent))

end Feign.Bsdf
