import Verif.Parser.DrawnSpec
import Verif.Parser.ExecRenderProps
import Mathlib.Data.List.Perm.Basic

/-! # Lemmas for C135: following pointers and following names -/

set_option linter.unusedSectionVars false
set_option linter.unusedSimpArgs false
set_option linter.unusedVariables false

namespace Feign.Parser

open Api (Key Kind ADef ANode AScene Desc ref fresh closure reserved St Def Ptr Asm)

/-- The shape built is the one described. -/
theorem solid_of {p : MeshP ℝ} {t : Sdf.Shape} (h : Shaped p t) : p.solid = some t := by
  have hb : ∀ b : BoundaryP, b.Bare → b.plain = true := by
    rintro ⟨i, o, n⟩ ⟨h1, h2, h3⟩
    simp only at h1 h2 h3
    subst h1 h2 h3
    rfl
  cases h <;> rename_i h <;> exact if_pos (hb _ h)

/-- The look built is the one described. -/
theorem look_of {p : BsdfP ℝ} {t : Sdf.Look} (h : Coloured p t) : p.look = some t := by
  cases h <;> rfl

/-- The lights built are those described. -/
theorem lights_of {cs : List (Call ℝ)} {lamps : List Integrators.Lamp} {skies : List (V3 ℝ)} (h : LitBy cs lamps skies) :
    ∃ ls, List.Forall₂ (fun c l => c.light = some l) cs ls ∧ lamps = lampsOf ls ∧ skies = skiesOf ls := by
  induction h with
  | nil => exact ⟨[], .nil, rfl, rfl⟩
  | @lamp cs ls ss n ty i p _ ih =>
    obtain ⟨xs, h1, rfl, rfl⟩ := ih
    exact ⟨.lamp (i, p) :: xs, .cons rfl h1, rfl, rfl⟩
  | @sky cs ls ss n ty i t ht _ ih =>
    obtain ⟨xs, h1, rfl, rfl⟩ := ih
    refine ⟨.sky i :: xs, .cons ?_ h1, rfl, rfl⟩
    rcases ht with rfl | rfl <;> rfl

variable {T : Type}

theorem mapM_of_forall₂ {α β : Type} {f : α → Option β} : ∀ {l : List α} {r : List β},
    List.Forall₂ (fun a b => f a = some b) l r → l.mapM f = some r
  | [], [], _ => rfl
  | a :: l, b :: r, h => by
    cases h with
    | cons h1 h2 => rw [List.mapM_cons, h1, mapM_of_forall₂ h2]; rfl

/-- A name that is declared is defined as declared, and its node is found. -/
theorem declared_node {s : St (Call ℝ) T} (hI : Api.Inv s) {one : T} {l : List (Entry ℝ T)}
    (hv : s.view = describe one l) (hl : l.Pairwise Apart) (ha : ∀ p ∈ l, Alone p) {e : Entry ℝ T} (he : e ∈ l) {k : Key}
    (hk : e.2.key = some k) (hr : reserved k.1 k.2 = false) :
    ∃ p d, s.lookup k.1 k.2 = some p ∧ defOf s (some p) = some d ∧ s.viewDef d = built e.1 e.2 ∧
      ∀ q, some q ∈ d.refs → q < s.nodes.length := by
  have hd : definedAs l k = some (built e.1 e.2) := (definedAs_some hl).2 ⟨e, he, hk, rfl⟩
  have hen : s.view.entry k = some ⟨some (built e.1 e.2), ownerOf l k⟩ := by
    rw [hv, entry_iff]
    refine ⟨mem_closure_of (talks_key' (List.mem_map_of_mem he) hk), hr, ?_⟩
    rw [hd, Option.some_or]
  obtain ⟨p, nd, hlk, hn, hnd⟩ := (Api.lookup_entry hI).1 hen
  have hp : nd.payload.map s.viewDef = some (built e.1 e.2) := (congrArg ANode.payload hnd).symm
  obtain ⟨d, hd1, hd2⟩ := Option.map_eq_some_iff.1 hp
  exact ⟨p, d, hlk, by simp [defOf, hn, hd1], hd2, fun q hq => hI.refs p nd d hn hd1 q hq⟩

/-- A pointer whose name is known. -/
theorem ptr_of_key {s : St (Call ℝ) T} (hI : Api.Inv s) {r : Ptr} {k : Key} (h : s.key r = some k) :
    s.lookup k.1 k.2 = r := by
  unfold St.key at h
  obtain ⟨nd, hn, rfl⟩ := Option.map_eq_some_iff.1 h
  cases r with
  | none => simp at hn
  | some q => exact hI.lookup_of_node hn

theorem reserved_of {k : Key} (h : k ∉ takenNames) (h2 : k.1 = .object ∨ k.1 = .mesh ∨ k.1 = .matShader ∨ k.1 = .bsdf ∨
    k.1 = .emitter ∨ k.1 = .camera ∨ k.1 = .integrator ∨ k.1 = .sampler) : reserved k.1 k.2 = false := by
  obtain ⟨k, n⟩ := k
  rcases h2 with h2 | h2 | h2 | h2 | h2 | h2 | h2 | h2 <;> simp only at h2 <;> subst h2 <;>
    simp_all [reserved, takenNames]

section
variable {s : St (Call ℝ) T} (hI : Api.Inv s) {one : T} {l : List (Entry ℝ T)}
  (hv : s.view = describe one l) (hl : l.Pairwise Apart) (ha : ∀ p ∈ l, Alone p)
include hI hv hl ha

theorem node_of {c : Call ℝ} (hc : c ∈ l.map (·.2)) {k : Key} (hk : c.key = some k)
    (h2 : k.1 = .object ∨ k.1 = .mesh ∨ k.1 = .matShader ∨ k.1 = .bsdf ∨
      k.1 = .emitter ∨ k.1 = .camera ∨ k.1 = .integrator ∨ k.1 = .sampler) :
    ∃ x p d, (x, c) ∈ l ∧ s.lookup k.1 k.2 = some p ∧ defOf s (some p) = some d ∧ s.viewDef d = built x c ∧
      ∀ q, some q ∈ d.refs → q < s.nodes.length := by
  obtain ⟨⟨x, c'⟩, he, rfl⟩ := List.mem_map.1 hc
  obtain ⟨p, d, h1⟩ := declared_node hI hv hl ha he hk (reserved_of ((ha _ he).1 k hk) h2)
  exact ⟨x, p, d, he, h1⟩

/-- A pointer to a declared name leads to the definition. -/
theorem follow {c : Call ℝ} (hc : c ∈ l.map (·.2)) {k : Key} (hk : c.key = some k) {r : Ptr} (hr : s.key r = some k)
    (h2 : k.1 = .object ∨ k.1 = .mesh ∨ k.1 = .matShader ∨ k.1 = .bsdf ∨
      k.1 = .emitter ∨ k.1 = .camera ∨ k.1 = .integrator ∨ k.1 = .sampler) :
    ∃ x d, (x, c) ∈ l ∧ defOf s r = some d ∧ s.viewDef d = built x c ∧ ∀ q, some q ∈ d.refs → q < s.nodes.length := by
  obtain ⟨x, p, d, h1, h3, h4, h5, h6⟩ := node_of hI hv hl ha hc hk h2
  have := ptr_of_key hI hr
  rw [h3] at this
  exact ⟨x, d, h1, this ▸ h4, h5, h6⟩

/-- The object whose declaration is made of this shape and these colours. -/
theorem object_parts {c : Call ℝ} (hc : c ∈ l.map (·.2)) {t : Sdf.Shape × Sdf.Look} (hm : Made (l.map (·.2)) c t)
    {o : Nat} {n me sh e : String} (hcc : c = .object n me sh e) (ho : s.lookup .object n = some o) :
    ∃ m, s.meshOf o = some m ∧ s.lookup .mesh me = some m ∧ lookOf s o = some t.2 ∧
      (defOf s (some m)).bind (fun d => d.data.bind Call.solid) = some t.1 := by
  obtain ⟨n', me', sh', e', p, b, bp, hc', hem, hmesh, hsol, hsh, hb, hlook⟩ := hm
  replace hsol := solid_of hsol
  replace hlook := look_of hlook
  rw [hcc, Call.object.injEq] at hc'
  obtain ⟨rfl, rfl, rfl, rfl⟩ := hc'
  obtain ⟨x, o', d, hx, hlo, hdo, hvd, hrefs⟩ := node_of hI hv hl ha hc (k := (.object, n)) (by rw [hcc]; rfl) (Or.inl rfl)
  rw [show s.lookup (Kind.object, n).1 (Kind.object, n).2 = s.lookup .object n from rfl, ho, Option.some.injEq] at hlo
  subst hlo
  rw [hcc] at hvd
  have hr : d.refs.map s.key = [some (.mesh, me), some (.matShader, sh), none] := by
    have := congrArg ADef.refs hvd
    simp only [St.viewDef, built, if_pos hem] at this
    exact this
  have hxf : d.xf = some x := congrArg ADef.xf hvd
  obtain ⟨r1, r2, r3, hd⟩ : ∃ r1 r2 r3, d.refs = [r1, r2, r3] := by
    have hlen := congrArg List.length hr
    simp only [List.length_map, List.length_cons, List.length_nil] at hlen
    exact List.length_eq_three.1 hlen
  rw [hd] at hr
  simp only [List.map_cons, List.map_nil, List.cons.injEq, and_true] at hr
  obtain ⟨k1, k2, k3⟩ := hr
  have hr3 : r3 = none := (Api.key_none (fun q hq => hrefs q (by rw [hd, hq]; simp))).1 k3
  have hm1 := ptr_of_key hI k1
  obtain ⟨x1, d1, -, hd1, hv1, -⟩ := follow hI hv hl ha hmesh (k := (.mesh, me)) rfl k1 (by simp)
  obtain ⟨x2, d2, -, hd2, hv2, -⟩ := follow hI hv hl ha hsh (k := (.matShader, sh)) rfl k2 (by simp)
  have hty2 : d2.type = "simple_material" := congrArg ADef.type hv2
  have hr2 : d2.refs.map s.key = [ref (.bsdf, b)] := by
    have := congrArg ADef.refs hv2
    exact this
  obtain ⟨q2, hq2⟩ : ∃ q, d2.refs = [q] := by
    have hlen := congrArg List.length hr2
    simp only [List.length_map, List.length_cons, List.length_nil] at hlen
    exact List.length_eq_one_iff.1 hlen
  rw [hq2] at hr2
  have kq : s.key q2 = some (.bsdf, b) := by
    simpa [ref, reserved] using hr2
  obtain ⟨x3, d3, -, hd3, hv3, -⟩ := follow hI hv hl ha hb (k := (.bsdf, b)) rfl kq (by simp)
  have hdat3 : d3.data = some (.bsdf b bp.type bp) := congrArg ADef.data hv3
  have hdat1 : d1.data = some (.mesh me p.type p) := congrArg ADef.data hv1
  cases hr1 : r1 with
  | none => rw [hr1] at k1; simp [St.key] at k1
  | some m =>
    rw [hr1] at hm1 hd1
    have hobj : s.object o = some (m, x) := by
      unfold defOf at hdo
      obtain ⟨nd, hn, hpay⟩ := Option.bind_eq_some_iff.1 hdo
      simp only [Option.bind_some] at hn
      simp [St.object, hn, hpay, hd, hr1, hxf]
    refine ⟨m, by simp [St.meshOf, hobj], hm1, ?_, ?_⟩
    · unfold lookOf
      rw [hdo]
      simp only [Option.bind_eq_bind, Option.bind_some, hd, hr3, List.getElem?_cons_succ, List.getElem?_cons_zero,
        if_true, Option.join_some]
      rw [hd2]
      simp only [Option.bind_some, hty2, if_true, hq2, List.head?_cons, Option.join_some]
      rw [hd3]
      simp only [Option.bind_some, hdat3, Call.look, hlook]
    · rw [hd1]
      simp only [Option.bind_some, hdat1, Call.solid, hsol]

end

/-- Rendering starts only if the objects could be put together. -/
theorem flush_assembled {D : Type} {mul : T → T → T} {one : T} {s : St D T} {os es ms : List Nat} {a : Asm T}
    (h : Api.flush true mul one s os es ms = (.ok, a)) : Api.assemble mul s os (Asm.init one) = (.ok, a) := by
  unfold Api.flush at h
  split at h
  · simp at h
  · split at h
    · simp at h
    · cases ha : Api.assemble mul s os (Asm.init one) with
      | mk o a' =>
        rw [ha] at h
        cases o with
        | ok =>
          simp only at h
          split at h <;> [simp at h; skip]
          split at h <;> [simp at h; skip]
          split at h <;> [simp at h; skip]
          split at h <;> [simp at h; skip]
          split at h <;> [simp at h; skip]
          split at h <;> [simp at h; skip]
          split at h <;> [simp at h; skip]
          split at h
          · simp only [Prod.mk.injEq, true_and] at h; rw [h]
          · simp at h
        | _ => simp at h

/-- A name is declared once. -/
theorem same_key {l : List (Entry ℝ T)} (hl : l.Pairwise Apart) {p q : Entry ℝ T} (hp : p ∈ l) (hq : q ∈ l) {k : Key}
    (h1 : p.2.key = some k) (h2 : q.2.key = some k) : p = q := by
  by_contra hne
  have hs : Std.Symm (Apart (F := ℝ) (T := T)) := ⟨fun _ _ h => h.symm⟩
  exact (hl.forall hp hq hne).1 k h1 h2

theorem same_call {l : List (Entry ℝ T)} (hl : l.Pairwise Apart) {c c' : Call ℝ} (hp : c ∈ l.map (·.2)) (hq : c' ∈ l.map (·.2))
    {k : Key} (h1 : c.key = some k) (h2 : c'.key = some k) : c = c' := by
  obtain ⟨p, hp1, rfl⟩ := List.mem_map.1 hp
  obtain ⟨q, hq1, rfl⟩ := List.mem_map.1 hq
  rw [same_key hl hp1 hq1 h1 h2]

theorem api_object {c : Call ℝ} (h : c.api = "object") : ∃ n me sh e, c = .object n me sh e := by
  cases c <;> simp [Call.api] at h
  exact ⟨_, _, _, _, rfl⟩

theorem api_emitter {c : Call ℝ} (h : c.api = "emitter") : ∃ n t p, c = .emitter n t p := by
  cases c <;> simp [Call.api] at h
  exact ⟨_, _, _, rfl⟩

section
variable {s : St (Call ℝ) T} (hI : Api.Inv s) {one : T} {l : List (Entry ℝ T)}
  (hv : s.view = describe one l) (hl : l.Pairwise Apart) (ha : ∀ p ∈ l, Alone p)
include hI hv hl ha

/-- The node of an object comes from a declaration. -/
theorem object_from {o : Nat} {n : String} (ho : s.lookup .object n = some o) (hm : ∃ m, s.meshOf o = some m) :
    ∃ me sh e, .object n me sh e ∈ l.map (·.2) := by
  obtain ⟨nd, hn, hk, hnm⟩ := (hI.look _ _ _).1 ho
  have hen := Api.entry_some (k := (.object, n)) ho hn
  rw [hv, entry_iff] at hen
  obtain ⟨-, -, hnode⟩ := hen
  obtain ⟨m, hm⟩ := hm
  have hp : ∃ d, nd.payload = some d := by
    cases hpp : nd.payload with
    | some d => exact ⟨d, rfl⟩
    | none => simp [St.meshOf, St.object, hn, hpp] at hm
  obtain ⟨d, hd⟩ := hp
  have := congrArg ANode.payload hnode
  rw [payload_plain (by simp)] at this
  simp only [St.viewNode, hd, Option.map_some] at this
  obtain ⟨p, hp, hk, -⟩ := (definedAs_some hl).1 this.symm
  obtain ⟨me, sh, e, he⟩ := key_object hk
  exact ⟨me, sh, e, he ▸ List.mem_map_of_mem hp⟩

/-- The things drawn are the objects of the file, in some order. -/
theorem things_drawn (mul : T → T → T) (one' : T) {os : List Nat} (ho : Api.IsOrder s .object os) {a : Asm T}
    (h : Api.assemble mul s os (Asm.init one') = (.ok, a)) {ts : List (Sdf.Shape × Sdf.Look)}
    (hts : List.Forall₂ (Made (l.map (·.2))) ((l.map (·.2)).filter fun c => c.api = "object") ts)
    (hown : ∀ n me sh e n' sh' e', .object n me sh e ∈ l.map (·.2) → .object n' me sh' e' ∈ l.map (·.2) → n = n') :
    ∃ ts', a.shapes.mapM (thing s a) = some ts' ∧ ts'.Perm ts := by
  have hok := Api.assemble_ok os h
  have hob : a.objects = os := by rw [hok.objects]; simp [Asm.init]
  have hshp : a.shapes.map some = os.map s.meshOf := by rw [hok.shapes]; simp [Asm.init]
  have hmade : ∀ c ∈ l.map (·.2), c.api = "object" → ∃ t, Made (l.map (·.2)) c t := by
    intro c hc hapi
    have : c ∈ (l.map (·.2)).filter fun c => c.api = "object" := List.mem_filter.2 ⟨hc, by simpa using hapi⟩
    obtain ⟨i, hi, rfl⟩ := List.mem_iff_getElem.1 this
    have hf := List.forall₂_iff_get.1 hts
    exact ⟨_, hf.2 i hi (hf.1 ▸ hi)⟩
  have : Nonempty (Call ℝ) := ⟨.flush⟩
  have hcall : ∀ o ∈ os, ∃ c, c ∈ l.map (·.2) ∧ ∃ n me sh e, c = .object n me sh e ∧ s.lookup .object n = some o := by
    intro o hoo
    obtain ⟨n, hn⟩ := (ho.2 o).1 hoo
    obtain ⟨m, hm, -⟩ := hok.defined o hoo
    obtain ⟨me, sh, e, he⟩ := object_from hI hv hl ha hn ⟨m, hm⟩
    exact ⟨_, he, n, me, sh, e, rfl, hn⟩
  choose! call hc1 hc2 using hcall
  have hperm : (os.map call).Perm ((l.map (·.2)).filter fun c => c.api = "object") := by
    rw [List.perm_ext_iff_of_nodup]
    · intro c
      rw [List.mem_map, List.mem_filter]
      constructor
      · rintro ⟨o, hoo, rfl⟩
        obtain ⟨n, me, sh, e, he, -⟩ := hc2 o hoo
        exact ⟨hc1 o hoo, by rw [he]; simp [Call.api]⟩
      · rintro ⟨hc, hapi⟩
        obtain ⟨n, me, sh, e, rfl⟩ := api_object (by simpa using hapi)
        obtain ⟨x, p, d, -, hlp, -⟩ := node_of hI hv hl ha hc (k := (.object, n)) rfl (Or.inl rfl)
        have hpo : p ∈ os := (ho.2 p).2 ⟨n, hlp⟩
        obtain ⟨n', me', sh', e', he', hl'⟩ := hc2 p hpo
        have hnn : n' = n := by
          obtain ⟨nd, h1, -, h2⟩ := (hI.look _ _ _).1 hl'
          obtain ⟨nd', h3, -, h4⟩ := (hI.look _ _ _).1 hlp
          rw [h1, Option.some.injEq] at h3
          subst h3
          rw [← h2, h4]
        exact ⟨p, hpo, same_call hl (hc1 p hpo) hc (k := (.object, n)) (by rw [he', hnn]; rfl) rfl⟩
    · refine List.Nodup.map_on ?_ ho.1
      intro o hoo o' hoo' he
      obtain ⟨n, me, sh, e, h1, h2⟩ := hc2 o hoo
      obtain ⟨n', me', sh', e', h1', h2'⟩ := hc2 o' hoo'
      rw [h1, h1', Call.object.injEq] at he
      rw [he.1] at h2
      rw [h2, Option.some.injEq] at h2'
      exact h2'
    · have : (l.map (·.2)).Pairwise fun c c' => ∀ k, c.key = some k → c'.key ≠ some k := by
        rw [List.pairwise_map]
        exact hl.imp fun h => h.1
      refine (this.filter _).imp_of_mem ?_
      intro c c' hc hc' hh e
      obtain ⟨n, me, sh, em, rfl⟩ := api_object (by simpa using (List.mem_filter.1 hc).2)
      exact hh (.object, n) rfl (by rw [← e]; rfl)
  obtain ⟨ts', hf, hp⟩ := List.perm_comp_forall₂ hperm hts
  refine ⟨ts', mapM_of_forall₂ ?_, hp⟩
  rw [List.forall₂_iff_get] at hf ⊢
  have hlen : a.shapes.length = os.length := by simpa using congrArg List.length hshp
  have hflen : os.length = ts'.length := by simpa using hf.1
  refine ⟨by rw [hlen, hflen], fun i h1 h2 => ?_⟩
  have hi : i < os.length := hlen ▸ h1
  have hmk := hf.2 i (by simpa using hi) h2
  simp only [List.get_eq_getElem, List.getElem_map] at hmk ⊢
  have hoo : os[i] ∈ os := List.getElem_mem hi
  obtain ⟨n, me, sh, e, hce, hlo⟩ := hc2 _ hoo
  obtain ⟨m, hm, hlm, hlook, hsol⟩ := object_parts hI hv hl ha (hc1 _ hoo) hmk hce hlo
  have hsm : a.shapes[i] = m := by
    have := congrArg (fun l => l[i]?) hshp
    simp only [List.getElem?_map, List.getElem?_eq_getElem h1, List.getElem?_eq_getElem hi, Option.map_some, hm,
      Option.some.injEq] at this
    exact this
  have hshade : a.shadedAs m = some os[i] := by
    rw [Api.instance_resolves_iff mul one' ho.1 h (List.getElem?_eq_getElem hi) hm]
    intro j' o' hjj' ho' hm'
    have hoo' : o' ∈ os := List.mem_of_getElem? ho'
    obtain ⟨n', me', sh', e', hce', hlo'⟩ := hc2 _ hoo'
    obtain ⟨t', ht'⟩ := hmade _ (hc1 _ hoo') (by rw [hce']; rfl)
    obtain ⟨m', hm2, hlm', -⟩ := object_parts hI hv hl ha (hc1 _ hoo') ht' hce' hlo'
    rw [hm', Option.some.injEq] at hm2
    subst hm2
    have hme : me' = me := by
      obtain ⟨nd, g1, -, g2⟩ := (hI.look _ _ _).1 hlm
      obtain ⟨nd', g3, -, g4⟩ := (hI.look _ _ _).1 hlm'
      rw [g1, Option.some.injEq] at g3
      subst g3
      rw [← g4, g2]
    have hnn := hown n me sh e n' sh' e' (hce ▸ hc1 _ hoo) (by rw [← hme, ← hce']; exact hc1 _ hoo')
    rw [← hnn, hlo, Option.some.injEq] at hlo'
    obtain ⟨hj', hj2⟩ := List.getElem?_eq_some_iff.1 ho'
    have := (List.Nodup.getElem_inj_iff ho.1 (hi := hi) (hj := hj')).1 (by rw [hj2, hlo'])
    omega
  rw [hsm]
  unfold thing
  obtain ⟨dm, hdm, hdm2⟩ := Option.bind_eq_some_iff.1 hsol
  simp only [Option.bind_eq_bind, hdm, Option.bind_some, hdm2, hshade, hlook, Option.pure_def]

/-- The lights are those of the file, in its order. -/
theorem lights_drawn {ls : List Light}
    (hls : List.Forall₂ (fun c x => c.light = some x) ((l.map (·.2)).filter fun c => c.api = "emitter") ls) :
    (s.lights.mapM fun p => (defOf s (some p)).bind fun d => d.data.bind Call.light) = some ls := by
  have hall : ∀ {α β : Type} (f : α → Option β) (l : List α), (∀ x ∈ l, (f x).isSome) → (l.filterMap f).map some = l.map f := by
    intro α β f l
    induction l with
    | nil => intro _; rfl
    | cons x l ih =>
      intro h
      obtain ⟨y, hy⟩ := Option.isSome_iff_exists.1 (h x List.mem_cons_self)
      rw [List.filterMap_cons, hy, List.map_cons, List.map_cons, hy, ih fun z hz => h z (List.mem_cons_of_mem _ hz)]
  have hvl : s.lights.filterMap (fun p => s.key (some p)) =
      ((l.map (·.2)).filter fun c => c.api = "emitter").filterMap Call.key := by
    have : s.lights.filterMap (fun p => s.key (some p)) = (describe one l).lights := congrArg Desc.lights hv
    rw [this, List.filterMap_filter, List.filterMap_map]
    simp only [describe]
    refine List.filterMap_congr fun p _ => ?_
    simp
  have hmf : ∀ c ∈ (l.map (·.2)).filter (fun c => c.api = "emitter"), c ∈ l.map (·.2) ∧ c.api = "emitter" := by
    intro c hc
    obtain ⟨h1, h2⟩ := List.mem_filter.1 hc
    exact ⟨h1, by simpa using h2⟩
  generalize (l.map (·.2)).filter (fun c => c.api = "emitter") = em at hls hvl hmf
  have hk : s.lights.map (fun p => s.key (some p)) = em.map Call.key := by
    rw [← hall _ em, ← hall _ s.lights, hvl]
    · intro p hp
      have := hI.lights p hp
      simp [St.key, St.node, List.getElem?_eq_getElem this]
    · intro c hc
      obtain ⟨n, t, p, rfl⟩ := api_emitter (hmf c hc).2
      rfl
  refine mapM_of_forall₂ ?_
  rw [List.forall₂_iff_get] at hls ⊢
  have hlen : s.lights.length = em.length := by
    simpa using congrArg List.length hk
  refine ⟨hlen.trans hls.1, fun i h1 h2 => ?_⟩
  have hi := hlen ▸ h1
  have hx := hls.2 i hi h2
  simp only [List.get_eq_getElem] at hx ⊢
  have hki : s.key (some s.lights[i]) = em[i].key := by
    have := congrArg (fun l => l[i]?) hk
    simp only [List.getElem?_map, List.getElem?_eq_getElem h1, List.getElem?_eq_getElem hi, Option.map_some,
      Option.some.injEq] at this
    exact this
  obtain ⟨hm1, hm2⟩ := hmf _ (List.getElem_mem hi)
  obtain ⟨n, t, p, he⟩ := api_emitter hm2
  rw [he] at hki hx hm1
  obtain ⟨x, d, -, hd, hvd, -⟩ := follow hI hv hl ha hm1 (k := (.emitter, n)) rfl hki (by simp)
  have : d.data = some (.emitter n t p) := congrArg ADef.data hvd
  rw [hd]
  simp only [Option.bind_some, this]
  exact hx

/-- The settings are those of the scene section. -/
theorem scene_drawn {name i sa cam med kw ds : String} {sdf : Bool} (hsc : .scene name i sa cam med kw ds sdf ∈ l.map (·.2))
    (hmed : med = "" ∨ med = "null" ∨ med = "default") :
    s.sdfOnly = sdf ∧ ∃ sc, s.scene = some sc ∧ sc.media = none ∧ s.key sc.camera = some (.camera, cam) ∧
      s.key sc.integrator = some (.integrator, i) ∧ s.key sc.sampler = some (.sampler, sa) := by
  obtain ⟨p, hp, hpc⟩ := List.mem_map.1 hsc
  have hpair : ∀ {β : Type} (f : Call ℝ → Option β), (∀ c : Call ℝ, c.api ≠ "scene" → f c = none) →
      l.Pairwise fun a b => f a.2 = none ∨ f b.2 = none := by
    intro β f hf
    refine hl.imp fun {a b} h => ?_
    by_cases hs : a.2.api = "scene"
    · exact Or.inr (hf _ (h.2 hs))
    · exact Or.inl (hf _ hs)
  have h1 : l.findSome? (fun p => settings p.2) = settings (.scene name i sa cam med kw ds sdf) := by
    rw [(findSome_unique (hpair settings fun c h => (settings_api h).1) _).2 ⟨p, hp, by rw [hpc]; rfl⟩]
    rfl
  have h2 : l.findSome? (fun p => modeOf p.2) = some sdf :=
    (findSome_unique (hpair modeOf fun c h => (settings_api h).2) _).2 ⟨p, hp, by rw [hpc]; rfl⟩
  refine ⟨?_, ?_⟩
  · have : s.sdfOnly = (describe one l).sdfOnly := congrArg Desc.sdfOnly hv
    rw [this]
    simp only [describe, h2, Option.getD_some]
  · have hs : s.scene.map s.viewScene = (describe one l).scene := congrArg Desc.scene hv
    simp only [describe, h1] at hs
    cases hsc' : s.scene with
    | none => rw [hsc'] at hs; simp [settings] at hs
    | some sc =>
      rw [hsc'] at hs
      simp only [Option.map_some, settings, Option.some.injEq] at hs
      have hm := congrArg AScene.media hs
      have hc := congrArg AScene.camera hs
      have hin := congrArg AScene.integrator hs
      have hsa := congrArg AScene.sampler hs
      simp only [St.viewScene, ref, reserved] at hm hc hin hsa
      refine ⟨sc, rfl, (Api.key_none fun q hq => hI.scene sc hsc' q (by simp [hq])).1 ?_, by simpa using hc, by simpa using hin,
        by simpa using hsa⟩
      rw [hm]
      rcases hmed with rfl | rfl | rfl <;> simp

end

end Feign.Parser
