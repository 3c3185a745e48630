import Verif.Parser.Spec
import Mathlib.Data.List.Basic
import Mathlib.Tactic.SplitIfs

/-! # Helper lemmas about reading scene files -/

set_option linter.unusedSectionVars false
set_option linter.unusedSimpArgs false

namespace Feign.Parser

variable {F α β : Type}

namespace Tr

@[simp] theorem ret_bind (a : α) (f : α → Tr F β) : (Tr.ret a >>= f) = f a := by
  show Tr.bind (Tr.ret a) f = f a
  simp [Tr.bind, Tr.ret]

@[simp] theorem pure_eq (a : α) : (pure a : Tr F α) = Tr.ret a := rfl

@[simp] theorem stop_bind (e : Stop) (f : α → Tr F β) : ((Tr.stop e : Tr F α) >>= f) = Tr.stop e := rfl

@[simp] theorem emit_bind (c : Call F) (f : Unit → Tr F β) :
    (Tr.emit c >>= f) = ⟨c :: (f ()).calls, (f ()).out⟩ := rfl

theorem bind_mk_ok (l : List (Call F)) (a : α) (f : α → Tr F β) :
    ((⟨l, .ok a⟩ : Tr F α) >>= f) = ⟨l ++ (f a).calls, (f a).out⟩ := rfl

theorem bind_mk_error (l : List (Call F)) (e : Stop) (f : α → Tr F β) :
    ((⟨l, .error e⟩ : Tr F α) >>= f) = ⟨l, .error e⟩ := rfl

theorem bind_out_ok {t : Tr F α} {f : α → Tr F β} {b : β} :
    (t >>= f).out = .ok b ↔ ∃ a, t.out = .ok a ∧ (f a).out = .ok b := by
  obtain ⟨l, o⟩ := t
  cases o with
  | error e => constructor
               · intro h; cases h
               · rintro ⟨a, h, -⟩; cases h
  | ok a => constructor
            · intro h; exact ⟨a, rfl, h⟩
            · rintro ⟨a', h, h'⟩; cases h; exact h'

theorem bind_calls_ok {t : Tr F α} {f : α → Tr F β} {a : α} (h : t.out = .ok a) :
    (t >>= f).calls = t.calls ++ (f a).calls := by
  obtain ⟨l, o⟩ := t
  cases h
  rfl

theorem bind_assoc' {γ : Type} (t : Tr F α) (f : α → Tr F β) (g : β → Tr F γ) :
    (t >>= f) >>= g = t >>= fun a => f a >>= g := by
  obtain ⟨l, o⟩ := t
  cases o with
  | error e => rfl
  | ok a =>
    show Tr.bind (Tr.bind _ f) g = Tr.bind _ (fun a => Tr.bind (f a) g)
    simp only [Tr.bind]
    cases (f a).out <;> simp

end Tr

variable (fl : Rat → F)

theorem getFloat_some {j : Js} {x : F} (h : number fl j = some x) : getFloat fl j = Tr.ret x := by
  cases j <;> simp [number] at h <;> subst h <;> rfl

theorem getFloat_none {j : Js} (h : number fl j = none) : getFloat fl j = Tr.stop .ub := by
  cases j <;> simp [number] at h <;> rfl

theorem getVec_some {j : Js} {i : ℕ} {x : Val F} (h : decode fl (.vec i) j = some x) :
    ∃ w, x = .v w ∧ getVec fl i j = Tr.ret w := by
  cases j with
  | arr xs =>
    simp only [decode] at h
    split at h
    · next a b c ha hb hc =>
      obtain ⟨ja, ha1, ha2⟩ := Option.bind_eq_some_iff.1 ha
      obtain ⟨jb, hb1, hb2⟩ := Option.bind_eq_some_iff.1 hb
      obtain ⟨jc, hc1, hc2⟩ := Option.bind_eq_some_iff.1 hc
      cases h
      exact ⟨_, rfl, by
        simp [getVec, elem, ha1, hb1, hc1, getFloat_some fl ha2, getFloat_some fl hb2, getFloat_some fl hc2]⟩
    · cases h
  | _ => simp [decode] at h

theorem getVec_none {j : Js} {i : ℕ} (h : decode fl (.vec i) j = none) : getVec fl i j = Tr.stop .ub := by
  cases j with
  | arr xs =>
    simp only [decode] at h
    split at h
    · cases h
    · next hn =>
      cases h0 : xs[i]? with
      | none => simp [getVec, elem, h0]
      | some ja =>
        cases n0 : number fl ja with
        | none => simp [getVec, elem, h0, getFloat_none fl n0]
        | some a =>
          cases h1 : xs[i + 1]? with
          | none => simp [getVec, elem, h0, h1, getFloat_some fl n0]
          | some jb =>
            cases n1 : number fl jb with
            | none => simp [getVec, elem, h0, h1, getFloat_some fl n0, getFloat_none fl n1]
            | some b =>
              cases h2 : xs[i + 2]? with
              | none => simp [getVec, elem, h0, h1, h2, getFloat_some fl n0, getFloat_some fl n1]
              | some jc =>
                cases n2 : number fl jc with
                | none =>
                  simp [getVec, elem, h0, h1, h2, getFloat_some fl n0, getFloat_some fl n1,
                    getFloat_none fl n2]
                | some c => exact (hn a b c (by simp [h0, n0]) (by simp [h1, n1]) (by simp [h2, n2])).elim
  | _ => rfl

theorem getInt2_some {j : Js} {x : Val F} (h : decode fl .int2 j = some x) :
    ∃ w, x = .ii w ∧ getInt2 j = Tr.ret (F := F) w := by
  cases j with
  | arr xs =>
    simp only [decode] at h
    split at h
    · next a b ha hb =>
      split_ifs at h with hr
      cases h
      exact ⟨_, rfl, by simp only [getInt2, elem, ha, hb, getInt, if_pos hr.1, if_pos hr.2, Tr.ret_bind]⟩
    · cases h
  | _ => simp [decode] at h

theorem find_obj (ms : List (String × Js)) (k : String) :
    find (F := F) (.obj ms) k = Tr.ret (ms.lookup k) := rfl

/-- The general shape of a field: present and decodable, or missing. -/
theorem fld_gen {γ : Type} (f : Field F) (inj : γ → Val F) (get : Js → Tr F γ) (d : γ) (hd : f.dflt = inj d)
    (hget : ∀ j x, decode fl f.ty j = some x → ∃ w, x = inj w ∧ get j = Tr.ret w)
    {v : Js} (h : (valOf fl f v).isSome = true) :
    ∃ w, fld v f.key get d = Tr.ret w ∧ valOf fl f v = some (inj w) := by
  cases v with
  | obj ms =>
    simp only [valOf, fld, find_obj, Tr.ret_bind] at h ⊢
    cases hl : ms.lookup f.key with
    | none => exact ⟨d, rfl, by simp [hd]⟩
    | some j =>
      rw [hl] at h
      simp only at h ⊢
      obtain ⟨x, hx⟩ := Option.isSome_iff_exists.1 h
      obtain ⟨w, rfl, hw⟩ := hget j x hx
      exact ⟨w, hw, hx⟩
  | _ => simp [valOf] at h

theorem fld_str {k d p : String} {v : Js} (h : (valOf fl (fStr k d p) v).isSome = true) :
    ∃ w, fld v k getStr d = Tr.ret (F := F) w ∧ valOf fl (fStr k d p) v = some (.s w) :=
  fld_gen fl (fStr k d p) .s getStr d rfl (by
    intro j x h
    cases j <;> simp [decode, fStr] at h
    exact ⟨_, h.symm, rfl⟩) h

theorem fld_int {k p : String} {d : Int} {v : Js} (h : (valOf fl (fInt k d p) v).isSome = true) :
    ∃ w, fld v k getInt d = Tr.ret (F := F) w ∧ valOf fl (fInt k d p) v = some (.i w) :=
  fld_gen fl (fInt k d p) .i getInt d rfl (by
    intro j x h
    cases j <;> simp only [decode, fInt, reduceCtorEq] at h
    split_ifs at h with hr
    cases h
    exact ⟨_, rfl, if_pos hr⟩) h

theorem fld_flag {k p : String} {v : Js} (h : (valOf fl (fFlag k p) v).isSome = true) :
    ∃ w, fld v k getBool false = Tr.ret (F := F) w ∧ valOf fl (fFlag k p) v = some (.b w) :=
  fld_gen fl (fFlag k p) .b getBool false rfl (by
    intro j x h
    cases j <;> simp [decode, fFlag] at h
    exact ⟨_, h.symm, rfl⟩) h

theorem fld_num {k p : String} {d : Rat} {v : Js} (h : (valOf fl (fNum fl k d p) v).isSome = true) :
    ∃ w, fld v k (getFloat fl) (fl d) = Tr.ret (F := F) w ∧ valOf fl (fNum fl k d p) v = some (.f w) :=
  fld_gen fl (fNum fl k d p) .f (getFloat fl) (fl d) rfl (by
    intro j x h
    obtain ⟨w, hw, rfl⟩ := Option.map_eq_some_iff.1 (show (number fl j).map Val.f = some x from h)
    exact ⟨w, rfl, getFloat_some fl hw⟩) h

theorem fld_vec {k p : String} {a b c : Rat} {v : Js} (h : (valOf fl (fVec fl k a b c p) v).isSome = true) :
    ∃ w, fld v k (getVec fl 0) ⟨fl a, fl b, fl c⟩ = Tr.ret (F := F) w ∧
      valOf fl (fVec fl k a b c p) v = some (.v w) :=
  fld_gen fl (fVec fl k a b c p) .v (getVec fl 0) _ rfl (fun _ _ h => getVec_some fl h) h

theorem fld_int2 {k p : String} {d : Int × Int} {v : Js}
    (h : (valOf fl ⟨k, .int2, .ii d, p⟩ v).isSome = true) :
    ∃ w, fld v k getInt2 d = Tr.ret (F := F) w ∧ valOf fl ⟨k, .int2, .ii d, p⟩ v = some (.ii w) :=
  fld_gen fl ⟨k, .int2, .ii d, p⟩ .ii getInt2 d rfl (fun _ _ h => getInt2_some fl h) h

theorem fld_lookat {p q r : String} {a b c : V3 F} {v : Js}
    (h0 : (valOf fl ⟨"lookat", .vec 0, .v a, p⟩ v).isSome = true)
    (h1 : (valOf fl ⟨"lookat", .vec 3, .v b, q⟩ v).isSome = true)
    (h2 : (valOf fl ⟨"lookat", .vec 6, .v c, r⟩ v).isSome = true) :
    ∃ x y z, fld v "lookat" (getLookat fl) (a, b, c) = Tr.ret (F := F) (x, y, z) ∧
      valOf fl ⟨"lookat", .vec 0, .v a, p⟩ v = some (.v x) ∧
      valOf fl ⟨"lookat", .vec 3, .v b, q⟩ v = some (.v y) ∧
      valOf fl ⟨"lookat", .vec 6, .v c, r⟩ v = some (.v z) := by
  cases v with
  | obj ms =>
    simp only [valOf, fld, find_obj, Tr.ret_bind] at h0 h1 h2 ⊢
    cases hl : ms.lookup "lookat" with
    | none => exact ⟨a, b, c, rfl, rfl, rfl, rfl⟩
    | some j =>
      rw [hl] at h0 h1 h2
      simp only at h0 h1 h2 ⊢
      obtain ⟨x, hx⟩ := Option.isSome_iff_exists.1 h0
      obtain ⟨y, hy⟩ := Option.isSome_iff_exists.1 h1
      obtain ⟨z, hz⟩ := Option.isSome_iff_exists.1 h2
      obtain ⟨x', rfl, ex⟩ := getVec_some fl hx
      obtain ⟨y', rfl, ey⟩ := getVec_some fl hy
      obtain ⟨z', rfl, ez⟩ := getVec_some fl hz
      exact ⟨x', y', z', by simp [getLookat, ex, ey, ez], hx, hy, hz⟩
  | _ => simp [valOf] at h0

theorem reject_none {v : Js} {k : String} {ms : List (String × Js)} (hv : v = .obj ms)
    (h : ms.lookup k = none) : reject v k = Tr.ret (F := F) () := by
  subst hv
  simp [reject, find_obj, h]

/-- The outcome of reading a field depends on the type read. -/
theorem type_eq {r : Row F} {v : Js} {t : String} {f : Field F} {x : String} (ht : r.type = some t)
    (hm : Meets fl r v) (hf : f ∈ r.fields) (hp : f.param = "type") (hx : valOf fl f v = some (.s x)) :
    x = t := by
  have := hm.2.1 t (by rw [ht]; rfl) f hf hp
  rw [hx] at this
  cases this
  rfl

end Feign.Parser
