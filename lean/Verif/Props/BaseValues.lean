import Verif.Props.GuideExact
import Verif.Props.BaseSchema
import Verif.Props.Syntaxes
/-! C77: which values are accepted for the shipped attribute types -/
namespace Laurelin.Props
open Laurelin Spec Abnf Schema SchemaSpec BaseRules AttrSchema Spec.AttrSchema

/-- the description of attribute type `n` gives the length `m` -/
def Bound (n : Str) (m : Nat) : Prop := ∃ e ∈ BaseSchema.lengths, e.1 = m ∧ n ∈ e.2

namespace BaseV

/-- as a function -/
def bound (n : Str) : Option Nat := (BaseSchema.lengths.find? (fun e => e.2.contains n)).map (·.1)

theorem bound_mem {n : Str} {m : Nat} (h : bound n = some m) : Bound n m := by
  unfold bound at h
  cases hf : BaseSchema.lengths.find? (fun e => e.2.contains n) with
  | none => rw [hf] at h; cases h
  | some e =>
    rw [hf] at h
    refine ⟨e, List.mem_of_find?_eq_some hf, by simpa using h, ?_⟩
    simpa using List.find?_some hf

theorem bound_unique : ∀ e ∈ BaseSchema.lengths, ∀ n ∈ e.2, bound n = some e.1 := by decide +kernel

theorem bound_iff (n : Str) (m : Nat) : bound n = some m ↔ Bound n m :=
  ⟨bound_mem, fun ⟨e, he, h1, h2⟩ => by rw [← h1]; exact bound_unique e he n h2⟩

/-- the type has the syntax and the length of the tables -/
def synOk (name oid : Str) : Bool :=
  match BaseP.typeNamed name with
  | none => false
  | some d =>
    match BaseP.eff (·.syntaxLen) 3 d with
    | some (.stated p) => decide (d.names = [name]) && decide (p = (oid, bound name))
    | _ => false

theorem syntaxes_ok : ∀ e ∈ BaseSchema.syntaxes, ∀ n ∈ e.2, synOk n (str "1.3.6.1.4.1.1466.115.121.1." ++ e.1) = true := by decide +kernel
theorem triples_ok : ∀ n ∈ BaseSchema.triples, synOk n (str "1.3.6.1.1.1.0.0") = true := by decide +kernel
theorem all_listed : ∀ d ∈ BaseP.types, ∃ n ∈ BaseSchema.triples ++ (BaseSchema.syntaxes.map (·.2)).flatten, d.names = [n] := by decide +kernel

variable {lower : Str → Str} (h : AsciiLower lower) {l : List Str} (hl : l.Perm (BaseSchema.attributeTypes ++ BaseSchema.netgroupTypes)) {r : Reg ATFields}
  (hr : load lower Reg.empty l = (r, .ok ())) (U : Uni) (depth : Nat) (hdepth : 3 ≤ depth)
include h hl hr hdepth

theorem of_ok {n o : Str} (hok : synOk n o = true) (x : Str) (hx : Casing lower n x) :
    ∃ f, r.find lower x = .ok (.elem (elemOf f)) ∧ f.names = [n] ∧
      ∀ q, getSyntaxRule (baseSyntaxes ++ netgroupSyntaxes) o = .ok q → syntaxOf (shippedEnv lower U depth r) f = .ok q ∧
        ∀ v, ((∀ m, Bound n m → v.length ≤ m) → validate (shippedEnv lower U depth r) f v = q.validate v) ∧
          (∀ m, Bound n m → m < v.length → validate (shippedEnv lower U depth r) f v = .error .invalidSyntax) := by
  obtain ⟨sch, hL, hmem⟩ := BaseP.loaded h hl hr U depth
  unfold synOk at hok
  split at hok
  · cases hok
  · rename_i d hd
    split at hok
    · rename_i p hp
      simp only [Bool.and_eq_true, decide_eq_true_eq] at hok
      obtain ⟨hnm, rfl⟩ := hok
      have hd' := (BaseP.named_spec h hd hnm).1
      refine ⟨saysAT d, hL.find.1 d ((hmem d).2 hd') x (.inr ⟨hx.1, n, by simp [hnm], hx.2⟩), hnm, ?_⟩
      intro q hq
      obtain ⟨m, hm, hx⟩ := BaseP.eff_spec h _ 3 d _ hp
      have he := BaseP.eff_mem (fun d => (hmem d).symm) hx
      have hle := Nat.le_trans hm hdepth
      refine ⟨?_, ?_⟩
      · rw [((c75_rules _ sch hL d ((hmem d).2 hd') m hle).1 _ he).1]; exact hq
      · intro v
        rw [c75_validate _ sch hL d ((hmem d).2 hd') m hle _ he q hq v]
        refine ⟨fun hb => if_neg ?_, fun k hk hlt => if_pos ⟨k, (bound_iff n k).2 hk, hlt⟩⟩
        rintro ⟨k, hk, hlt⟩
        exact absurd (hb k ((bound_iff n k).1 hk)) (by omega)
    · cases hok

end BaseV

/-- **C77**: every shipped attribute type has the syntax and the length of the tables, its values being checked by the rule of that syntax and, against the meaning of RFC 4512, refused when
they are longer than the length. -/
theorem c77_attributes (lower : Str → Str) (h : AsciiLower lower) (l : List Str) (hl : l.Perm (BaseSchema.attributeTypes ++ BaseSchema.netgroupTypes)) (r : Reg ATFields)
    (hr : load lower Reg.empty l = (r, .ok ())) (U : Uni) (depth : Nat) (hdepth : 3 ≤ depth) :
    let env := shippedEnv lower U depth r
    (∀ e ∈ BaseSchema.syntaxes, ∃ q, getSyntaxRule env.syntaxes (str "1.3.6.1.4.1.1466.115.121.1." ++ e.1) = .ok q ∧
      ∀ n ∈ e.2, ∀ x, Casing lower n x → ∃ f, r.find lower x = .ok (.elem (elemOf f)) ∧ f.names = [n] ∧ syntaxOf env f = .ok q ∧
        ∀ v, ((∀ m, Bound n m → v.length ≤ m) → validate env f v = q.validate v) ∧ (∀ m, Bound n m → m < v.length → validate env f v = .error .invalidSyntax)) ∧
    (∀ x f, r.find lower x = .ok (.elem f) → ∃ n ∈ BaseSchema.triples ++ (BaseSchema.syntaxes.map (·.2)).flatten, f.names = [n]) := by
  intro env
  refine ⟨?_, ?_⟩
  · intro e he
    have hq : ∀ e ∈ BaseSchema.syntaxes, (getSyntaxRule (baseSyntaxes ++ netgroupSyntaxes) (str "1.3.6.1.4.1.1466.115.121.1." ++ e.1)).toOption.isSome = true := by decide +kernel
    have hq := hq e he
    cases hg : getSyntaxRule (baseSyntaxes ++ netgroupSyntaxes) (str "1.3.6.1.4.1.1466.115.121.1." ++ e.1) with
    | error x => rw [hg] at hq; cases hq
    | ok q =>
      refine ⟨q, hg, ?_⟩
      intro n hn x hx
      obtain ⟨f, h1, h2, h3⟩ := BaseV.of_ok h hl hr U depth hdepth (BaseV.syntaxes_ok e he n hn) x hx
      exact ⟨f, h1, h2, h3 q hg⟩
  · intro x f hf
    obtain ⟨n, hn, hfn⟩ := (c76_rules lower h l hl r hr U depth hdepth).2.2 x f hf
    have hk : ∀ n ∈ BaseSchema.noEquality ++ (BaseSchema.equality.map (·.2)).flatten, n ∈ BaseSchema.triples ++ (BaseSchema.syntaxes.map (·.2)).flatten := by decide +kernel
    exact ⟨n, hk n hn, hfn⟩

/-- **C77**: the values accepted for an attribute of a given syntax, under any casing of its name. -/
theorem c77_values (lower : Str → Str) (h : AsciiLower lower) (l : List Str) (hl : l.Perm (BaseSchema.attributeTypes ++ BaseSchema.netgroupTypes)) (r : Reg ATFields)
    (hr : load lower Reg.empty l = (r, .ok ())) (U : Uni) (depth : Nat) (hdepth : 3 ≤ depth) (e : Str × List Str) (he : e ∈ BaseSchema.syntaxes) (L : Language)
    (hL : (e.1, L) ∈ Syntaxes.languages (inClass pySpace)) (n x : Str) (hn : n ∈ e.2) (hx : Casing lower n x) (f : Elem ATFields) (hf : r.find lower x = .ok (.elem f)) (v : Str) :
    validate (shippedEnv lower U depth r) f.body v = .ok () ↔ L v ∧ ∀ m, Bound n m → v.length ≤ m := by
  obtain ⟨q, hq, hv⟩ := c77_syntaxes _ hL
  obtain ⟨g, h1, h2, h3⟩ := BaseV.of_ok h hl hr U depth hdepth (BaseV.syntaxes_ok e he n hn) x hx
  rw [hf] at h1
  cases h1
  have := (h3 q hq).2 v
  rw [show (elemOf g).body = g from rfl]
  constructor
  · intro hok
    have hb : ∀ m, Bound n m → v.length ≤ m := fun m hm => Nat.le_of_not_lt (fun hlt => by rw [this.2 m hm hlt] at hok; cases hok)
    exact ⟨(hv v).1 (by rw [← this.1 hb]; exact hok), hb⟩
  · rintro ⟨hl, hb⟩
    rw [this.1 hb]
    exact (hv v).2 hl

example : (str "50", [str "telephoneNumber", str "homePhone", str "mobile", str "pager"]) ∈ BaseSchema.syntaxes ∧ (str "50", Syntaxes.phone) ∈ Syntaxes.languages (inClass pySpace) ∧
    Casing BaseP.al (str "telephoneNumber") (str "TelephoneNUMBER") ∧ Syntaxes.phone (str "+1 (234) 567-8901") ∧ Bound (str "mail") 256 := by
  refine ⟨by decide +kernel, ?_, ⟨⟨_, _, rfl, by decide⟩, by decide⟩, ⟨str "12345678901", by decide, by decide, by decide, Or.inr (by decide)⟩, BaseV.bound_mem (by decide +kernel)⟩
  unfold Syntaxes.languages
  simp

/-- **C77, netgroup triples** -/
theorem c77_netgroup_triple (lower : Str → Str) (h : AsciiLower lower) (l : List Str) (hl : l.Perm (BaseSchema.attributeTypes ++ BaseSchema.netgroupTypes)) (r : Reg ATFields)
    (hr : load lower Reg.empty l = (r, .ok ())) (U : Uni) (depth : Nat) (hdepth : 3 ≤ depth) (x : Str) (hx : Casing lower (str "nisNetgroupTriple") x) (f : Elem ATFields)
    (hf : r.find lower x = .ok (.elem f)) (v : Str) :
    validate (shippedEnv lower U depth r) f.body v = .ok () ↔ ∃ a b c, Spec.Ng.TripleLine v a b c := by
  obtain ⟨q, hq, hv⟩ := c77_triple
  obtain ⟨g, h1, h2, h3⟩ := BaseV.of_ok h hl hr U depth hdepth (BaseV.triples_ok _ (by decide)) x hx
  rw [hf] at h1
  cases h1
  have hb : BaseV.bound (str "nisNetgroupTriple") = none := by decide +kernel
  rw [show (elemOf g).body = g from rfl, ((h3 q hq).2 v).1, hv v]
  intro m hm
  rw [← BaseV.bound_iff, hb] at hm
  cases hm

/-- **C77, the guides**: what RFC 4517 allows is accepted for `enhancedSearchGuide`, and for `searchGuide` when it names a class. -/
theorem c77_guide_values_partial (lower : Str → Str) (h : AsciiLower lower) (l : List Str) (hl : l.Perm (BaseSchema.attributeTypes ++ BaseSchema.netgroupTypes)) (r : Reg ATFields)
    (hr : load lower Reg.empty l = (r, .ok ())) (U : Uni) (depth : Nat) (hdepth : 3 ≤ depth) (x : Str) (f : Elem ATFields) (hf : r.find lower x = .ok (.elem f)) (v : Str) :
    (Casing lower (str "enhancedSearchGuide") x → Guide.enhancedGuide v → validate (shippedEnv lower U depth r) f.body v = .ok ()) ∧
    (Casing lower (str "searchGuide") x → cats [Guide.objectClass, lit ['#'], Guide.Criteria] v → validate (shippedEnv lower U depth r) f.body v = .ok ()) := by
  have nb : ∀ n ∈ [str "enhancedSearchGuide", str "searchGuide"], BaseV.bound n = none := by decide +kernel
  have nb' : ∀ n ∈ [str "enhancedSearchGuide", str "searchGuide"], ∀ m, Bound n m → v.length ≤ m := by
    intro n hn m hm
    rw [← BaseV.bound_iff, nb n hn] at hm
    cases hm
  refine ⟨fun hx hg => ?_, fun hx hg => ?_⟩
  · obtain ⟨g, h1, h2, h3⟩ := BaseV.of_ok h hl hr U depth hdepth (n := str "enhancedSearchGuide") (o := str "1.3.6.1.4.1.1466.115.121.1.21") (by decide +kernel) x hx
    rw [hf] at h1
    cases h1
    rw [show (elemOf g).body = g from rfl, ((h3 _ c77_guides.1).2 v).1 (nb' _ List.mem_cons_self)]
    exact c77_enhanced_guide v hg
  · obtain ⟨g, h1, h2, h3⟩ := BaseV.of_ok h hl hr U depth hdepth (n := str "searchGuide") (o := str "1.3.6.1.4.1.1466.115.121.1.25") (by decide +kernel) x hx
    rw [hf] at h1
    cases h1
    rw [show (elemOf g).body = g from rfl, ((h3 _ c77_guides.2).2 v).1 (nb' _ (List.mem_cons_of_mem _ List.mem_cons_self))]
    exact c77_guide_partial v hg

/-- **C77, the guides, exactly**: the values accepted for `enhancedSearchGuide` and `searchGuide`. -/
theorem c77_guide_values (lower : Str → Str) (h : AsciiLower lower) (l : List Str) (hl : l.Perm (BaseSchema.attributeTypes ++ BaseSchema.netgroupTypes)) (r : Reg ATFields)
    (hr : load lower Reg.empty l = (r, .ok ())) (U : Uni) (depth : Nat) (hdepth : 3 ≤ depth) (x : Str) (f : Elem ATFields) (hf : r.find lower x = .ok (.elem f)) (v : Str) :
    (Casing lower (str "enhancedSearchGuide") x → (validate (shippedEnv lower U depth r) f.body v = .ok () ↔ Guide.looseEnhancedGuide v)) ∧
    (Casing lower (str "searchGuide") x → (validate (shippedEnv lower U depth r) f.body v = .ok () ↔ Guide.looseGuide v)) := by
  have nb : ∀ n ∈ [str "enhancedSearchGuide", str "searchGuide"], BaseV.bound n = none := by decide +kernel
  have nb' : ∀ n ∈ [str "enhancedSearchGuide", str "searchGuide"], ∀ m, Bound n m → v.length ≤ m := by
    intro n hn m hm
    rw [← BaseV.bound_iff, nb n hn] at hm
    cases hm
  refine ⟨fun hx => ?_, fun hx => ?_⟩
  · obtain ⟨g, h1, h2, h3⟩ := BaseV.of_ok h hl hr U depth hdepth (n := str "enhancedSearchGuide") (o := str "1.3.6.1.4.1.1466.115.121.1.21") (by decide +kernel) x hx
    rw [hf] at h1
    cases h1
    rw [show (elemOf g).body = g from rfl, ((h3 _ c77_guides.1).2 v).1 (nb' _ List.mem_cons_self)]
    exact c77_enhanced_guide_exact v
  · obtain ⟨g, h1, h2, h3⟩ := BaseV.of_ok h hl hr U depth hdepth (n := str "searchGuide") (o := str "1.3.6.1.4.1.1466.115.121.1.25") (by decide +kernel) x hx
    rw [hf] at h1
    cases h1
    rw [show (elemOf g).body = g from rfl, ((h3 _ c77_guides.2).2 v).1 (nb' _ (List.mem_cons_of_mem _ List.mem_cons_self))]
    exact c77_guide_exact v

end Laurelin.Props
