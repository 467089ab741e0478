import Verif.Model.ClassQueries
import Verif.Spec.ClassQueries
import Verif.Props.BaseObjects
/-!
# C108 asking a class about attributes
-/
set_option maxRecDepth 100000
namespace Laurelin.Props
open Laurelin Schema SchemaSpec Spec Spec.AttrSchema Spec.ObjectSchema Spec.ClassQueries Laurelin.AttrSchema Laurelin.ObjectSchema BaseRules

namespace ClQ
open ObjS

section
variable {env : Env} {types : List (Str × Rfc4512.AttributeType)} {classes : List (Str × Rfc4512.ObjectClass)} (hl : AttrS.Loaded env types) (hr : DescribesClasses classes)
  (ho : InOrder env.lower (types.map (·.2)) (classes.map (·.2)) env.depth) {c : Classes} (hcl : ClassesLoaded env c classes)
include hl hr ho hcl

theorem acyclic : Acyclic env classes := ⟨ho.supers, ho.ranked⟩

theorem above_in : ∀ d e, d ∈ classes.map (·.2) → AtOrAbove env.lower (classes.map (·.2)) d e → e ∈ classes.map (·.2) := by
  intro d e hd h
  induction h with
  | self => exact hd
  | above c d k s _ h2 _ _ ih => exact ih h2

theorem one {i : Nat} {d : Rfc4512.ObjectClass} (hd : (classes.map (·.2))[i]? = some d) {m : Memo} (hg : GoodMemo env c m) :
    (∃ s l, mustOf (c.graph env.lower (·.must)) env.depth m.must i = (s, .ok l) ∧ GoodMemo env c ⟨s, m.may⟩ ∧ ∀ a, a ∈ l ↔ Requires env.lower (types.map (·.2)) (classes.map (·.2)) d a) ∧
    (∃ s l, mustOf (c.graph env.lower (·.may)) env.depth m.may i = (s, .ok l) ∧ GoodMemo env c ⟨m.must, s⟩ ∧ ∀ a, a ∈ l ↔ Permits env.lower (types.map (·.2)) (classes.map (·.2)) d a) := by
  have hac := acyclic hl hr ho hcl
  obtain ⟨s1, l1, e1, g1, m1⟩ := hcl.must hac (·.must) i d hd m.must hg.1
  obtain ⟨s2, l2, e2, g2, m2⟩ := hcl.must hac (·.may) i d hd m.may hg.2
  refine ⟨⟨s1, l1, e1, ⟨g1, hg.2⟩, fun a => (m1 a).trans ?_⟩, ⟨s2, l2, e2, ⟨hg.1, g2⟩, fun a => (m2 a).trans ?_⟩⟩
  · have key : ∀ e ∈ classes.map (·.2), (a ∈ (saysOC env.types e).must ↔ Mentions (types.map (·.2)) e.must a) := by
      intro e he
      obtain ⟨p, hp, rfl⟩ := List.mem_map.1 he
      exact mentions_iff hl p.2.must (lists_ne (hr p hp)).1 a
    constructor
    · rintro ⟨e, he, ha⟩; exact ⟨e, he, (key e (above_in hl hr ho hcl d e (List.mem_of_getElem? hd) he)).1 ha⟩
    · rintro ⟨e, he, ha⟩; exact ⟨e, he, (key e (above_in hl hr ho hcl d e (List.mem_of_getElem? hd) he)).2 ha⟩
  · have key : ∀ e ∈ classes.map (·.2), (a ∈ (saysOC env.types e).may ↔ Mentions (types.map (·.2)) e.may a) := by
      intro e he
      obtain ⟨p, hp, rfl⟩ := List.mem_map.1 he
      exact mentions_iff hl p.2.may (lists_ne (hr p hp)).2 a
    constructor
    · rintro ⟨e, he, ha⟩; exact ⟨e, he, (key e (above_in hl hr ho hcl d e (List.mem_of_getElem? hd) he)).1 ha⟩
    · rintro ⟨e, he, ha⟩; exact ⟨e, he, (key e (above_in hl hr ho hcl d e (List.mem_of_getElem? hd) he)).2 ha⟩

/-- the three ways of looking up a class -/
theorem look (cls : Str) :
    (∃ i d, (classes.map (·.2))[i]? = some d ∧ Identifies env.lower d.oid d.names cls ∧ c.reg.find env.lower cls = .ok (.elem ⟨d.oid, d.names, i⟩) ∧
      ∀ e ∈ classes.map (·.2), Identifies env.lower e.oid e.names cls → e = d) ∨
    ((∀ d ∈ classes.map (·.2), ¬ Identifies env.lower d.oid d.names cls) ∧ UnknownName cls ∧ c.reg.find env.lower cls = .ok (.dflt cls)) ∨
    (¬ Known env.lower (classes.map (·.2)) cls ∧ ∃ e, c.reg.find env.lower cls = .error e) := by
  by_cases hex : ∃ d ∈ classes.map (·.2), Identifies env.lower d.oid d.names cls
  · obtain ⟨d, hd, hi⟩ := hex
    obtain ⟨i, hdi⟩ := List.getElem?_of_mem hd
    refine .inl ⟨i, d, hdi, hi, (hcl.find cls).1 i d hdi hi, fun e he hie => ?_⟩
    obtain ⟨j, hj⟩ := List.getElem?_of_mem he
    have a1 := (hcl.find cls).1 i d hdi hi
    have a2 := (hcl.find cls).1 j e hj hie
    rw [a1] at a2
    have hij : i = j := by
      simp only [Except.ok.injEq, Found.elem.injEq, Elem.mk.injEq] at a2
      exact a2.2.2
    subst hij
    rw [hdi] at hj
    exact (Option.some.inj hj).symm
  · have hno : ∀ d ∈ classes.map (·.2), ¬ Identifies env.lower d.oid d.names cls := fun d hd hi => hex ⟨d, hd, hi⟩
    by_cases hu : UnknownName cls
    · obtain ⟨k, t, rfl, hk⟩ := hu
      have := (hcl.find (k :: t)).2 hno k t rfl
      rw [hk] at this
      exact .inr (.inl ⟨hno, ⟨k, t, rfl, hk⟩, this⟩)
    · refine .inr (.inr ⟨fun h => h.elim hex hu, ?_⟩)
      cases cls with
      | nil => exact ⟨.indexError, by simp [Reg.find, numeric]⟩
      | cons k t =>
        have := (hcl.find (k :: t)).2 hno k t rfl
        cases hk : Rfc4512.isDigit k with
        | false => exact absurd ⟨k, t, rfl, hk⟩ hu
        | true =>
          rw [hk] at this
          exact ⟨.keyError, this⟩

theorem required_spec {m : Memo} (hg : GoodMemo env c m) (cls name : Str) :
    GoodMemo env c (requiredAttr env.lower c env.depth m cls name).1 ∧
    (Known env.lower (classes.map (·.2)) cls → ∃ b, (requiredAttr env.lower c env.depth m cls name).2 = .ok b ∧ (b = true ↔ IsRequired env.lower (types.map (·.2)) (classes.map (·.2)) cls name)) ∧
    (¬ Known env.lower (classes.map (·.2)) cls → ∃ e, (requiredAttr env.lower c env.depth m cls name).2 = .error e) := by
  rcases look hl hr ho hcl cls with ⟨i, d, hd, hi, hf, hu⟩ | ⟨hno, hu, hf⟩ | ⟨hno, e, hf⟩
  · obtain ⟨⟨s, l, e1, g1, m1⟩, _⟩ := one hl hr ho hcl hd hg
    simp only [requiredAttr, hf, e1]
    refine ⟨g1, fun _ => ⟨_, rfl, ?_⟩, fun hn => absurd (.inl ⟨d, List.mem_of_getElem? hd, hi⟩) hn⟩
    rw [List.contains_iff_mem, m1]
    exact ⟨fun h => ⟨d, List.mem_of_getElem? hd, hi, h⟩, fun ⟨e, he, hie, h⟩ => hu e he hie ▸ h⟩
  · simp only [requiredAttr, hf]
    exact ⟨hg, fun _ => ⟨false, rfl, nofun, fun ⟨e, he, hie, _⟩ => absurd hie (hno e he)⟩, fun hn => absurd (.inr hu) hn⟩
  · simp only [requiredAttr, hf]
    exact ⟨hg, fun hk => absurd hk hno, fun _ => ⟨e, rfl⟩⟩

theorem ext_spec (ext : List Str) {i : Nat} {d : Rfc4512.ObjectClass} (hd : (classes.map (·.2))[i]? = some d) : c.extensible ext i = true ↔ d.oid ∈ ext := by
  have h1 : c.table[i]? = some (saysOC env.types d) := by rw [hcl.holds.1, List.getElem?_map, hd]; rfl
  simp only [Classes.extensible, h1, List.contains_iff_mem]
  exact Iff.rfl

theorem allowed_spec (ext : List Str) {m : Memo} (hg : GoodMemo env c m) (cls name : Str) :
    GoodMemo env c (allowedAttr env.lower ext c env.depth m cls name).1 ∧
    (Known env.lower (classes.map (·.2)) cls → ∃ b, (allowedAttr env.lower ext c env.depth m cls name).2 = .ok b ∧ (b = true ↔ IsAllowed env.lower (types.map (·.2)) (classes.map (·.2)) ext cls name)) ∧
    (¬ Known env.lower (classes.map (·.2)) cls → ∃ e, (allowedAttr env.lower ext c env.depth m cls name).2 = .error e) := by
  rcases look hl hr ho hcl cls with ⟨i, d, hd, hi, hf, hu⟩ | ⟨hno, hu, hf⟩ | ⟨hno, e, hf⟩
  · obtain ⟨_, ⟨t, l, e1, g1, m1⟩⟩ := one hl hr ho hcl hd hg
    have hkn : Known env.lower (classes.map (·.2)) cls := .inl ⟨d, List.mem_of_getElem? hd, hi⟩
    have hiff : IsAllowed env.lower (types.map (·.2)) (classes.map (·.2)) ext cls name ↔
        (d.oid ∈ ext ∨ Requires env.lower (types.map (·.2)) (classes.map (·.2)) d name ∨ Permits env.lower (types.map (·.2)) (classes.map (·.2)) d name) :=
      ⟨fun ⟨e, he, hie, h⟩ => hu e he hie ▸ h, fun h => ⟨d, List.mem_of_getElem? hd, hi, h⟩⟩
    rw [hiff]
    have hx := ext_spec hl hr ho hcl ext hd
    simp only [allowedAttr, hf]
    by_cases he : c.extensible ext i = true
    · rw [if_pos he]
      exact ⟨hg, fun _ => ⟨true, rfl, fun _ => .inl (hx.1 he), fun _ => rfl⟩, fun hn => absurd hkn hn⟩
    · rw [if_neg he]
      simp only [e1]
      by_cases hm : name ∈ l
      · rw [if_pos (List.contains_iff_mem.2 hm)]
        exact ⟨g1, fun _ => ⟨true, rfl, fun _ => .inr (.inr ((m1 _).1 hm)), fun _ => rfl⟩, fun hn => absurd hkn hn⟩
      · rw [if_neg (fun h => hm (List.contains_iff_mem.1 h))]
        obtain ⟨⟨s, l2, e2, g2, m2⟩, _⟩ := one hl hr ho hcl hd g1
        simp only at e2 g2
        simp only [e2]
        refine ⟨g2, fun _ => ⟨_, rfl, ?_⟩, fun hn => absurd hkn hn⟩
        rw [List.contains_iff_mem, m2]
        refine ⟨fun h => .inr (.inl h), ?_⟩
        rintro (h | h | h)
        · exact absurd (hx.2 h) he
        · exact h
        · exact absurd ((m1 _).2 h) hm
  · simp only [allowedAttr, hf]
    exact ⟨hg, fun _ => ⟨false, rfl, nofun, fun ⟨e, he, hie, _⟩ => absurd hie (hno e he)⟩, fun hn => absurd (.inr hu) hn⟩
  · simp only [allowedAttr, hf]
    exact ⟨hg, fun hk => absurd hk hno, fun _ => ⟨e, rfl⟩⟩

theorem good_object {m : Memo} (hg : GoodMemo env c m) (obj : CIDict Str (List Str)) (w : Bool) : GoodMemo env c (Laurelin.ObjectSchema.validateObject env c m obj w).1 := by
  simp only [Laurelin.ObjectSchema.validateObject]
  split
  · exact hg
  · rename_i ocs _
    have := (hcl.readClasses (acyclic hl hr ho hcl) ocs m hg).1
    split
    · rename_i m' e he; rw [he] at this; exact this
    · rename_i m' r a he; rw [he] at this; exact this

theorem good_ask (ext : List Str) {m : Memo} (hg : GoodMemo env c m) (q : Ask) : GoodMemo env c (ask env ext c m q).1 := by
  cases q with
  | required cls name => exact (required_spec hl hr ho hcl hg cls name).1
  | allowed cls name => exact (allowed_spec hl hr ho hcl ext hg cls name).1
  | object obj w =>
    have := good_object hl hr ho hcl hg obj w
    revert this
    simp only [ask]
    rcases Laurelin.ObjectSchema.validateObject env c m obj w with ⟨m', e | u⟩ <;> exact fun h => h
  | lists cls =>
    have := (hcl.readClass (acyclic hl hr ho hcl) m hg cls).1
    revert this
    simp only [ask]
    rcases readClass env.lower c env.depth m cls with ⟨m', e | u⟩ <;> exact fun h => h

theorem lists_spec {m : Memo} (hg : GoodMemo env c m) {cls : Str} (hk : Known env.lower (classes.map (·.2)) cls) : ∃ must may,
    (readClass env.lower c env.depth m cls).2 = .ok (must, may) ∧ (∀ a, a ∈ must ↔ IsRequired env.lower (types.map (·.2)) (classes.map (·.2)) cls a) ∧
    ∀ a, a ∈ may ↔ ∃ d ∈ classes.map (·.2), Identifies env.lower d.oid d.names cls ∧ Permits env.lower (types.map (·.2)) (classes.map (·.2)) d a := by
  rcases look hl hr ho hcl cls with ⟨i, d, hd, hi, hf, hu⟩ | ⟨hno, hu, hf⟩ | ⟨hno, e, hf⟩
  · obtain ⟨⟨s, l, e1, g1, m1⟩, ⟨t, l2, e2, _, m2⟩⟩ := one hl hr ho hcl hd hg
    refine ⟨l, l2, by simp only [readClass, hf, e1, e2], fun a => (m1 a).trans ?_, fun a => (m2 a).trans ?_⟩
    · exact ⟨fun h => ⟨d, List.mem_of_getElem? hd, hi, h⟩, fun ⟨e, he, hie, h⟩ => hu e he hie ▸ h⟩
    · exact ⟨fun h => ⟨d, List.mem_of_getElem? hd, hi, h⟩, fun ⟨e, he, hie, h⟩ => hu e he hie ▸ h⟩
  · refine ⟨[], [], by simp only [readClass, hf], fun a => ⟨nofun, ?_⟩, fun a => ⟨nofun, ?_⟩⟩
    · rintro ⟨e, he, hie, _⟩; exact absurd hie (hno e he)
    · rintro ⟨e, he, hie, _⟩; exact absurd hie (hno e he)
  · exact absurd hk hno

theorem good_asked (ext : List Str) (l : List Ask) : ∀ {m : Memo}, GoodMemo env c m → GoodMemo env c (asked env ext c m l) := by
  induction l with
  | nil => intro m hg; exact hg
  | cons q l ih => intro m hg; exact ih (good_ask hl hr ho hcl ext hg q)

end
end ClQ

section
open ObjS ClQ

/-- **C108.** After loading any attribute types and object classes in order, and after whatever was asked and validated before: a class says that it requires an attribute exactly when its description, or that of a class above
it, does; that it allows it exactly when one of them requires or permits it, or it is one that allows any; an unknown name requires and allows nothing, and anything else raises. Objects are accepted exactly as C78 says. -/
theorem c108_answers (env : Env) (types : List (Str × Rfc4512.AttributeType)) (hl : AttrS.Loaded env types) (classes : List (Str × Rfc4512.ObjectClass)) (hr : DescribesClasses classes)
    (ho : InOrder env.lower (types.map (·.2)) (classes.map (·.2)) env.depth) (c : Classes) (hc : loadClasses env.lower env.types Classes.empty (classes.map (·.1)) = (c, .ok ()))
    (ext : List Str) (earlier : List Ask) :
    (∀ cls name, (Known env.lower (classes.map (·.2)) cls →
        (∃ b, (ask env ext c (asked env ext c (c.start env.lower) earlier) (.required cls name)).2 = .ok b ∧ (b = true ↔ IsRequired env.lower (types.map (·.2)) (classes.map (·.2)) cls name)) ∧
        ∃ b, (ask env ext c (asked env ext c (c.start env.lower) earlier) (.allowed cls name)).2 = .ok b ∧ (b = true ↔ IsAllowed env.lower (types.map (·.2)) (classes.map (·.2)) ext cls name)) ∧
      (¬ Known env.lower (classes.map (·.2)) cls → (∃ e, (ask env ext c (asked env ext c (c.start env.lower) earlier) (.required cls name)).2 = .error e) ∧
        ∃ e, (ask env ext c (asked env ext c (c.start env.lower) earlier) (.allowed cls name)).2 = .error e)) ∧
    (∀ obj write, (ask env ext c (asked env ext c (c.start env.lower) earlier) (.object obj write)).2 = .ok true ↔ ∃ ocs, obj.getItem env.lower (str "objectClass") = .ok ocs ∧
      Follows env.lower (types.map (·.2)) (classes.map (·.2)) (fun oid v => ∃ q, getSyntaxRule env.syntaxes oid = .ok q ∧ q.validate v = .ok ()) (fun a k => a = k) ocs obj.items write) := by
  have hcl : ClassesLoaded env c classes := ⟨hr, ho.distinct, hc⟩
  have hg : GoodMemo env c (asked env ext c (c.start env.lower) earlier) := good_asked hl hr ho hcl ext earlier good_start
  generalize asked env ext c (c.start env.lower) earlier = m at hg
  refine ⟨fun cls name => ⟨fun hk => ⟨(required_spec hl hr ho hcl hg cls name).2.1 hk, (allowed_spec hl hr ho hcl ext hg cls name).2.1 hk⟩,
    fun hk => ⟨(required_spec hl hr ho hcl hg cls name).2.2 hk, (allowed_spec hl hr ho hcl ext hg cls name).2.2 hk⟩⟩, fun obj write => ?_⟩
  refine Iff.trans ?_ (ObjS.accepts env types hl classes hr ho c hcl ⟨ho.supers, ho.ranked⟩ m hg obj write)
  simp only [ask]
  rcases Laurelin.ObjectSchema.validateObject env c m obj write with ⟨m', e | u⟩
  · exact ⟨nofun, nofun⟩
  · exact ⟨fun _ => rfl, fun _ => rfl⟩

/-- **C108 (the schema that is shipped).** In whatever order its texts are read: the answers are those of its descriptions, and objects are accepted as C76 says, after any history. -/
theorem c108_shipped (lower : Str → Str) (h : AsciiLower lower) (ts : List Str) (hts : ts.Perm (BaseSchema.attributeTypes ++ BaseSchema.netgroupTypes)) (cs : List Str)
    (hcs : cs.Perm (BaseSchema.objectClasses ++ BaseSchema.netgroupClasses)) (U : Uni) (depth : Nat) (hdepth : 4 ≤ depth) :
    ∃ r c, load lower Reg.empty ts = (r, .ok ()) ∧ loadClasses lower r Classes.empty cs = (c, .ok ()) ∧
      ∀ earlier, let env := shippedEnv lower U depth r
        (∀ cls name, Known lower BaseO.classes cls →
          (∃ b, (ask env extensibleOids c (asked env extensibleOids c (c.start lower) earlier) (.required cls name)).2 = .ok b ∧ (b = true ↔ IsRequired lower BaseP.types BaseO.classes cls name)) ∧
          ∃ b, (ask env extensibleOids c (asked env extensibleOids c (c.start lower) earlier) (.allowed cls name)).2 = .ok b ∧ (b = true ↔ IsAllowed lower BaseP.types BaseO.classes extensibleOids cls name)) ∧
        ∀ obj write, (ask env extensibleOids c (asked env extensibleOids c (c.start lower) earlier) (.object obj write)).2 = .ok true ↔ ∃ ocs, obj.getItem lower (str "objectClass") = .ok ocs ∧
          Follows lower BaseP.types BaseO.classes (fun oid v => ∃ q, getSyntaxRule (baseSyntaxes ++ netgroupSyntaxes) oid = .ok q ∧ q.validate v = .ok ()) (fun a k => a = k) ocs obj.items write := by
  obtain ⟨r, c, hr, hc, _⟩ := c76_accepts lower h ts hts cs hcs U depth hdepth
  refine ⟨r, c, hr, hc, ?_⟩
  obtain ⟨sch, hL, hmem⟩ := BaseP.loaded h hts hr U depth
  obtain ⟨csch, hp, rfl⟩ := BaseP.perm_map (·.1) hcs BaseO.schema BaseO.schema_texts
  have hcp : (csch.map (·.2)).Perm BaseO.classes := by rw [← BaseO.schema_classes]; exact hp.map _
  have hD : DescribesClasses csch := by
    intro p hp'
    refine BaseO.zip_read _ _ BaseO.texts ?_ p (hp.mem_iff.1 hp')
    intro a ha
    rcases List.mem_append.1 ha with ha | ha
    · exact Render.base_classes_ok a ha
    · exact Render.netgroup_classes_ok a ha
  have hO : InOrder lower (sch.map (·.2)) (csch.map (·.2)) depth := BaseO.inOrder h hdepth hmem hcp
  intro earlier env
  obtain ⟨q1, q2⟩ := c108_answers (shippedEnv lower U depth r) sch hL csch hD hO c hc extensibleOids earlier
  have hreq : ∀ d a, Requires lower (sch.map (·.2)) (csch.map (·.2)) d a ↔ Requires lower BaseP.types BaseO.classes d a := fun d a =>
    ⟨fun ⟨e, he, hm⟩ => ⟨e, BaseO.above_mem (fun d => hcp.mem_iff) he, BaseO.mentions_mem hmem hm⟩,
     fun ⟨e, he, hm⟩ => ⟨e, BaseO.above_mem (fun d => hcp.mem_iff.symm) he, BaseO.mentions_mem (fun d => (hmem d).symm) hm⟩⟩
  have hper : ∀ d a, Permits lower (sch.map (·.2)) (csch.map (·.2)) d a ↔ Permits lower BaseP.types BaseO.classes d a := fun d a =>
    ⟨fun ⟨e, he, hm⟩ => ⟨e, BaseO.above_mem (fun d => hcp.mem_iff) he, BaseO.mentions_mem hmem hm⟩,
     fun ⟨e, he, hm⟩ => ⟨e, BaseO.above_mem (fun d => hcp.mem_iff.symm) he, BaseO.mentions_mem (fun d => (hmem d).symm) hm⟩⟩
  refine ⟨fun cls name hk => ?_, fun obj write => (q2 obj write).trans ?_⟩
  · have hk' : Known lower (csch.map (·.2)) cls := hk.imp (fun ⟨d, hd, hi⟩ => ⟨d, hcp.mem_iff.2 hd, hi⟩) id
    obtain ⟨⟨b1, e1, i1⟩, ⟨b2, e2, i2⟩⟩ := (q1 cls name).1 hk'
    refine ⟨⟨b1, e1, i1.trans ⟨?_, ?_⟩⟩, ⟨b2, e2, i2.trans ⟨?_, ?_⟩⟩⟩
    · rintro ⟨d, hd, hi, hx⟩; exact ⟨d, hcp.mem_iff.1 hd, hi, (hreq d name).1 hx⟩
    · rintro ⟨d, hd, hi, hx⟩; exact ⟨d, hcp.mem_iff.2 hd, hi, (hreq d name).2 hx⟩
    · rintro ⟨d, hd, hi, hx⟩; exact ⟨d, hcp.mem_iff.1 hd, hi, hx.imp id (.imp (hreq d name).1 (hper d name).1)⟩
    · rintro ⟨d, hd, hi, hx⟩; exact ⟨d, hcp.mem_iff.2 hd, hi, hx.imp id (.imp (hreq d name).2 (hper d name).2)⟩
  · constructor
    · rintro ⟨ocs, h1, h2⟩
      exact ⟨ocs, h1, BaseO.follows_mem hmem (fun d => hcp.mem_iff) h2⟩
    · rintro ⟨ocs, h1, h2⟩
      exact ⟨ocs, h1, BaseO.follows_mem (fun d => (hmem d).symm) (fun d => hcp.mem_iff.symm) h2⟩

/-- **C109.** With the schema that is shipped, loaded in any order, and whatever was asked, validated and looked up before: a netgroup lookup that is given no list of attributes asks for exactly those of netgroups, and one that is
given a list asks for that. -/
theorem c109_attrs (lower : Str → Str) (h : AsciiLower lower) (ts : List Str) (hts : ts.Perm (BaseSchema.attributeTypes ++ BaseSchema.netgroupTypes)) (cs : List Str)
    (hcs : cs.Perm (BaseSchema.objectClasses ++ BaseSchema.netgroupClasses)) (U : Uni) (depth : Nat) (hdepth : 4 ≤ depth) :
    ∃ r c, load lower Reg.empty ts = (r, .ok ()) ∧ loadClasses lower r Classes.empty cs = (c, .ok ()) ∧
      ∀ earlier, let env := shippedEnv lower U depth r
        let m := asked env extensibleOids c (c.start lower) earlier
        (∃ l, (netgroupAttrsArg env c m none).2 = .ok l ∧ ∀ a, a ∈ l ↔ a ∈ netgroupAttributes) ∧
        (∀ attrs, netgroupAttrsArg env c m (some attrs) = (m, .ok attrs)) ∧
        (∀ earlier', (netgroupAttrsArg env c (asked env extensibleOids c (netgroupAttrsArg env c m none).1 earlier') none).2.map (fun l => netgroupAttributes.all l.contains) = .ok true) := by
  obtain ⟨r, c, hr, hc, _⟩ := c76_accepts lower h ts hts cs hcs U depth hdepth
  refine ⟨r, c, hr, hc, ?_⟩
  obtain ⟨sch, hL, hmem⟩ := BaseP.loaded h hts hr U depth
  obtain ⟨csch, hp, rfl⟩ := BaseP.perm_map (·.1) hcs BaseO.schema BaseO.schema_texts
  have hcp : (csch.map (·.2)).Perm BaseO.classes := by rw [← BaseO.schema_classes]; exact hp.map _
  have hD : DescribesClasses csch := by
    intro p hp'
    refine BaseO.zip_read _ _ BaseO.texts ?_ p (hp.mem_iff.1 hp')
    intro a ha
    rcases List.mem_append.1 ha with ha | ha
    · exact Render.base_classes_ok a ha
    · exact Render.netgroup_classes_ok a ha
  have hO : InOrder lower (sch.map (·.2)) (csch.map (·.2)) depth := BaseO.inOrder h hdepth hmem hcp
  have hcl : ClassesLoaded (shippedEnv lower U depth r) c csch := ⟨hD, hO.distinct, hc⟩
  have key : BaseO.name? netgroupClass = true ∧ (∀ d ∈ BaseO.classes, BaseO.ident d.names netgroupClass = true → ∀ a ∈ BaseO.requires d ++ BaseO.permits d, a ∈ netgroupAttributes) ∧
      ∃ d ∈ BaseO.classes, BaseO.ident d.names netgroupClass = true ∧ ∀ a ∈ netgroupAttributes, a ∈ BaseO.requires d ++ BaseO.permits d := by decide +kernel
  obtain ⟨hn, k1, d0, hd0, hi0, k2⟩ := key
  have hkn : Known lower (csch.map (·.2)) netgroupClass := .inr ⟨'n', _, rfl, by decide⟩
  have main : ∀ m, GoodMemo (shippedEnv lower U depth r) c m → ∃ l, (netgroupAttrs (shippedEnv lower U depth r) c m).2 = .ok l ∧ ∀ a, a ∈ l ↔ a ∈ netgroupAttributes := by
    intro m hg
    obtain ⟨must, may, e1, m1, m2⟩ := lists_spec hL hD hO hcl hg (cls := netgroupClass) hkn
    refine ⟨must ++ may, ?_, fun a => ?_⟩
    · revert e1
      unfold netgroupAttrs
      rcases readClass (shippedEnv lower U depth r).lower c (shippedEnv lower U depth r).depth m netgroupClass with ⟨m', e | p⟩
      · nofun
      · intro e1; cases e1; rfl
    · rw [List.mem_append, m1, m2]
      constructor
      · rintro (⟨d, hd, hi, e, he, hm⟩ | ⟨d, hd, hi, e, he, hm⟩)
        · have hd' := hcp.mem_iff.1 hd
          exact k1 d hd' ((BaseO.class_ident h hd' hn).1 hi) a (List.mem_append.2 (.inl ((BaseO.requires_iff h hd' a).1 ⟨e, BaseO.above_mem (fun d => hcp.mem_iff) he, BaseO.mentions_mem hmem hm⟩)))
        · have hd' := hcp.mem_iff.1 hd
          exact k1 d hd' ((BaseO.class_ident h hd' hn).1 hi) a (List.mem_append.2 (.inr ((BaseO.permits_iff h hd' a).1 ⟨e, BaseO.above_mem (fun d => hcp.mem_iff) he, BaseO.mentions_mem hmem hm⟩)))
      · intro ha
        rcases List.mem_append.1 (k2 a ha) with ha | ha
        · obtain ⟨e, he, hm⟩ := (BaseO.requires_iff h hd0 a).2 ha
          exact .inl ⟨d0, hcp.mem_iff.2 hd0, (BaseO.class_ident h hd0 hn).2 hi0, e, BaseO.above_mem (fun d => hcp.mem_iff.symm) he, BaseO.mentions_mem (fun d => (hmem d).symm) hm⟩
        · obtain ⟨e, he, hm⟩ := (BaseO.permits_iff h hd0 a).2 ha
          exact .inr ⟨d0, hcp.mem_iff.2 hd0, (BaseO.class_ident h hd0 hn).2 hi0, e, BaseO.above_mem (fun d => hcp.mem_iff.symm) he, BaseO.mentions_mem (fun d => (hmem d).symm) hm⟩
  intro earlier env m
  have hg : GoodMemo env c m := good_asked hL hD hO hcl extensibleOids earlier good_start
  refine ⟨main m hg, fun _ => rfl, fun earlier' => ?_⟩
  have hg1 : GoodMemo env c (netgroupAttrsArg env c m none).1 := by
    have := (hcl.readClass (acyclic hL hD hO hcl) m hg netgroupClass).1
    revert this
    simp only [netgroupAttrsArg, netgroupAttrs]
    rcases readClass env.lower c env.depth m netgroupClass with ⟨m', e | p⟩ <;> exact fun h => h
  obtain ⟨l, h1, h2⟩ := main _ (good_asked hL hD hO hcl extensibleOids earlier' hg1)
  simp only [netgroupAttrsArg] at h1 ⊢
  rw [h1]
  simp only [Except.map, Except.ok.injEq, List.all_eq_true]
  exact fun a ha => List.contains_iff_mem.2 ((h2 a).2 ha)

/-- an entry of class `extensibleObject` with a name -/
def extensibleEntry : CIDict Str (List Str) :=
  (CIDict.empty.setItem BaseP.al (str "objectClass") [str "top", str "extensibleObject"]).setItem BaseP.al (str "cn") [str "Ann"]

/-- **C108 (found).** With the schema that is shipped, whatever was asked before: `extensibleObject` says that it allows any attribute, but an object of that class with a name is refused. A person must have a surname
and may have a description, spelled that way. -/
theorem c108_extensible (U : Uni) : ∃ r c, load BaseP.al Reg.empty (BaseSchema.attributeTypes ++ BaseSchema.netgroupTypes) = (r, .ok ()) ∧
    loadClasses BaseP.al r Classes.empty (BaseSchema.objectClasses ++ BaseSchema.netgroupClasses) = (c, .ok ()) ∧ ∀ earlier, let env := shippedEnv BaseP.al U 900 r
      let m := asked env extensibleOids c (c.start BaseP.al) earlier
      (∀ name, (ask env extensibleOids c m (.allowed (str "extensibleObject") name)).2 = .ok true) ∧
      (∀ write, (ask env extensibleOids c m (.object extensibleEntry write)).2 ≠ .ok true) ∧
      (ask env extensibleOids c m (.required (str "PERSON") (str "sn"))).2 = .ok true ∧ (ask env extensibleOids c m (.required (str "person") (str "description"))).2 = .ok false ∧
      (ask env extensibleOids c m (.allowed (str "person") (str "description"))).2 = .ok true ∧ (ask env extensibleOids c m (.allowed (str "person") (str "Description"))).2 = .ok false := by
  have hA : AsciiLower BaseP.al := fun _ _ => rfl
  obtain ⟨r, c, h1, h2, h3⟩ := c108_shipped BaseP.al hA _ (.refl _) _ (.refl _) U 900 (by decide)
  refine ⟨r, c, h1, h2, fun earlier => ?_⟩
  obtain ⟨q1, q2⟩ := h3 earlier
  have known : ∀ cls, (∃ k t, cls = k :: t ∧ Rfc4512.isDigit k = false) → Known BaseP.al BaseO.classes cls := fun cls hu => .inr hu
  have nm : ∀ {cls name}, Known BaseP.al BaseO.classes cls → BaseO.name? cls = true →
      (IsRequired BaseP.al BaseP.types BaseO.classes cls name ↔ ∃ d ∈ BaseO.classes, BaseO.ident d.names cls = true ∧ name ∈ BaseO.requires d) ∧
      (IsAllowed BaseP.al BaseP.types BaseO.classes extensibleOids cls name ↔ ∃ d ∈ BaseO.classes, BaseO.ident d.names cls = true ∧ (d.oid ∈ extensibleOids ∨ name ∈ BaseO.requires d ∨ name ∈ BaseO.permits d)) := by
    intro cls name _ hn
    refine ⟨⟨?_, ?_⟩, ⟨?_, ?_⟩⟩
    · rintro ⟨d, hd, hi, hx⟩; exact ⟨d, hd, (BaseO.class_ident hA hd hn).1 hi, (BaseO.requires_iff hA hd _).1 hx⟩
    · rintro ⟨d, hd, hi, hx⟩; exact ⟨d, hd, (BaseO.class_ident hA hd hn).2 hi, (BaseO.requires_iff hA hd _).2 hx⟩
    · rintro ⟨d, hd, hi, hx⟩; exact ⟨d, hd, (BaseO.class_ident hA hd hn).1 hi, hx.imp id (.imp (BaseO.requires_iff hA hd _).1 (BaseO.permits_iff hA hd _).1)⟩
    · rintro ⟨d, hd, hi, hx⟩; exact ⟨d, hd, (BaseO.class_ident hA hd hn).2 hi, hx.imp id (.imp (BaseO.requires_iff hA hd _).2 (BaseO.permits_iff hA hd _).2)⟩
  have yes : ∀ {x : Except Err Bool} {P : Prop}, (∃ b, x = .ok b ∧ (b = true ↔ P)) → P → x = .ok true := by
    rintro x P ⟨b, hb, hi⟩ hP
    rw [hb, hi.2 hP]
  have no : ∀ {x : Except Err Bool} {P : Prop}, (∃ b, x = .ok b ∧ (b = true ↔ P)) → ¬ P → x = .ok false := by
    rintro x P ⟨b, hb, hi⟩ hP
    cases b with
    | false => exact hb
    | true => exact absurd (hi.1 rfl) hP
  have kp : Known BaseP.al BaseO.classes (str "person") := known _ ⟨'p', _, rfl, by decide⟩
  have kP : Known BaseP.al BaseO.classes (str "PERSON") := known _ ⟨'P', _, rfl, by decide⟩
  have ke : Known BaseP.al BaseO.classes (str "extensibleObject") := known _ ⟨'e', _, rfl, by decide⟩
  refine ⟨fun name => yes (q1 _ name ke).2 ?_, fun write hacc => ?_, yes (q1 _ _ kP).1 ?_, no (q1 _ _ kp).1 ?_, yes (q1 _ _ kp).2 ?_, no (q1 _ _ kp).2 ?_⟩
  · have key : BaseO.name? (str "extensibleObject") = true ∧ ∃ d ∈ BaseO.classes, BaseO.ident d.names (str "extensibleObject") = true ∧ d.oid ∈ extensibleOids := by decide +kernel
    obtain ⟨hn, d, hd, hi, hx⟩ := key
    exact (nm ke hn).2.2 ⟨d, hd, hi, .inl hx⟩
  · obtain ⟨ocs, hoc, hf⟩ := (q2 _ _).1 hacc
    have : ocs = [str "top", str "extensibleObject"] := by
      have : extensibleEntry.getItem BaseP.al (str "objectClass") = .ok [str "top", str "extensibleObject"] := by decide
      rw [this] at hoc
      exact (Except.ok.inj hoc).symm
    subst this
    obtain ⟨v, hv, d, hd, hi, a, rfl, ha⟩ := hf.permitted (str "cn") (by decide)
    have key : ∀ v ∈ [str "top", str "extensibleObject"], BaseO.name? v = true ∧ ∀ d ∈ BaseO.classes, BaseO.ident d.names v = true → str "cn" ∉ BaseO.requires d ∧ str "cn" ∉ BaseO.permits d := by decide +kernel
    obtain ⟨hn, hk⟩ := key v hv
    obtain ⟨k1, k2⟩ := hk d hd ((BaseO.class_ident hA hd hn).1 hi)
    rcases ha with ha | ha
    · exact k1 ((BaseO.requires_iff hA hd _).1 ha)
    · exact k2 ((BaseO.permits_iff hA hd _).1 ha)
  · exact (nm kP (by decide +kernel)).1.2 (by decide +kernel)
  · exact fun hx => absurd ((nm kp (by decide +kernel)).1.1 hx) (by decide +kernel)
  · exact (nm kp (by decide +kernel)).2.2 (by decide +kernel)
  · exact fun hx => absurd ((nm kp (by decide +kernel)).2.1 hx) (by decide +kernel)

end
end Laurelin.Props
