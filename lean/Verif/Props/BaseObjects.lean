import Verif.Props.BaseSchema
import Verif.Props.ObjectSchema
/-!
# C76, C78 the shipped object classes, and what the validator accepts with the shipped schema
-/
set_option linter.unusedSectionVars false
set_option maxRecDepth 100000
namespace Laurelin.Props
open Laurelin Schema SchemaSpec Spec Spec.AttrSchema Spec.ObjectSchema Laurelin.AttrSchema Laurelin.ObjectSchema BaseRules
local notation "codeLex" => Laurelin.SchemaSpec.codeLex

namespace BaseO
open BaseP

/-- all object classes that are shipped, as descriptions -/
def classes : List Rfc4512.ObjectClass := (Render.baseClasses ++ Render.netgroupClasses).map Render.OC.says

/-- the texts with what they say -/
def schema : List (Str × Rfc4512.ObjectClass) := (BaseSchema.objectClasses ++ BaseSchema.netgroupClasses).zip classes

theorem texts : (BaseSchema.objectClasses ++ BaseSchema.netgroupClasses).map collapse = (Render.baseClasses ++ Render.netgroupClasses).map Render.OC.text := by
  rw [List.map_append, List.map_append, Render.base_classes_text, Render.netgroup_classes_text]

theorem lens : (BaseSchema.objectClasses ++ BaseSchema.netgroupClasses).length = classes.length := by
  have := congrArg List.length texts
  simpa [classes] using this

theorem schema_texts : schema.map (·.1) = BaseSchema.objectClasses ++ BaseSchema.netgroupClasses :=
  List.map_fst_zip (l₁ := BaseSchema.objectClasses ++ BaseSchema.netgroupClasses) (l₂ := classes) (by rw [lens]; exact Nat.le_refl _)

theorem schema_classes : schema.map (·.2) = classes :=
  List.map_snd_zip (l₁ := BaseSchema.objectClasses ++ BaseSchema.netgroupClasses) (l₂ := classes) (by rw [lens]; exact Nat.le_refl _)

theorem zip_read : ∀ (l : List Str) (m : List Render.OC), l.map collapse = m.map Render.OC.text → (∀ a ∈ m, a.ok = true) →
    ∀ p ∈ l.zip (m.map Render.OC.says), Rfc4512.objectClass codeLex p.2 (collapse p.1)
  | [], _, _, _, p, hp => by simp at hp
  | s :: l, [], h, _, _, _ => by cases h
  | s :: l, a :: m, h, hok, p, hp => by
    simp only [List.map_cons, List.cons.injEq] at h
    simp only [List.map_cons, List.zip_cons_cons, List.mem_cons] at hp
    rcases hp with rfl | hp
    · simp only [h.1]; exact Render.OC.text_says a (hok a (by simp))
    · exact zip_read l m h.2 (fun b hb => hok b (by simp [hb])) p hp

theorem oids_nodup : (classes.map (·.oid)).Nodup := by decide +kernel
theorem names_nodup : ((classes.map (·.names)).flatten.map al).Nodup := by decide +kernel
theorem names_ascii : ∀ n ∈ (classes.map (·.names)).flatten, ascii n = true := by decide +kernel

def name? (s : Str) : Bool := ascii s && eff.okStart s

theorem sups_names : ∀ d ∈ classes, ∀ s ∈ d.sups, name? s = true := by decide +kernel
theorem lists_names : ∀ d ∈ classes, ∀ s ∈ d.must ++ d.may, name? s = true := by decide +kernel
theorem type_oids : ∀ d ∈ types, eff.okStart d.oid = false := by decide +kernel
theorem class_oids : ∀ d ∈ classes, eff.okStart d.oid = false := by decide +kernel

theorem okStart_iff {s : Str} : eff.okStart s = true ↔ ∃ c t, s = c :: t ∧ Rfc4512.isDigit c = false := by
  cases s with
  | nil => simp [eff.okStart]
  | cons c t => simp [eff.okStart]

/-- a name identifies a class by ASCII casing -/
def ident (names : List Str) (s : Str) : Bool := names.any (fun n => decide (al s = al n))

theorem ident_iff {lower : Str → Str} (h : AsciiLower lower) {oid : Str} {names : List Str} {s : Str} (hs : name? s = true) (hn : ∀ n ∈ names, ascii n = true) (ho : eff.okStart oid = false) :
    Identifies lower oid names s ↔ ident names s = true := by
  simp only [name?, Bool.and_eq_true] at hs
  simp only [ident, List.any_eq_true, decide_eq_true_eq, Identifies]
  constructor
  · rintro (rfl | ⟨_, n, hn', hl⟩)
    · rw [ho] at hs; cases hs.2
    · exact ⟨n, hn', by rw [← al_of h hs.1, ← al_of h (hn n hn')]; exact hl⟩
  · rintro ⟨n, hn', hl⟩
    exact .inr ⟨okStart_iff.1 hs.2, n, hn', by rw [al_of h hs.1, al_of h (hn n hn')]; exact hl⟩

theorem class_ascii {d : Rfc4512.ObjectClass} (hd : d ∈ classes) : ∀ n ∈ d.names, ascii n = true :=
  fun n hn => names_ascii n (List.mem_flatten.2 ⟨_, List.mem_map.2 ⟨d, hd, rfl⟩, hn⟩)

theorem type_ascii {d : Rfc4512.AttributeType} (hd : d ∈ types) : ∀ n ∈ d.names, ascii n = true :=
  fun n hn => BaseP.names_ascii n (List.mem_flatten.2 ⟨_, List.mem_map.2 ⟨d, hd, rfl⟩, hn⟩)

theorem class_ident {lower : Str → Str} (h : AsciiLower lower) {d : Rfc4512.ObjectClass} (hd : d ∈ classes) {s : Str} (hs : name? s = true) :
    Identifies lower d.oid d.names s ↔ ident d.names s = true := ident_iff h hs (class_ascii hd) (class_oids d hd)

/-- how far a class is below the top, up to 3 -/
def height : Nat → Rfc4512.ObjectClass → Nat
  | 0, _ => 0
  | n + 1, d => (d.sups.map (fun s => ((classes.filter (fun e => ident e.names s)).map (fun e => height n e + 1)).foldl max 0)).foldl max 0

theorem heights : ∀ d ∈ classes, height 4 d < 4 ∧ ∀ s ∈ d.sups, (∃ e ∈ classes, ident e.names s = true) ∧ ∀ e ∈ classes, ident e.names s = true → height 4 e < height 4 d := by decide +kernel

/-- the classes above, computed -/
def ancs : Nat → Rfc4512.ObjectClass → List Rfc4512.ObjectClass
  | 0, d => [d]
  | n + 1, d => d :: (d.sups.flatMap (fun s => (classes.filter (fun e => ident e.names s)).flatMap (ancs n)))

theorem ancs_iff {lower : Str → Str} (h : AsciiLower lower) (n : Nat) (d e : Rfc4512.ObjectClass) (hd : d ∈ classes) (hn : height 4 d ≤ n) : AtOrAbove lower classes d e ↔ e ∈ ancs n d := by
  constructor
  · intro ha
    induction ha generalizing n with
    | self d => cases n <;> simp [ancs]
    | above c d k s h1 h2 h3 _ ih =>
      have hid := (class_ident h h2 (sups_names c hd s h1)).1 h3
      have hlt := ((heights c hd).2 s h1).2 d h2 hid
      cases n with
      | zero => omega
      | succ n =>
        simp only [ancs, List.mem_cons, List.mem_flatMap, List.mem_filter]
        exact .inr ⟨s, h1, d, ⟨h2, hid⟩, ih n h2 (by omega)⟩
  · intro he
    induction n generalizing d with
    | zero =>
      rw [List.mem_singleton.1 he]
      exact .self d
    | succ n ih =>
      simp only [ancs, List.mem_cons, List.mem_flatMap, List.mem_filter] at he
      rcases he with rfl | ⟨s, hs, f, ⟨hf, hid⟩, hx⟩
      · exact .self _
      · have hlt := ((heights d hd).2 s hs).2 f hf hid
        exact .above d f e s hs hf ((class_ident h hf (sups_names d hd s hs)).2 hid) (ih f hf (by omega) hx)

def requires (d : Rfc4512.ObjectClass) : List Str := (ancs 3 d).flatMap (·.must)
def permits (d : Rfc4512.ObjectClass) : List Str := (ancs 3 d).flatMap (·.may)

theorem mentions_names {l : List Str} (hl : ∀ s ∈ l, name? s = true) (a : Str) : Mentions types l a ↔ a ∈ l := by
  constructor
  · rintro (⟨h, _⟩ | ⟨d, hd, ho, _⟩)
    · exact h
    · have := hl _ ho
      simp [name?, type_oids d hd] at this
  · intro h
    have := hl a h
    simp only [name?, Bool.and_eq_true] at this
    exact .inl ⟨h, okStart_iff.1 this.2⟩

theorem ancs_mem (n : Nat) (d e : Rfc4512.ObjectClass) (hd : d ∈ classes) (he : e ∈ ancs n d) : e ∈ classes := by
  induction n generalizing d with
  | zero => rw [List.mem_singleton.1 he]; exact hd
  | succ n ih =>
    simp only [ancs, List.mem_cons, List.mem_flatMap, List.mem_filter] at he
    rcases he with rfl | ⟨s, hs, f, ⟨hf, _⟩, hx⟩
    · exact hd
    · exact ih f hf hx

theorem requires_iff {lower : Str → Str} (h : AsciiLower lower) {d : Rfc4512.ObjectClass} (hd : d ∈ classes) (a : Str) : Requires lower types classes d a ↔ a ∈ requires d := by
  simp only [Requires, requires, List.mem_flatMap]
  have hh := (heights d hd).1
  constructor
  · rintro ⟨k, hk, hm⟩
    have hk' := (ancs_iff h 3 d k hd (by omega)).1 hk
    exact ⟨k, hk', (mentions_names (fun s hs => lists_names k (ancs_mem 3 d k hd hk') s (by simp [hs])) a).1 hm⟩
  · rintro ⟨k, hk, hm⟩
    exact ⟨k, (ancs_iff h 3 d k hd (by omega)).2 hk, (mentions_names (fun s hs => lists_names k (ancs_mem 3 d k hd hk) s (by simp [hs])) a).2 hm⟩

theorem permits_iff {lower : Str → Str} (h : AsciiLower lower) {d : Rfc4512.ObjectClass} (hd : d ∈ classes) (a : Str) : Permits lower types classes d a ↔ a ∈ permits d := by
  simp only [Permits, permits, List.mem_flatMap]
  have hh := (heights d hd).1
  constructor
  · rintro ⟨k, hk, hm⟩
    have hk' := (ancs_iff h 3 d k hd (by omega)).1 hk
    exact ⟨k, hk', (mentions_names (fun s hs => lists_names k (ancs_mem 3 d k hd hk') s (by simp [hs])) a).1 hm⟩
  · rintro ⟨k, hk, hm⟩
    exact ⟨k, (ancs_iff h 3 d k hd (by omega)).2 hk, (mentions_names (fun s hs => lists_names k (ancs_mem 3 d k hd hk) s (by simp [hs])) a).2 hm⟩

theorem lines_end : ∀ d ∈ types, (eff (fun _ => (none : Option Unit)) 3 d).isSome = true := by decide +kernel

theorem inOrder {lower : Str → Str} (h : AsciiLower lower) {depth : Nat} (hdepth : 4 ≤ depth) {ts : List Rfc4512.AttributeType} {cs : List Rfc4512.ObjectClass}
    (ht : ∀ d, d ∈ ts ↔ d ∈ types) (hc : cs.Perm classes) : InOrder lower ts cs depth := by
  refine ⟨⟨?_, ?_⟩, ?_, ?_, ?_⟩
  · exact (hc.map (fun d : Rfc4512.ObjectClass => d.oid)).nodup_iff.2 oids_nodup
  · refine ((hc.map (fun d : Rfc4512.ObjectClass => d.names)).flatten.map lower).nodup_iff.2 ?_
    have : (classes.map (·.names)).flatten.map lower = (classes.map (·.names)).flatten.map al := List.map_congr_left (fun n hn => al_of h (names_ascii n hn))
    rw [this]; exact names_nodup
  · intro c hcm s hs
    have hc' := hc.mem_iff.1 hcm
    obtain ⟨e, he, hid⟩ := ((heights c hc').2 s hs).1
    exact .inl ⟨e, hc.mem_iff.2 he, (class_ident h he (sups_names c hc' s hs)).2 hid⟩
  · refine ⟨height 4, fun c hcm => Nat.lt_of_lt_of_le (heights c (hc.mem_iff.1 hcm)).1 hdepth, ?_⟩
    intro c hcm d hd s hs hi
    have hc' := hc.mem_iff.1 hcm
    have hd' := hc.mem_iff.1 hd
    exact ((heights c hc').2 s hs).2 d hd' ((class_ident h hd' (sups_names c hc' s hs)).1 hi)
  · intro d hd
    have hd' := (ht d).1 hd
    obtain ⟨x, hx⟩ := Option.isSome_iff_exists.1 (lines_end d hd')
    obtain ⟨m, hm, he⟩ := eff_spec h _ 3 d x hx
    exact ⟨m, by omega, x, eff_mem (fun d => (ht d).symm) he⟩

/-! membership is all that matters -/

theorem above_mem {lower : Str → Str} {c1 c2 : List Rfc4512.ObjectClass} (h : ∀ d, d ∈ c1 ↔ d ∈ c2) {d e : Rfc4512.ObjectClass} (ha : AtOrAbove lower c1 d e) : AtOrAbove lower c2 d e := by
  induction ha with
  | self d => exact .self d
  | above c d k s h1 h2 h3 _ ih => exact .above c d k s h1 ((h d).1 h2) h3 ih

theorem mentions_mem {t1 t2 : List Rfc4512.AttributeType} (h : ∀ d, d ∈ t1 ↔ d ∈ t2) {l : List Str} {a : Str} (hm : Mentions t1 l a) : Mentions t2 l a := by
  rcases hm with hm | ⟨d, hd, ho, ha⟩
  · exact .inl hm
  · exact .inr ⟨d, (h d).1 hd, ho, ha⟩

theorem good_mem {lower : Str → Str} {t1 t2 : List Rfc4512.AttributeType} (h : ∀ d, d ∈ t1 ↔ d ∈ t2) {ok : Str → Str → Prop} {d : Rfc4512.AttributeType} {vs : List Str} {w : Bool}
    (hg : GoodAttr lower t1 ok d vs w) : GoodAttr lower t2 ok d vs w := by
  obtain ⟨g1, g2, g3⟩ := hg
  refine ⟨?_, ?_, ?_⟩
  · rintro ⟨n, hn⟩; exact g1 ⟨n, eff_mem (fun d => (h d).symm) hn⟩
  · rintro hw ⟨n, hn⟩; exact g2 hw ⟨n, eff_mem (fun d => (h d).symm) hn⟩
  · intro v hv
    obtain ⟨n, o, l, he, r⟩ := g3 v hv
    exact ⟨n, o, l, eff_mem h he, r⟩

theorem follows_mem {lower : Str → Str} {t1 t2 : List Rfc4512.AttributeType} {c1 c2 : List Rfc4512.ObjectClass} (ht : ∀ d, d ∈ t1 ↔ d ∈ t2) (hc : ∀ d, d ∈ c1 ↔ d ∈ c2)
    {ok : Str → Str → Prop} {same : Str → Str → Prop} {ocs : List Str} {entry : List (Str × List Str)} {w : Bool}
    (hf : Follows lower t1 c1 ok same ocs entry w) : Follows lower t2 c2 ok same ocs entry w := by
  obtain ⟨f1, f2, f3, f4⟩ := hf
  refine ⟨?_, ?_, ?_, ?_⟩
  · intro v hv
    rcases f1 v hv with ⟨c, h1, h2⟩ | h
    · exact .inl ⟨c, (hc c).1 h1, h2⟩
    · exact .inr h
  · intro v hv c hcm hi a ⟨k, hk, hm⟩
    exact f2 v hv c ((hc c).2 hcm) hi a ⟨k, above_mem (fun d => (hc d).symm) hk, mentions_mem (fun d => (ht d).symm) hm⟩
  · intro k hk
    obtain ⟨v, hv, c, hcm, hi, a, hs, hr⟩ := f3 k hk
    refine ⟨v, hv, c, (hc c).1 hcm, hi, a, hs, ?_⟩
    rcases hr with ⟨e, he, hm⟩ | ⟨e, he, hm⟩
    · exact .inl ⟨e, above_mem hc he, mentions_mem ht hm⟩
    · exact .inr ⟨e, above_mem hc he, mentions_mem ht hm⟩
  · intro kv hkv
    rcases f4 kv hkv with ⟨d, hd, hi, hg⟩ | ⟨h1, h2⟩
    · exact .inl ⟨d, (ht d).1 hd, hi, good_mem ht hg⟩
    · exact .inr ⟨fun d hd => h1 d ((ht d).2 hd), h2⟩

end BaseO

/-- **C76, C78 (shipped schema).** The shipped texts are read without error in whatever order: first the attribute types, then the object classes. Then, whatever objects were validated before,
an object is accepted exactly when it has an `objectClass` and follows the shipped descriptions, its attribute names spelled as in the classes. -/
theorem c76_accepts (lower : Str → Str) (h : AsciiLower lower) (ts : List Str) (hts : ts.Perm (BaseSchema.attributeTypes ++ BaseSchema.netgroupTypes)) (cs : List Str)
    (hcs : cs.Perm (BaseSchema.objectClasses ++ BaseSchema.netgroupClasses)) (U : Uni) (depth : Nat) (hdepth : 4 ≤ depth) :
    ∃ r c, load lower Reg.empty ts = (r, .ok ()) ∧ loadClasses lower r Classes.empty cs = (c, .ok ()) ∧
      ∀ earlier obj write, let env := shippedEnv lower U depth r
        (Laurelin.ObjectSchema.validateObject env c (validateObjects env c (c.start lower) earlier) obj write).2 = .ok () ↔
          ∃ ocs, obj.getItem lower (str "objectClass") = .ok ocs ∧
            Follows lower BaseP.types BaseO.classes (fun oid v => ∃ q, getSyntaxRule (baseSyntaxes ++ netgroupSyntaxes) oid = .ok q ∧ q.validate v = .ok ()) (fun a k => a = k) ocs obj.items write := by
  obtain ⟨r, hr, _⟩ := c76_load lower h ts hts
  obtain ⟨sch, hL, hmem⟩ := BaseP.loaded h hts hr U depth
  obtain ⟨csch, hp, rfl⟩ := BaseP.perm_map (·.1) hcs BaseO.schema BaseO.schema_texts
  have hcp : (csch.map (·.2)).Perm BaseO.classes := by rw [← BaseO.schema_classes]; exact hp.map _
  have hD : DescribesClasses csch := by
    intro p hp'
    refine BaseO.zip_read _ _ BaseO.texts ?_ p (hp.mem_iff.1 hp')
    intro a ha
    rcases List.mem_append.1 ha with ha | ha
    · exact Render.base_classes_ok a ha
    · exact Render.netgroup_classes_ok a ha
  have hO : InOrder lower (sch.map (·.2)) (csch.map (·.2)) depth := BaseO.inOrder h hdepth hmem hcp
  obtain ⟨c, hc, _⟩ := c78_accepts (shippedEnv lower U depth r) sch hL csch hD hO [] CIDict.empty false
  refine ⟨r, c, hr, hc, ?_⟩
  intro earlier obj write env
  obtain ⟨c', hc', key⟩ := c78_accepts (shippedEnv lower U depth r) sch hL csch hD hO earlier obj write
  have hcc : c' = c := by
    have := hc.symm.trans hc'
    simp only [Prod.mk.injEq, and_true] at this
    exact this.symm
  subst hcc
  refine key.trans ?_
  constructor
  · rintro ⟨ocs, h1, h2⟩
    exact ⟨ocs, h1, BaseO.follows_mem hmem (fun d => hcp.mem_iff) h2⟩
  · rintro ⟨ocs, h1, h2⟩
    exact ⟨ocs, h1, BaseO.follows_mem (fun d => (hmem d).symm) (fun d => hcp.mem_iff.symm) h2⟩

/-- **C76 (requirements).** Each shipped class requires exactly the attributes of the table, which lists all classes; each attribute a class requires or permits is that of a shipped attribute type. -/
theorem c76_classes (lower : Str → Str) (h : AsciiLower lower) :
    (∀ e ∈ BaseSchema.required, ∃ c ∈ BaseO.classes, c.names = [e.1] ∧ ∀ a, Requires lower BaseP.types BaseO.classes c a ↔ a ∈ e.2) ∧
    (∀ c ∈ BaseO.classes, (∃ e ∈ BaseSchema.required, c.names = [e.1]) ∧
      ∀ a, Requires lower BaseP.types BaseO.classes c a ∨ Permits lower BaseP.types BaseO.classes c a → ∃ d ∈ BaseP.types, Identifies lower d.oid d.names a) := by
  refine ⟨?_, ?_⟩
  · intro e he
    have key : ∀ e ∈ BaseSchema.required, ∃ c ∈ BaseO.classes, c.names = [e.1] ∧ (∀ a ∈ BaseO.requires c, a ∈ e.2) ∧ ∀ a ∈ e.2, a ∈ BaseO.requires c := by decide +kernel
    obtain ⟨c, hc, hn, h1, h2⟩ := key e he
    exact ⟨c, hc, hn, fun a => (BaseO.requires_iff h hc a).trans ⟨h1 a, h2 a⟩⟩
  · intro c hc
    have key : ∀ c ∈ BaseO.classes, (∃ e ∈ BaseSchema.required, c.names = [e.1]) ∧ ∀ a ∈ BaseO.requires c ++ BaseO.permits c, BaseO.name? a = true ∧ ∃ d ∈ BaseP.types, BaseO.ident d.names a = true := by
      decide +kernel
    refine ⟨(key c hc).1, ?_⟩
    intro a ha
    rw [BaseO.requires_iff h hc, BaseO.permits_iff h hc] at ha
    obtain ⟨hn, d, hd, hi⟩ := (key c hc).2 a (List.mem_append.2 ha)
    exact ⟨d, hd, (BaseO.ident_iff h hn (BaseO.type_ascii hd) (BaseO.type_oids d hd)).2 hi⟩

/-- **C76 (spelling).** Apart from the cases of the table, a class that requires or permits an attribute does so under the spelling of the attribute's definition. -/
theorem c76_spelling (lower : Str → Str) (h : AsciiLower lower) (c : Rfc4512.ObjectClass) (hc : c ∈ BaseO.classes) (a : Str)
    (ha : Requires lower BaseP.types BaseO.classes c a ∨ Permits lower BaseP.types BaseO.classes c a) :
    (∃ d ∈ BaseP.types, Identifies lower d.oid d.names a ∧ ∃ n, d.names = [n] ∧
      (Requires lower BaseP.types BaseO.classes c n ∨ Permits lower BaseP.types BaseO.classes c n)) ∨
    ∃ n d, (n, a, d) ∈ BaseSchema.misspelled ∧ c.names = [n] := by
  have key : ∀ c ∈ BaseO.classes, ∀ a ∈ BaseO.requires c ++ BaseO.permits c, BaseO.name? a = true ∧
      ((∃ d ∈ BaseP.types, BaseO.ident d.names a = true ∧ ∃ n ∈ d.names, d.names = [n] ∧ n ∈ BaseO.requires c ++ BaseO.permits c) ∨
        ∃ x ∈ BaseSchema.misspelled, x.2.1 = a ∧ c.names = [x.1]) := by decide +kernel
  rw [BaseO.requires_iff h hc, BaseO.permits_iff h hc] at ha
  obtain ⟨hn, hd | ⟨⟨n, a', d⟩, hx, rfl, hcn⟩⟩ := key c hc a (List.mem_append.2 ha)
  · obtain ⟨d, hd, hi, n, _, hdn, hm⟩ := hd
    refine .inl ⟨d, hd, (BaseO.ident_iff h hn (BaseO.type_ascii hd) (BaseO.type_oids d hd)).2 hi, n, hdn, ?_⟩
    rw [BaseO.requires_iff h hc, BaseO.permits_iff h hc]
    exact List.mem_append.1 hm
  · exact .inr ⟨n, d, hx, hcn⟩

/-- In the cases of the table the class permits the attribute under another spelling only: an object of that class alone that has the attribute spelled as in its definition is refused. -/
theorem c76_misspelled (lower : Str → Str) (h : AsciiLower lower) (n listed defined : Str) (hx : (n, listed, defined) ∈ BaseSchema.misspelled) (ok : Str → Str → Prop) (ocs : List Str)
    (entry : List (Str × List Str)) (write : Bool) (hocs : ∀ v ∈ ocs, Casing lower n v) (hk : defined ∈ entry.map Prod.fst) :
    ¬ Follows lower BaseP.types BaseO.classes ok (fun a k => a = k) ocs entry write ∧
    (∃ c ∈ BaseO.classes, c.names = [n] ∧ Permits lower BaseP.types BaseO.classes c listed) ∧
    ∃ d ∈ BaseP.types, d.names = [defined] ∧ Identifies lower d.oid d.names listed := by
  have key : ∀ x ∈ BaseSchema.misspelled, BaseP.ascii x.1 = true ∧ BaseO.name? x.2.1 = true ∧
      (∀ c ∈ BaseO.classes, ∀ m ∈ c.names, BaseP.al m = BaseP.al x.1 → x.2.2 ∉ BaseO.requires c ∧ x.2.2 ∉ BaseO.permits c) ∧
      (∃ c ∈ BaseO.classes, c.names = [x.1] ∧ x.2.1 ∈ BaseO.permits c) ∧ ∃ d ∈ BaseP.types, d.names = [x.2.2] ∧ BaseO.ident d.names x.2.1 = true := by decide +kernel
  obtain ⟨k1, k2, k3, ⟨c, hc, hcn, hp⟩, ⟨d, hd, hdn, hi⟩⟩ := key _ hx
  refine ⟨?_, ⟨c, hc, hcn, (BaseO.permits_iff h hc _).2 hp⟩, d, hd, hdn, (BaseO.ident_iff h k2 (BaseO.type_ascii hd) (BaseO.type_oids d hd)).2 hi⟩
  rintro ⟨_, _, h3, _⟩
  obtain ⟨v, hv, c, hc, hi, a, rfl, ha⟩ := h3 defined hk
  obtain ⟨⟨ch, t, rfl, hch⟩, hl⟩ := hocs v hv
  rw [BaseO.requires_iff h hc, BaseO.permits_iff h hc] at ha
  have : ∃ m ∈ c.names, BaseP.al m = BaseP.al n := by
    rcases hi with hi | ⟨_, m, hm, hlm⟩
    · have := BaseO.class_oids c hc
      rw [← hi] at this
      simp [BaseP.eff.okStart, hch] at this
    · refine ⟨m, hm, ?_⟩
      rw [← BaseP.al_of h (BaseO.class_ascii hc m hm), ← hlm, hl, BaseP.al_of h k1]
  obtain ⟨m, hm, hmn⟩ := this
  have := k3 c hc m hm hmn
  exact ha.elim this.1 this.2

/-- **C76 (`objectClass`).** An object that the validator accepts has the attribute `objectClass` in exactly this spelling (servers may return another), and one of its classes is defined. -/
theorem c76_object_class (lower : Str → Str) (h : AsciiLower lower) (ok : Str → Str → Prop) (write : Bool) (ocs : List Str) (entry : List (Str × List Str))
    (hascii : ∀ k ∈ entry.map Prod.fst, ∀ c ∈ k, c.toNat < 128) (hkey : ∃ k ∈ entry.map Prod.fst, lower k = lower (str "objectClass"))
    (hf : Follows lower BaseP.types BaseO.classes ok (fun a k => a = k) ocs entry write) :
    str "objectClass" ∈ entry.map Prod.fst ∧ ∃ v ∈ ocs, ∃ c ∈ BaseO.classes, Identifies lower c.oid c.names v := by
  obtain ⟨k, hk, hlk⟩ := hkey
  obtain ⟨v, hv, c, hc, hi, a, rfl, ha⟩ := hf.permitted k hk
  refine ⟨?_, v, hv, c, hc, hi⟩
  have key : ∀ c ∈ BaseO.classes, str "objectClass" ∈ BaseO.requires c ∨ ∀ a ∈ BaseO.requires c ++ BaseO.permits c, BaseP.al a ≠ BaseP.al (str "objectClass") := by decide +kernel
  rcases key c hc with hr | hr
  · obtain ⟨k', hk', rfl⟩ := hf.required v hv c hc hi (str "objectClass") ((BaseO.requires_iff h hc _).2 hr)
    exact hk'
  · rw [BaseO.requires_iff h hc, BaseO.permits_iff h hc] at ha
    refine absurd ?_ (hr a (List.mem_append.2 ha))
    exact (h a (hascii a hk)).symm.trans (hlk.trans (BaseP.al_of h (by decide)))

/-- **C76 (permissions).** Each shipped class permits exactly the attributes of the table, which lists all classes. -/
theorem c76_permits (lower : Str → Str) (h : AsciiLower lower) :
    (∀ e ∈ BaseSchema.permitted, ∃ c ∈ BaseO.classes, c.names = [e.1] ∧ ∀ a, Permits lower BaseP.types BaseO.classes c a ↔ a ∈ e.2) ∧
    (∀ c ∈ BaseO.classes, ∃ e ∈ BaseSchema.permitted, c.names = [e.1]) := by
  refine ⟨?_, by decide +kernel⟩
  intro e he
  have key : ∀ e ∈ BaseSchema.permitted, ∃ c ∈ BaseO.classes, c.names = [e.1] ∧ (∀ a ∈ BaseO.permits c, a ∈ e.2) ∧ ∀ a ∈ e.2, a ∈ BaseO.permits c := by decide +kernel
  obtain ⟨c, hc, hn, h1, h2⟩ := key e he
  exact ⟨c, hc, hn, fun a => (BaseO.permits_iff h hc a).trans ⟨h1 a, h2 a⟩⟩

namespace BaseO
open BaseP

/-- the flag holds for the types with a name in the table, computed -/
def flagOk (flag : Rfc4512.AttributeType → Bool) (table : List Str) (d : Rfc4512.AttributeType) : Bool :=
  match eff (fun e => if flag e then some () else none) 3 d with
  | some (.stated ()) => d.names.any (fun n => decide (n ∈ table))
  | some .nothing => d.names.all (fun n => !decide (n ∈ table))
  | _ => false

theorem single_ok : ∀ d ∈ types, flagOk (·.singleValue) BaseSchema.singleValued d = true := by decide +kernel
theorem server_ok : ∀ d ∈ types, flagOk (·.noUserMod) BaseSchema.serverOnly d = true := by decide +kernel
theorem obsolete_ok : ∀ d ∈ types, flagOk (·.obsolete) [] d = true := by decide +kernel

theorem flag_read {lower : Str → Str} (h : AsciiLower lower) {r : Reg ATFields} {U : Uni} {depth : Nat} (hdepth : 3 ≤ depth) {sch : List (Str × Rfc4512.AttributeType)}
    (hL : AttrS.Loaded (shippedEnv lower U depth r) sch) (hmem : ∀ d, d ∈ sch.map (·.2) ↔ d ∈ types) (field : ATFields → Option Bool) (flag : Rfc4512.AttributeType → Bool)
    (hf : ∀ d, field (saysAT d) = stated d (if flag d then some true else none) false) {table : List Str} {d : Rfc4512.AttributeType} {n : Str}
    (hok : flagOk flag table d = true) (hn : d.names = [n]) : readField (shippedEnv lower U depth r) field (some false) depth (saysAT d) = .ok (decide (n ∈ table)) := by
  unfold flagOk at hok
  split at hok
  · rename_i he
    obtain ⟨m, hm, hx⟩ := eff_spec h _ 3 d _ he
    rw [ObjS.readField_flag hL field flag hf m d _ (eff_mem (fun d => (hmem d).symm) hx) depth (Nat.le_trans hm hdepth)]
    simp only [hn, List.any_cons, List.any_nil, Bool.or_false] at hok
    rw [hok]; rfl
  · rename_i he
    obtain ⟨m, hm, hx⟩ := eff_spec h _ 3 d _ he
    rw [ObjS.readField_flag hL field flag hf m d _ (eff_mem (fun d => (hmem d).symm) hx) depth (Nat.le_trans hm hdepth)]
    simp only [hn, List.all_cons, List.all_nil, Bool.and_true, Bool.not_eq_true'] at hok
    rw [hok]; rfl
  · cases hok

end BaseO

/-- **C76 (flags).** After loading, in any order, an attribute under any casing of its name: exactly the types of the tables are single-valued and not to be changed by users, and none is obsolete. -/
theorem c76_flags (lower : Str → Str) (h : AsciiLower lower) (ts : List Str) (hts : ts.Perm (BaseSchema.attributeTypes ++ BaseSchema.netgroupTypes)) (r : Reg ATFields)
    (hr : load lower Reg.empty ts = (r, .ok ())) (U : Uni) (depth : Nat) (hdepth : 3 ≤ depth) (n : Str) (hn : n ∈ BaseSchema.noEquality ++ (BaseSchema.equality.map (·.2)).flatten)
    (x : Str) (hx : Casing lower n x) :
    ∃ i, attrOf (shippedEnv lower U depth r) x = .ok i ∧ i.singleValue = .ok (decide (n ∈ BaseSchema.singleValued)) ∧ i.noUserMod = .ok (decide (n ∈ BaseSchema.serverOnly)) ∧
      i.obsolete = .ok false := by
  obtain ⟨sch, hL, hmem⟩ := BaseP.loaded h hts hr U depth
  have key : ∀ n ∈ BaseSchema.noEquality ++ (BaseSchema.equality.map (·.2)).flatten, ∃ d ∈ BaseP.types, d.names = [n] := by decide +kernel
  obtain ⟨d, hd, hdn⟩ := key n hn
  have hfind := hL.find.1 d ((hmem d).2 hd) x (.inr ⟨hx.1, n, by simp [hdn], hx.2⟩)
  refine ⟨infoOf (shippedEnv lower U depth r) (saysAT d), ?_, ?_, ?_, ?_⟩
  · unfold attrOf; rw [hfind]; rfl
  · exact BaseO.flag_read h hdepth hL hmem _ (·.singleValue) (fun _ => rfl) (BaseO.single_ok d hd) hdn
  · exact BaseO.flag_read h hdepth hL hmem _ (·.noUserMod) (fun _ => rfl) (BaseO.server_ok d hd) hdn
  · have := BaseO.flag_read h hdepth hL hmem (·.obsolete) (·.obsolete) (fun _ => rfl) (BaseO.obsolete_ok d hd) hdn
    simp only [List.not_mem_nil, decide_false] at this
    exact this

/-- So a user's change of a time stamp, or of any attribute that is the server's, is refused whatever the values (schema.py:58-62), and more than one value for a single-valued one. -/
theorem c76_server_only (lower : Str → Str) (h : AsciiLower lower) (ts : List Str) (hts : ts.Perm (BaseSchema.attributeTypes ++ BaseSchema.netgroupTypes)) (r : Reg ATFields)
    (hr : load lower Reg.empty ts = (r, .ok ())) (U : Uni) (depth : Nat) (hdepth : 3 ≤ depth) (n : Str) (hn : n ∈ BaseSchema.noEquality ++ (BaseSchema.equality.map (·.2)).flatten)
    (x : Str) (hx : Casing lower n x) (vs : List Str) :
    (n ∈ BaseSchema.serverOnly → validateAttribute (attrEnv (shippedEnv lower U depth r)) x vs true = .error .ldapValidation) ∧
    (n ∈ BaseSchema.singleValued → 1 < vs.length → ∀ write, validateAttribute (attrEnv (shippedEnv lower U depth r)) x vs write = .error .ldapValidation) := by
  obtain ⟨i, h1, h2, h3, h4⟩ := c76_flags lower h ts hts r hr U depth hdepth n hn x hx
  have hattr : (attrEnv (shippedEnv lower U depth r)).attrOf x = .ok i := h1
  refine ⟨?_, ?_⟩
  · intro hm
    by_cases h5 : n ∈ BaseSchema.singleValued
    · by_cases h6 : vs.length > 1
      · simp [validateAttribute, hattr, h2, h3, h4, hm, h5, h6, bind, Except.bind]
      · simp [validateAttribute, hattr, h2, h3, h4, hm, h5, h6, bind, Except.bind]
    · simp [validateAttribute, hattr, h2, h3, h4, hm, h5, bind, Except.bind]
  · intro hm hl write
    simp [validateAttribute, hattr, h2, h4, hm, hl, bind, Except.bind]

/-! ### instances -/

namespace BaseO
open BaseP

theorem someLoaded (lower : Str → Str) (h : AsciiLower lower) : ∃ env sch, env.lower = lower ∧ AttrS.Loaded env sch ∧ ∀ d, d ∈ sch.map (·.2) ↔ d ∈ types := by
  obtain ⟨r, hr, _⟩ := c76_load lower h _ (.refl _)
  obtain ⟨sch, hL, hmem⟩ := BaseP.loaded h (.refl _) hr asciiUni 10
  exact ⟨_, sch, rfl, hL, hmem⟩

theorem not_marked {lower : Str → Str} (h : AsciiLower lower) (flag : Rfc4512.AttributeType → Bool) (d : Rfc4512.AttributeType)
    (he : eff (fun e => if flag e then some () else none) 3 d = some .nothing) : ¬ Marked lower types flag d := by
  rintro ⟨n, hn⟩
  obtain ⟨m, _, hm⟩ := eff_spec h _ 3 d _ he
  obtain ⟨env, sch, rfl, hL, hmem⟩ := someLoaded lower h
  have := ObjS.answer_unique hL (eff_mem (fun d => (hmem d).symm) hn) (eff_mem (fun d => (hmem d).symm) hm)
  cases this

/-- check the values of an attribute -/
def attrOk (k : Str) (vs : List Str) : Bool :=
  name? k && types.any (fun d => ident d.names k &&
    (decide (vs.length ≤ 1) || decide (eff (fun e : Rfc4512.AttributeType => if e.singleValue then some () else none) 3 d = some .nothing)) &&
    decide (eff (fun e : Rfc4512.AttributeType => if e.noUserMod then some () else none) 3 d = some .nothing) &&
    match eff (·.syntaxLen) 3 d with
    | some (.stated (o, none)) => (match getSyntaxRule (baseSyntaxes ++ netgroupSyntaxes) o with
      | .ok q => vs.all (fun v => match q.validate v with | .ok () => true | .error _ => false)
      | .error _ => false)
    | _ => false)

theorem attrOk_good {lower : Str → Str} (h : AsciiLower lower) {k : Str} {vs : List Str} (hk : attrOk k vs = true) (w : Bool) :
    ∃ d ∈ types, Identifies lower d.oid d.names k ∧ GoodAttr lower types (fun oid v => ∃ q, getSyntaxRule (baseSyntaxes ++ netgroupSyntaxes) oid = .ok q ∧ q.validate v = .ok ()) d vs w := by
  simp only [attrOk, Bool.and_eq_true, List.any_eq_true, decide_eq_true_eq, Bool.or_eq_true] at hk
  obtain ⟨hn, d, hd, ⟨⟨hi, hs⟩, hm⟩, hv⟩ := hk
  refine ⟨d, hd, (ident_iff h hn (type_ascii hd) (type_oids d hd)).2 hi, ?_, ?_, ?_⟩
  · intro hmk
    rcases hs with hs | hs
    · exact hs
    · exact absurd hmk (not_marked h _ d hs)
  · intro _ hmk
    exact absurd hmk (not_marked h _ d hm)
  · intro v hvm
    split at hv
    · rename_i o he
      obtain ⟨m, _, hx⟩ := eff_spec h _ 3 d _ he
      split at hv
      · rename_i q hq
        refine ⟨m, o, none, hx, nofun, q, hq, ?_⟩
        have := List.all_eq_true.1 hv v hvm
        split at this
        · rename_i hh; rw [hh]
        · cases this
      · cases hv
    · cases hv

end BaseO

/-- A person with two spellings of an attribute: accepted as the class spells it, refused otherwise. -/
def personEntry (snKey : Str) : CIDict Str (List Str) :=
  ((CIDict.empty.setItem BaseP.al (str "objectClass") [str "top", str "Person"]).setItem BaseP.al (str "cn") [str "Ann Lee", str "Ann"]).setItem BaseP.al snKey [str "Lee"]

theorem c76_person (U : Uni) : ∃ r c, load BaseP.al Reg.empty (BaseSchema.attributeTypes ++ BaseSchema.netgroupTypes) = (r, .ok ()) ∧
    loadClasses BaseP.al r Classes.empty (BaseSchema.objectClasses ++ BaseSchema.netgroupClasses) = (c, .ok ()) ∧ ∀ earlier,
      (Laurelin.ObjectSchema.validateObject (shippedEnv BaseP.al U 900 r) c (validateObjects (shippedEnv BaseP.al U 900 r) c (c.start BaseP.al) earlier) (personEntry (str "sn")) true).2 = .ok () ∧
      (Laurelin.ObjectSchema.validateObject (shippedEnv BaseP.al U 900 r) c (validateObjects (shippedEnv BaseP.al U 900 r) c (c.start BaseP.al) earlier) (personEntry (str "SN")) true).2 ≠ .ok () := by
  have hA : AsciiLower BaseP.al := fun _ _ => rfl
  obtain ⟨r, c, h1, h2, h3⟩ := c76_accepts BaseP.al hA _ (.refl _) _ (.refl _) U 900 (by decide)
  refine ⟨r, c, h1, h2, fun earlier => ⟨(h3 _ _ _).2 ?_, fun hacc => ?_⟩⟩
  · refine ⟨[str "top", str "Person"], by decide, ?_, ?_, ?_, ?_⟩
    · intro v hv
      refine .inr ?_
      simp only [List.mem_cons, List.not_mem_nil, or_false] at hv
      rcases hv with rfl | rfl
      · exact ⟨'t', _, rfl, by decide⟩
      · exact ⟨'P', _, rfl, by decide⟩
    · intro v hv c hc hi a ha
      have key : ∀ v ∈ [str "top", str "Person"], BaseO.name? v = true ∧ ∀ c ∈ BaseO.classes, BaseO.ident c.names v = true → ∀ a ∈ BaseO.requires c, a ∈ [str "objectClass", str "cn", str "sn"] := by
        decide +kernel
      have hk := (key v hv).2 c hc ((BaseO.class_ident hA hc (key v hv).1).1 hi) a ((BaseO.requires_iff hA hc a).1 ha)
      exact ⟨a, hk, rfl⟩
    · intro k hk
      have key : ∀ k ∈ [str "objectClass", str "cn", str "sn"], BaseO.name? (str "Person") = true ∧ ∃ c ∈ BaseO.classes, BaseO.ident c.names (str "Person") = true ∧ k ∈ BaseO.requires c := by decide +kernel
      obtain ⟨hn, c, hc, hi, hr⟩ := key k hk
      exact ⟨_, by simp, c, hc, (BaseO.class_ident hA hc hn).2 hi, k, rfl, .inl ((BaseO.requires_iff hA hc k).2 hr)⟩
    · intro kv hkv
      have key : ∀ kv ∈ [(str "objectClass", [str "top", str "Person"]), (str "cn", [str "Ann Lee", str "Ann"]), (str "sn", [str "Lee"])], BaseO.attrOk kv.1 kv.2 = true := by decide +kernel
      exact .inl (BaseO.attrOk_good hA (key kv hkv) true)
  · obtain ⟨ocs, hoc, hf⟩ := (h3 _ _ _).1 hacc
    have key : BaseO.name? (str "Person") = true ∧ ∃ c ∈ BaseO.classes, BaseO.ident c.names (str "Person") = true ∧ str "sn" ∈ BaseO.requires c := by decide +kernel
    obtain ⟨hn, c, hc, hi, hr⟩ := key
    have : ocs = [str "top", str "Person"] := by
      have : (personEntry (str "SN")).getItem BaseP.al (str "objectClass") = .ok [str "top", str "Person"] := by decide
      rw [this] at hoc
      exact (Except.ok.inj hoc).symm
    subst this
    obtain ⟨k, hk, rfl⟩ := hf.required (str "Person") (by simp) c hc ((BaseO.class_ident hA hc hn).2 hi) (str "sn") ((BaseO.requires_iff hA hc _).2 hr)
    have hk' : str "sn" ∈ [str "objectClass", str "cn", str "SN"] := hk
    exact absurd hk' (by decide)

/-- instances of the tables -/
theorem c76_flags_example (U : Uni) : ∃ r, load BaseP.al Reg.empty (BaseSchema.attributeTypes ++ BaseSchema.netgroupTypes) = (r, .ok ()) ∧
    validateAttribute (attrEnv (shippedEnv BaseP.al U 900 r)) (str "MODIFYTIMESTAMP") [str "20260101000000Z"] true = .error .ldapValidation ∧
    validateAttribute (attrEnv (shippedEnv BaseP.al U 900 r)) (str "DisplayName") [str "Ann", str "Lee"] false = .error .ldapValidation := by
  have hA : AsciiLower BaseP.al := fun _ _ => rfl
  obtain ⟨r, hr, _⟩ := c76_load BaseP.al hA _ (.refl _)
  refine ⟨r, hr, ?_, ?_⟩
  · exact (c76_server_only BaseP.al hA _ (.refl _) r hr U 900 (by decide) (str "modifyTimestamp") (by decide +kernel) (str "MODIFYTIMESTAMP") ⟨⟨_, _, rfl, by decide⟩, by decide⟩ _).1 (by decide +kernel)
  · exact (c76_server_only BaseP.al hA _ (.refl _) r hr U 900 (by decide) (str "displayName") (by decide +kernel) (str "DisplayName") ⟨⟨_, _, rfl, by decide⟩, by decide⟩ _).2 (by decide +kernel) (by decide) _

end Laurelin.Props
