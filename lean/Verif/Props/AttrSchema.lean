import Verif.Model.AttrSchema
import Verif.Spec.AttrSchema
import Verif.Props.SchemaSpec
import Verif.Props.Registry
import Verif.Props.Modlists
import Verif.Props.Prep
/-!
# C75 attribute types as a whole: descriptions, registration, inheritance, rules, value comparison
-/
set_option linter.unusedSectionVars false
namespace Laurelin.Props
open Laurelin Schema SchemaSpec Spec Spec.AttrSchema Laurelin.AttrSchema BaseRules
local notation "codeLex" => Laurelin.SchemaSpec.codeLex

namespace AttrS
open Registry CIDict

section
variable {E : Type} (lower : Str → Str)

/-- the registry holds exactly these elements -/
structure Holds (r : Reg E) (es : List (Elem E)) : Prop where
  inv : Inv lower r.names
  oids : ∀ o e, r.oids.get? o = some e ↔ e ∈ es ∧ e.oid = o
  names : ∀ k e, abs r.names k = some e ↔ e ∈ es ∧ ∃ n ∈ e.names, lower n = k

theorem holds_empty : Holds lower (Reg.empty : Reg E) [] :=
  ⟨inv_empty lower, by simp [Reg.empty, PDict.get?], by intro k e; simp [Reg.empty, abs, CIDict.empty, PDict.get?]⟩

theorem register_holds (r : Reg E) (es : List (Elem E)) (h : Holds lower r es) (e : Elem E) (ho : e.oid ∉ es.map (·.oid))
    (hn : ((es.map (·.names)).flatten.map lower ++ e.names.map lower).Nodup) :
    ∃ r', r.register lower e = (r', .ok ()) ∧ Holds lower r' (es ++ [e]) := by
  have hget : r.oids.get? e.oid = none := by
    cases hg : r.oids.get? e.oid with
    | none => rfl
    | some x => exact absurd (List.mem_map.2 ⟨x, ((h.oids _ _).1 hg).1, ((h.oids _ _).1 hg).2⟩) ho
  obtain ⟨_, nd2, dis⟩ := List.nodup_append.1 hn
  have hfresh : ∀ n ∈ e.names, abs r.names (lower n) = none := by
    intro n hn'
    cases hg : abs r.names (lower n) with
    | none => rfl
    | some x =>
      obtain ⟨hx, m, hm, hmn⟩ := (h.names _ _).1 hg
      exact absurd rfl (dis (lower n) (by
        rw [← hmn]
        exact List.mem_map.2 ⟨m, List.mem_flatten.2 ⟨_, List.mem_map.2 ⟨x, hx, rfl⟩, hm⟩, rfl⟩) (lower n) (List.mem_map.2 ⟨n, hn', rfl⟩))
  obtain ⟨i1, i2, i3, _, _, i6, i7⟩ := regNames_keep lower e e.names r.names h.inv
  have ok := i6 hfresh nd2
  refine ⟨⟨r.oids.set e.oid e, (regNames lower e r.names e.names).1⟩, ?_, i1, ?_, ?_⟩
  · simp [Reg.register, hget, ok]
  · intro o x
    simp only [PDict.get?_set]
    by_cases hoe : o = e.oid
    · rw [if_pos hoe]
      constructor
      · intro hx; cases hx; exact ⟨by simp, hoe.symm⟩
      · rintro ⟨hx, hxo⟩
        rcases List.mem_append.1 hx with hx | hx
        · exact absurd (List.mem_map.2 ⟨x, hx, by rw [hxo, hoe]⟩) ho
        · rw [List.mem_singleton.1 hx]
    · rw [if_neg hoe, h.oids]
      constructor
      · rintro ⟨a, b⟩; exact ⟨by simp [a], b⟩
      · rintro ⟨a, b⟩
        rcases List.mem_append.1 a with a | a
        · exact ⟨a, b⟩
        · rw [List.mem_singleton.1 a] at b; exact absurd b.symm hoe
  · intro k x
    constructor
    · intro hx
      rcases i7 k x hx with h1 | ⟨rfl, n, hn', hk⟩
      · obtain ⟨a, b⟩ := (h.names _ _).1 h1; exact ⟨by simp [a], b⟩
      · exact ⟨by simp, n, hn', hk⟩
    · rintro ⟨a, n, hn', rfl⟩
      rcases List.mem_append.1 a with a | a
      · exact i2 _ _ ((h.names _ _).2 ⟨a, n, hn', rfl⟩)
      · rw [List.mem_singleton.1 a] at hn' ⊢; exact i3 ok n hn'

theorem isDigit_numeric (c : Char) (t : Str) : numeric (c :: t) = .ok (Rfc4512.isDigit c) := rfl

/-- the elements of a schema, each with an OID that begins with a digit and names that do not -/
structure WellNamed (es : List (Elem E)) : Prop where
  oids : ∀ e ∈ es, numeric e.oid = .ok true
  distinct : Distinct lower (es.map (·.oid)) (es.map (·.names))

theorem find_holds (r : Reg E) (es : List (Elem E)) (h : Holds lower r es) (w : WellNamed lower es) (x : Str) :
    (∀ e ∈ es, Identifies lower e.oid e.names x → r.find lower x = .ok (.elem e)) ∧
    ((∀ e ∈ es, ¬ Identifies lower e.oid e.names x) →
      (∀ c t, x = c :: t → r.find lower x = if Rfc4512.isDigit c then .error .keyError else .ok (.dflt x))) := by
  constructor
  · rintro e he (rfl | ⟨⟨c, t, rfl, hc⟩, n, hn, hl⟩)
    · exact (find_eq lower r h.inv _ _).2 (.inl ⟨w.oids e he, (h.oids _ _).2 ⟨he, rfl⟩⟩)
    · exact (find_eq lower r h.inv _ _).2 (.inr ⟨by rw [isDigit_numeric, hc], (h.names _ _).2 ⟨he, n, hn, hl.symm⟩⟩)
  · rintro hno c t rfl
    simp only [Reg.find, isDigit_numeric]
    cases hc : Rfc4512.isDigit c with
    | true =>
      simp only [if_true]
      cases hg : r.oids.get? (c :: t) with
      | none => rfl
      | some e =>
        obtain ⟨a, b⟩ := (h.oids _ _).1 hg
        exact absurd (.inl b.symm) (hno e a)
    | false =>
      simp only [Bool.false_eq_true, if_false, getItem_eq lower r.names h.inv]
      cases hg : abs r.names (lower (c :: t)) with
      | none => rfl
      | some e =>
        obtain ⟨a, n, hn, b⟩ := (h.names _ _).1 hg
        exact absurd (.inr ⟨⟨c, t, rfl, hc⟩, n, hn, b.symm⟩) (hno e a)

end

/-- reading and registering descriptions -/
theorem load_holds (lower : Str → Str) (specs : List Str) (fs : List ATFields) (hr : specs.map attributeType = fs.map .ok) :
    ∀ (r : Reg ATFields) (gs : List ATFields), Holds lower r (gs.map elemOf) →
      Distinct lower ((gs ++ fs).map (·.oid)) ((gs ++ fs).map (·.names)) →
      ∃ r', load lower r specs = (r', .ok ()) ∧ Holds lower r' ((gs ++ fs).map elemOf) := by
  induction fs generalizing specs with
  | nil =>
    intro r gs h _
    cases specs with
    | nil => exact ⟨r, rfl, by simpa using h⟩
    | cons s l => cases hr
  | cons f fs ih =>
    intro r gs h hd
    cases specs with
    | nil => cases hr
    | cons s l =>
      simp only [List.map_cons, List.cons.injEq] at hr
      obtain ⟨d1, d2⟩ := hd
      have ho : (elemOf f).oid ∉ (gs.map elemOf).map (·.oid) := by
        rw [List.map_append, List.map_cons] at d1
        obtain ⟨_, _, h3⟩ := List.nodup_append.1 d1
        intro hm
        rw [List.map_map] at hm
        exact absurd rfl (h3 f.oid (by simpa [elemOf] using hm) f.oid (by simp))
      have hn : (((gs.map elemOf).map (·.names)).flatten.map lower ++ (elemOf f).names.map lower).Nodup := by
        simp only [List.map_append, List.map_cons, List.flatten_append, List.flatten_cons] at d2
        rw [← List.append_assoc] at d2
        have := (List.nodup_append.1 d2).1
        simpa [elemOf, Function.comp_def] using this
      obtain ⟨r', e1, e2⟩ := register_holds lower r _ h (elemOf f) ho hn
      have e2' : Holds lower r' ((gs ++ [f]).map elemOf) := by simpa using e2
      obtain ⟨r'', e3, e4⟩ := ih l hr.2 r' (gs ++ [f]) e2' (by rw [List.append_assoc]; exact ⟨d1, d2⟩)
      refine ⟨r'', ?_, by simpa using e4⟩
      simp only [load, hr.1, e1, e3]

end AttrS
open AttrS

/-- Texts and the attribute types they describe, each with a name; no two share an OID or a name. -/
structure Describes (lower : Str → Str) (schema : List (Str × Rfc4512.AttributeType)) : Prop where
  read : ∀ p ∈ schema, Rfc4512.attributeType codeLex p.2 (collapse p.1) ∧ p.2.names ≠ []
  distinct : Distinct lower (schema.map (·.2.oid)) (schema.map (·.2.names))

namespace AttrS

theorem oid_numeric {d : Rfc4512.AttributeType} {s : Str} (h : Rfc4512.attributeType codeLex d s) : numeric d.oid = .ok true := by
  obtain ⟨_, _, _, _, _, _, _, _, _, _, _, ⟨_, h⟩, _⟩ := h
  obtain ⟨a, b, e, ⟨l, hl, rfl, hc⟩, _⟩ := h
  cases l with
  | nil => exact absurd rfl hl
  | cons u l =>
    obtain ⟨c, rfl, hd⟩ := hc u (by simp)
    rw [e]
    show numeric (c :: _) = _
    rw [isDigit_numeric, hd]

theorem loaded (lower : Str → Str) (schema : List (Str × Rfc4512.AttributeType)) (h : Describes lower schema) :
    ∃ r, load lower Reg.empty (schema.map (·.1)) = (r, .ok ()) ∧ Holds lower r (schema.map (fun p => elemOf (saysAT p.2))) ∧
      WellNamed lower (schema.map (fun p => elemOf (saysAT p.2))) := by
  obtain ⟨r, h1, h2⟩ := load_holds lower (schema.map (·.1)) (schema.map (fun p => saysAT p.2)) (by
    rw [List.map_map, List.map_map]
    apply List.map_congr_left
    intro p hp
    exact (c69_attribute_type_iff _ _).2 ⟨p.2, (h.read p hp).1, (h.read p hp).2, rfl⟩) Reg.empty [] (holds_empty lower) (by
    simp only [List.nil_append, List.map_map]; exact h.distinct)
  refine ⟨r, h1, by simpa [Function.comp_def] using h2, ?_, ?_⟩
  · intro e he
    obtain ⟨p, hp, rfl⟩ := List.mem_map.1 he
    exact oid_numeric (h.read p hp).1
  · simp only [List.map_map]; exact h.distinct

end AttrS

/-- **C75 (lookup).** Reading and registering any descriptions raises nothing, and then the OID or any casing of a name of a description gives exactly that attribute type;
any other name gives an undefined type, any other OID `KeyError`. -/
theorem c75_lookup (lower : Str → Str) (schema : List (Str × Rfc4512.AttributeType)) (h : Describes lower schema) :
    ∃ r, load lower Reg.empty (schema.map (·.1)) = (r, .ok ()) ∧
      (∀ p ∈ schema, ∀ x, Identifies lower p.2.oid p.2.names x → r.find lower x = .ok (.elem (elemOf (saysAT p.2)))) ∧
      (∀ c t, (∀ p ∈ schema, ¬ Identifies lower p.2.oid p.2.names (c :: t)) →
        r.find lower (c :: t) = if Rfc4512.isDigit c then .error .keyError else .ok (.dflt (c :: t))) := by
  obtain ⟨r, h1, h2, h3⟩ := AttrS.loaded lower schema h
  refine ⟨r, h1, ?_, ?_⟩
  · intro p hp x hx
    exact (find_holds lower r _ h2 h3 x).1 _ (List.mem_map.2 ⟨p, hp, rfl⟩) hx
  · intro c t hno
    refine (find_holds lower r _ h2 h3 (c :: t)).2 ?_ c t rfl
    intro e he
    obtain ⟨p, hp, rfl⟩ := List.mem_map.1 he
    exact hno p hp

namespace AttrS

/-- the type table of `env` is what loading the schema gives -/
def Loaded (env : Env) (schema : List (Str × Rfc4512.AttributeType)) : Prop :=
  Describes env.lower schema ∧ load env.lower Reg.empty (schema.map (·.1)) = (env.types, .ok ())

theorem Loaded.find {env : Env} {schema : List (Str × Rfc4512.AttributeType)} (h : Loaded env schema) :
    (∀ d ∈ schema.map (·.2), ∀ x, Identifies env.lower d.oid d.names x → env.types.find env.lower x = .ok (.elem (elemOf (saysAT d)))) ∧
    (∀ c t, (∀ d ∈ schema.map (·.2), ¬ Identifies env.lower d.oid d.names (c :: t)) →
        env.types.find env.lower (c :: t) = if Rfc4512.isDigit c then .error .keyError else .ok (.dflt (c :: t))) := by
  obtain ⟨r, h1, h2, h3⟩ := c75_lookup env.lower schema h.1
  rw [h.2] at h1
  cases h1
  refine ⟨?_, ?_⟩
  · intro d hd x hx
    obtain ⟨p, hp, rfl⟩ := List.mem_map.1 hd
    exact h2 p hp x hx
  · intro c t hno
    exact h3 c t (fun p hp => hno p.2 (List.mem_map.2 ⟨p, hp, rfl⟩))

section
variable {X : Type} {env : Env} {schema : List (Str × Rfc4512.AttributeType)} (hl : Loaded env schema) {α : Type} (field : ATFields → Option α)
  (own : Rfc4512.AttributeType → Option X) (g : X → α) (dflt : α) (hf : ∀ d, field (saysAT d) = stated d ((own d).map g) dflt)
include hl hf

theorem readField_eff (n : Nat) (d : Rfc4512.AttributeType) (x : Answer X) (h : Effective env.lower (schema.map (·.2)) own n d x) :
    ∀ k, n ≤ k → readField env field none k (saysAT d) = x.elim (fun x => .ok (g x)) (.ok dflt) (.error .attributeError) := by
  induction h with
  | stated d x h =>
    intro k hk
    obtain ⟨k, rfl⟩ : ∃ j, k = j + 1 := ⟨k - 1, by omega⟩
    simp [readField, hf, h, stated, Answer.elim]
  | nothing d h hs =>
    intro k hk
    obtain ⟨k, rfl⟩ : ∃ j, k = j + 1 := ⟨k - 1, by omega⟩
    simp [readField, hf, h, stated, hs, Answer.elim]
  | undefinedType d s h hs hc hno =>
    intro k hk
    obtain ⟨k, rfl⟩ : ∃ j, k = j + 1 := ⟨k - 1, by omega⟩
    obtain ⟨c, t, rfl, hc⟩ := hc
    have := hl.find.2 c t hno
    rw [hc] at this
    rw [readField, hf, h]
    simp only [stated, hs, Option.map_none, saysAT, this]
    rfl
  | inherited d e s n x h hs he hi hx ih =>
    intro k hk
    obtain ⟨k, rfl⟩ : ∃ j, k = j + 1 := ⟨k - 1, by omega⟩
    have := hl.find.1 e he s hi
    rw [readField, hf, h]
    simp only [stated, hs, Option.map_none, saysAT, this, elemOf]
    exact ih k (by omega)

end

theorem readRule_eff {X R : Type} {env : Env} {schema : List (Str × Rfc4512.AttributeType)} (hl : Loaded env schema) (field : ATFields → Option (Option Str))
    (own : Rfc4512.AttributeType → Option X) (g : X → Str) (hf : ∀ d, field (saysAT d) = stated d ((own d).map (fun x => some (g x))) none) (ruleOf : Str → Except Err R) (dflt : R)
    (n : Nat) (d : Rfc4512.AttributeType) (x : Answer X) (h : Effective env.lower (schema.map (·.2)) own n d x) :
    ∀ k, n ≤ k → readRule env field ruleOf dflt k (saysAT d) =
      x.elim (fun x => if g x = [] then .error .ldapSchema else ruleOf (g x)) (.error .ldapSchema) (.ok dflt) := by
  induction h with
  | stated d x h =>
    intro k hk
    obtain ⟨k, rfl⟩ : ∃ j, k = j + 1 := ⟨k - 1, by omega⟩
    rw [readRule, readField_eff hl field own _ none hf 1 d _ (.stated d x h) _ hk]
    rfl
  | nothing d h hs =>
    intro k hk
    obtain ⟨k, rfl⟩ : ∃ j, k = j + 1 := ⟨k - 1, by omega⟩
    rw [readRule, readField_eff hl field own _ none hf 1 d _ (.nothing d h hs) _ hk]
    rfl
  | undefinedType d s h hs hc hno =>
    intro k hk
    obtain ⟨k, rfl⟩ : ∃ j, k = j + 1 := ⟨k - 1, by omega⟩
    rw [readRule, readField_eff hl field own _ none hf 1 d _ (.undefinedType d s h hs hc hno) _ hk]
    simp only [Answer.elim]
    obtain ⟨c, t, rfl, hc⟩ := hc
    have := hl.find.2 c t hno
    rw [hc] at this
    simp only [saysAT, hs, this]
    rfl
  | inherited d e s n x h hs he hi hx ih =>
    intro k hk
    obtain ⟨k, rfl⟩ : ∃ j, k = j + 1 := ⟨k - 1, by omega⟩
    rw [readRule, readField_eff hl field own _ none hf (n + 1) d _ (.inherited d e s n x h hs he hi hx) _ hk]
    cases x with
    | stated x => rfl
    | nothing => rfl
    | undefinedType =>
      have := hl.find.1 e he s hi
      simp only [Answer.elim, saysAT, hs, this, elemOf]
      exact ih k (by omega)

theorem at_parts {d : Rfc4512.AttributeType} {s : Str} (h : Rfc4512.attributeType codeLex d s) :
    (∀ o, d.equality = some o → o ≠ []) ∧ (∀ p, d.syntaxLen = some p → p.1 ≠ []) := by
  simp only [Rfc4512.attributeType, Abnf.cats, Abnf.cat] at h
  obtain ⟨p, _, rfl, hp, a, _, rfl, _, o, _, rfl, _, w1, _, rfl, _, w2, _, rfl, _, w3, _, rfl, _, w4, _, rfl, _, w5, _, rfl, h5,
    w6, _, rfl, _, w7, _, rfl, _, w8, _, rfl, h8, _⟩ := h
  refine ⟨?_, ?_⟩
  · rintro o ho rfl
    rw [ho] at h5
    obtain ⟨_, _, _, _, _, _, _, _, _, _, _, _, _, h⟩ := h5
    rcases h with ⟨_, _, e, ⟨c, rfl, _⟩, _⟩ | ⟨_, _, e, ⟨l, hl, rfl, hc⟩, _⟩
    · cases e
    · cases l with
      | nil => exact hl rfl
      | cons u l => obtain ⟨c, rfl, _⟩ := hc u (by simp); cases e
  · rintro ⟨o, n⟩ hp rfl
    rw [hp] at h8
    obtain ⟨_, _, _, _, _, _, _, _, _, _, _, _, h⟩ := h8
    have : Rfc4512.numericoid codeLex [] := by
      cases n with
      | none => exact h.2
      | some n => obtain ⟨_, _, _, ⟨_, h⟩, _⟩ := h; exact h
    obtain ⟨_, _, e, ⟨l, hl, rfl, hc⟩, _⟩ := this
    cases l with
    | nil => exact hl rfl
    | cons u l => obtain ⟨c, rfl, _⟩ := hc u (by simp); cases e

theorem eff_stated {X : Type} {lower : Str → Str} {types : List Rfc4512.AttributeType} {own : Rfc4512.AttributeType → Option X} {n : Nat} {d : Rfc4512.AttributeType} {x : X}
    {a : Answer X} (h : Effective lower types own n d a) (hd : d ∈ types) (ha : a = .stated x) : ∃ e ∈ types, own e = some x := by
  induction h with
  | stated d y h => cases ha; exact ⟨d, hd, h⟩
  | nothing => cases ha
  | undefinedType => cases ha
  | inherited d e s n y h hs he hi hx ih => exact ih he ha

end AttrS

/-- **C75 (inheritance).** For any registered descriptions: the syntax rule and the equality rule of an attribute type are looked up by the OID or name that the nearest type in its
line of supertypes states; when the line ends without one, `LDAPSchemaError`; when it ends in an undefined name, everything is accepted and compared as it is. -/
theorem c75_rules (env : Env) (schema : List (Str × Rfc4512.AttributeType)) (hl : AttrS.Loaded env schema) (d : Rfc4512.AttributeType) (hd : d ∈ schema.map (·.2)) (n : Nat)
    (hn : n ≤ env.depth) :
    (∀ x, Effective env.lower (schema.map (·.2)) (·.syntaxLen) n d x →
      syntaxOf env (saysAT d) = x.elim (fun p => getSyntaxRule env.syntaxes p.1) (.error .ldapSchema) (.ok (.rule .anything)) ∧
      readField env (·.syntaxLength) none env.depth (saysAT d) = x.elim (fun p => .ok p.2) (.ok none) (.error .attributeError)) ∧
    (∀ x, Effective env.lower (schema.map (·.2)) (·.equality) n d x →
      equalityOf env (saysAT d) = x.elim (fun o => (getMatchingRule env.lower env.rules o).map (·.eq)) (.error .ldapSchema) (.ok (.prep []))) := by
  refine ⟨fun x hx => ⟨?_, ?_⟩, fun x hx => ?_⟩
  · rw [syntaxOf, AttrS.readRule_eff hl _ (·.syntaxLen) (·.1) (fun _ => rfl) _ _ n d x hx env.depth hn]
    cases x with
    | stated p =>
      obtain ⟨e, he, ho⟩ := AttrS.eff_stated hx hd rfl
      obtain ⟨q, hq, rfl⟩ := List.mem_map.1 he
      exact if_neg ((AttrS.at_parts (hl.1.read q hq).1).2 p ho)
    | nothing => rfl
    | undefinedType => rfl
  · exact AttrS.readField_eff hl _ (·.syntaxLen) (·.2) none (fun _ => rfl) n d x hx env.depth hn
  · rw [equalityOf, AttrS.readRule_eff hl _ (·.equality) id (fun _ => rfl) _ _ n d x hx env.depth hn]
    cases x with
    | stated o =>
      obtain ⟨e, he, ho⟩ := AttrS.eff_stated hx hd rfl
      obtain ⟨q, hq, rfl⟩ := List.mem_map.1 he
      exact if_neg ((AttrS.at_parts (hl.1.read q hq).1).1 o ho)
    | nothing => rfl
    | undefinedType => rfl

/-- **C75 (validation).** A value is valid exactly when it is no longer than the effective length, if there is one, and the effective syntax accepts it; the error is the syntax rule's. -/
theorem c75_validate (env : Env) (schema : List (Str × Rfc4512.AttributeType)) (hl : AttrS.Loaded env schema) (d : Rfc4512.AttributeType) (hd : d ∈ schema.map (·.2)) (n : Nat)
    (hn : n ≤ env.depth) (p : Str × Option Nat) (hp : Effective env.lower (schema.map (·.2)) (·.syntaxLen) n d (.stated p)) (q : SyntaxRule) (hq : getSyntaxRule env.syntaxes p.1 = .ok q)
    (v : Str) : validate env (saysAT d) v = if ∃ m, p.2 = some m ∧ m < v.length then .error .invalidSyntax else q.validate v := by
  obtain ⟨h1, h2⟩ := (c75_rules env schema hl d hd n hn).1 _ hp
  simp only [Answer.elim] at h1 h2
  rw [hq] at h1
  simp only [validate, h2, h1]
  cases hp2 : p.2 with
  | none => simp
  | some m => simp

/-- The rule can be applied to the value: it can be prepared, read as a name, or as a time. -/
def Comparable (U : Uni) : EqRule → Str → Prop
  | .prep ms, v => ∃ p, prepare U ms v = .ok p
  | .dn, v => ∃ l, parseDn v = .ok l
  | .time, v => Syntax.validateGT v = .ok ()

/-- `a` is the OID or a name, in any casing, of an attribute type whose effective equality rule is `r` -/
def HasRule (env : Env) (types : List Rfc4512.AttributeType) (a : Str) (r : EqRule) : Prop :=
  ∃ d ∈ types, Identifies env.lower d.oid d.names a ∧ ∃ n o mr, n ≤ env.depth ∧ Effective env.lower types (·.equality) n d (.stated o) ∧
    getMatchingRule env.lower env.rules o = .ok mr ∧ mr.eq = r

/-- `v` is a valid value for attribute `a` -/
def ValidFor (env : Env) (types : List Rfc4512.AttributeType) (a v : Str) : Prop :=
  ∃ d ∈ types, Identifies env.lower d.oid d.names a ∧ validate env (saysAT d) v = .ok ()

namespace AttrS

theorem dnMatch_total (a b : Str) (x y : List (PDict Str Str)) (hx : parseDn a = .ok x) (hy : parseDn b = .ok y) : dnMatch a b = .ok false := by
  have : ∃ r, dnMatch a b = .ok r := by
    simp only [dnMatch, dnMatchWith, hx, hy]
    split
    · exact ⟨_, rfl⟩
    · split
      · split
        · exact ⟨_, rfl⟩
        · split <;> exact ⟨_, rfl⟩
      · exact ⟨_, rfl⟩
  obtain ⟨r, hr⟩ := this
  cases r with
  | false => exact hr
  | true => exact absurd hr (c38_never_matches a b)

theorem typeOf_eq {env : Env} {schema : List (Str × Rfc4512.AttributeType)} (hl : Loaded env schema) (a : Str) (r : EqRule) (h : HasRule env (schema.map (·.2)) a r) :
    ∃ d ∈ schema.map (·.2), Identifies env.lower d.oid d.names a ∧ typeOf env a = .ok (.defined (validate env (saysAT d)) (r.prepare env.U) r.doMatch) := by
  obtain ⟨d, hd, hi, n, o, mr, hn, he, hm, rfl⟩ := h
  refine ⟨d, hd, hi, ?_⟩
  have eq := (c75_rules env schema hl d hd n hn).2 _ he
  simp only [Answer.elim, hm, Except.map] at eq
  simp only [typeOf, hl.find.1 d hd a hi, elemOf, eq]

theorem same_type {env : Env} {schema : List (Str × Rfc4512.AttributeType)} (hl : Loaded env schema) (a : Str) (d e : Rfc4512.AttributeType) (hd : d ∈ schema.map (·.2))
    (he : e ∈ schema.map (·.2)) (h1 : Identifies env.lower d.oid d.names a) (h2 : Identifies env.lower e.oid e.names a) : saysAT d = saysAT e := by
  have a1 := hl.find.1 d hd a h1
  have a2 := hl.find.1 e he a h2
  rw [a1] at a2
  simp only [Except.ok.injEq, Schema.Found.elem.injEq, elemOf, Elem.mk.injEq] at a2
  exact a2.2.2

end AttrS

/-- `r.match(stored, asserted)` says `True` -/
def matches_ (U : Uni) (r : EqRule) (x v : Str) : Bool :=
  match r.match_ U x v with
  | .ok b => b
  | .error _ => false

/-- **C75 (comparison).** For any registered descriptions and any attributes with an effective equality rule, named by OID or in any casing of a name: searching a valid value among valid
values finds the first one that this rule says is equal. So the theorems on value lists, `add_attrs` and `delete_attrs` (C04-C06) hold for the schema as it is loaded. -/
theorem c75_decides (env : Env) (schema : List (Str × Rfc4512.AttributeType)) (hl : AttrS.Loaded env schema) (rule : Str → Option EqRule)
    (hr : ∀ a r, rule a = some r → HasRule env (schema.map (·.2)) a r) :
    Decides (typeOf env) (fun a x v => match rule a with | some r => matches_ env.U r x v | none => false)
      (fun a v => ValidFor env (schema.map (·.2)) a v ∧ ∃ r, rule a = some r ∧ Comparable env.U r v) := by
  intro a l v hl' hv
  obtain ⟨⟨d, hd, hi, hval⟩, r, hra, hc⟩ := hv
  obtain ⟨d', hd', hi', ht⟩ := AttrS.typeOf_eq hl a r (hr a r hra)
  rw [AttrS.same_type hl a d' d hd' hd hi' hi] at ht
  have hprep : ∀ x, Comparable env.U r x → ∃ p, r.prepare env.U x = .ok p := by
    intro x hx
    cases r with
    | prep ms => exact hx
    | dn => exact ⟨x, rfl⟩
    | time => exact ⟨x, rfl⟩
  have hall : ∀ x ∈ l, validate env (saysAT d) x = .ok () ∧ Comparable env.U r x := by
    intro x hx
    obtain ⟨⟨e, he, hie, hve⟩, r', hr', hcx⟩ := hl' x hx
    rw [hra] at hr'
    cases hr'
    rw [AttrS.same_type hl a e d he hd hie hi] at hve
    exact ⟨hve, hcx⟩
  have hcase : ∀ (l : List Str), (∀ x ∈ l, Comparable env.U r x) → ∀ q, r.prepare env.U v = .ok q → ∀ i,
      AttrType.indexLoop (r.prepare env.U) r.doMatch q i l = match l.findIdx? (fun x => matches_ env.U r x v) with | some j => .ok (i + j) | none => .error .valueError := by
    intro l
    induction l with
    | nil => intro _ q _ i; rfl
    | cons x l ih =>
      intro hl q hq i
      obtain ⟨p, hp⟩ := hprep x (hl x (by simp))
      have hdm : ∃ b, r.doMatch p q = .ok b := by
        have hx := hl x (by simp)
        cases r with
        | prep ms => exact ⟨_, rfl⟩
        | dn =>
          obtain ⟨lx, hlx⟩ := hx
          obtain ⟨lv, hlv⟩ := hc
          cases hp; cases hq
          exact ⟨false, AttrS.dnMatch_total _ _ _ _ hlx hlv⟩
        | time =>
          cases hq
          exact ⟨true, by simp only [EqRule.doMatch]; rw [show Syntax.validateGT v = .ok () from hc]⟩
      obtain ⟨b, hb⟩ := hdm
      have hmx : matches_ env.U r x v = b := by simp [matches_, EqRule.match_, hp, hq, hb, bind, Except.bind]
      rw [AttrType.indexLoop, hp]
      simp only [hb, List.findIdx?_cons, hmx]
      cases b with
      | true => simp
      | false =>
        simp only [Bool.false_eq_true, if_false]
        rw [ih (fun y hy => hl y (by simp [hy])) q hq (i + 1)]
        cases List.findIdx? (fun x => matches_ env.U r x v) l with
        | none => rfl
        | some j => simp only [Option.map_some]; congr 1; omega
  simp only [AttrValueList.index, ht, AttrType.index, hra]
  cases l with
  | nil => rfl
  | cons x l =>
    obtain ⟨q, hq⟩ := hprep v hc
    simp only [List.isEmpty_cons, Bool.false_eq_true, if_false, hval, hq]
    rw [hcase _ (fun y hy => (hall y hy).2) q hq 0]
    cases List.findIdx? (fun x => matches_ env.U r x v) (x :: l) <;> simp

namespace AttrS

theorem match_prep (U : Uni) (ms : List PrepMethod) (x v : Str) : (EqRule.prep ms).match_ U x v = ruleMatch U ms x v := by
  simp only [EqRule.match_, EqRule.prepare, EqRule.doMatch, ruleMatch, bind, Except.bind]
  cases prepare U ms x <;> cases prepare U ms v <;> simp
  rename_i a b
  by_cases h : a = b <;> simp [h]

theorem any_mem {α : Type} (p q : α → Bool) : ∀ l : List α, (∀ x ∈ l, p x = q x) → l.any p = l.any q
  | [], _ => rfl
  | x :: l, h => by rw [List.any_cons, List.any_cons, h x (by simp), any_mem p q l (fun y hy => h y (by simp [hy]))]

theorem contains_rule {env : Env} {schema : List (Str × Rfc4512.AttributeType)} (hl : Loaded env schema) (a : Str) (r : EqRule) (hr : HasRule env (schema.map (·.2)) a r)
    (l : List Str) (v : Str) (hv : ∀ x ∈ v :: l, ValidFor env (schema.map (·.2)) a x ∧ Comparable env.U r x) :
    AttrValueList.contains (typeOf env) a l v = .ok (l.any (fun x => matches_ env.U r x v)) := by
  have hD := c75_decides env schema hl (fun b => if b = a then some r else none) (by
    intro b r' h
    split at h
    · cases h; subst_vars; exact hr
    · cases h)
  have := (c04_value_list (typeOf env) _ _ hD a l v (fun x hx => ⟨(hv x (by simp [hx])).1, r, by simp, (hv x (by simp [hx])).2⟩) ⟨(hv v (by simp)).1, r, by simp, (hv v (by simp)).2⟩).1
  simpa using this

end AttrS

/-- **C75 (`in`).** Whether a valid value is found among valid values, by the effective equality rule of the attribute: case-insensitive rules on printable ASCII compare the words
regardless of casing and of the number of spaces; rules without preparation compare the texts. -/
theorem c75_in (env : Env) (schema : List (Str × Rfc4512.AttributeType)) (hl : AttrS.Loaded env schema) (a : Str) (l : List Str) (v : Str)
    (hv : ∀ x ∈ v :: l, ValidFor env (schema.map (·.2)) a x) :
    (HasRule env (schema.map (·.2)) a (.prep caseIgnorePrep) → UniLaws env.U → (∀ x ∈ v :: l, Printable x) →
      AttrValueList.contains (typeOf env) a l v = .ok (l.any (fun x => decide (words (x.map Char.toLower) = words (v.map Char.toLower))))) ∧
    (HasRule env (schema.map (·.2)) a (.prep telephonePrep) → UniLaws env.U → (∀ x ∈ v :: l, Printable x) →
      AttrValueList.contains (typeOf env) a l v = .ok (l.any (fun x => decide ((x.map Char.toLower).filter (fun c => !(c == ' ' || c == '-')) =
        (v.map Char.toLower).filter (fun c => !(c == ' ' || c == '-')))))) ∧
    (HasRule env (schema.map (·.2)) a (.prep []) → AttrValueList.contains (typeOf env) a l v = .ok (l.any (fun x => decide (x = v)))) := by
  have prepOk : ∀ ms x t, ruleMatch env.U ms x x = .ok t → ∃ p, prepare env.U ms x = .ok p := by
    intro ms x t h
    cases hp : prepare env.U ms x with
    | ok p => exact ⟨p, rfl⟩
    | error e => simp [ruleMatch, hp] at h
  refine ⟨fun hr hU hp => ?_, fun hr hU hp => ?_, fun hr => ?_⟩
  · rw [AttrS.contains_rule hl a _ hr l v (fun x hx => ⟨hv x hx, prepOk _ x _ (c36_ascii_case_ignore env.U hU x x (hp x hx) (hp x hx))⟩)]
    congr 1
    apply AttrS.any_mem
    intro x hx
    simp only [matches_, AttrS.match_prep, c36_ascii_case_ignore env.U hU x v (hp x (by simp [hx])) (hp v (by simp))]
  · rw [AttrS.contains_rule hl a _ hr l v (fun x hx => ⟨hv x hx, prepOk _ x _ (c36_ascii_telephone env.U hU x x (hp x hx) (hp x hx))⟩)]
    congr 1
    apply AttrS.any_mem
    intro x hx
    simp only [matches_, AttrS.match_prep, c36_ascii_telephone env.U hU x v (hp x (by simp [hx])) (hp v (by simp))]
  · rw [AttrS.contains_rule hl a _ hr l v (fun x hx => ⟨hv x hx, x, rfl⟩)]
    congr 1

/-- C75 is not what users expect for three kinds of attributes: a distinguished name is never found, whatever is stored; any time is found as soon as there is one; and asking an
attribute without equality rule raises `LDAPSchemaError`. -/
theorem c75_no_equality (env : Env) (schema : List (Str × Rfc4512.AttributeType)) (hl : AttrS.Loaded env schema) (a : Str) (l : List Str) (v : Str)
    (hv : ∀ x ∈ v :: l, ValidFor env (schema.map (·.2)) a x) :
    (HasRule env (schema.map (·.2)) a .dn → (∀ x ∈ v :: l, ∃ p, parseDn x = .ok p) → AttrValueList.contains (typeOf env) a l v = .ok false) ∧
    (HasRule env (schema.map (·.2)) a .time → (∀ x ∈ v :: l, Syntax.validateGT x = .ok ()) → AttrValueList.contains (typeOf env) a l v = .ok (!l.isEmpty)) ∧
    (∀ d ∈ schema.map (·.2), Identifies env.lower d.oid d.names a → (∃ n, n ≤ env.depth ∧ Effective env.lower (schema.map (·.2)) (·.equality) n d .nothing) → l ≠ [] →
      AttrValueList.contains (typeOf env) a l v = .error .ldapSchema) := by
  refine ⟨fun hr hp => ?_, fun hr hp => ?_, ?_⟩
  · rw [AttrS.contains_rule hl a _ hr l v (fun x hx => ⟨hv x hx, hp x hx⟩)]
    congr 1
    rw [List.any_eq_false]
    intro x hx
    obtain ⟨p, h1⟩ := hp x (by simp [hx])
    obtain ⟨q, h2⟩ := hp v (by simp)
    simp [matches_, EqRule.match_, EqRule.prepare, EqRule.doMatch, bind, Except.bind, AttrS.dnMatch_total x v p q h1 h2]
  · rw [AttrS.contains_rule hl a _ hr l v (fun x hx => ⟨hv x hx, hp x hx⟩)]
    congr 1
    have : ∀ x, matches_ env.U .time x v = true := by
      intro x
      simp [matches_, EqRule.match_, EqRule.prepare, EqRule.doMatch, bind, Except.bind, hp v (by simp)]
    cases l with
    | nil => rfl
    | cons x l => simp [this]
  · rintro d hd hi ⟨n, hn, he⟩ hne
    have eq := (c75_rules env schema hl d hd n hn).2 _ he
    obtain ⟨e, he', hie, hval⟩ := hv v (by simp)
    rw [AttrS.same_type hl a e d he' hd hie hi] at hval
    have hx : typeOf env a = .ok (.defined (validate env (saysAT d)) (fun _ => .error .ldapSchema) (fun _ _ => .error .ldapSchema)) := by
      simp only [typeOf, hl.find.1 d hd a hi, elemOf, eq, Answer.elim]
    cases l with
    | nil => exact absurd rfl hne
    | cons x l => simp [AttrValueList.contains, AttrValueList.index, hx, AttrType.index, hval]

/-- **C75 (changes).** `add_attrs` and `delete_attrs` with one value for an attribute that has values follow `in`: a value that is found is not added again, and only a value that is found is
deleted. -/
theorem c75_changes (lower : Str → Str) (tyOf : TypeOf Str) (cur : AttrsDict Str) (a v : Str) (b : Bool) (t : AttrType Str) (ht : tyOf a = .ok t) (hne : AttrsDict.getAttr lower cur a ≠ [])
    (hb : AttrValueList.contains tyOf a (AttrsDict.getAttr lower cur a) v = .ok b) :
    addModlist lower tyOf cur [(a, .list [v])] = .ok (if b then [] else [⟨.add, a, .list [v]⟩]) ∧
    deleteModlist lower tyOf cur [(a, .list [v])] = .ok (if b then [⟨.delete, a, .list [v]⟩] else []) := by
  have hhas := (AttrsDict.has_iff lower cur a).2 hne
  simp only [AttrValueList.contains, AttrValueList.index, ht] at hb
  simp only [addModlist, addOuter, hhas, ht, Vals.iter, deleteModlist, delOuter, Vals.truthy, addLoop, delLoop]
  cases hi : t.index (AttrsDict.getAttr lower cur a) v with
  | ok i =>
    rw [hi] at hb
    cases hb
    simp [appendTo, modlist, Mod.mk', PDict.get?, PDict.set]
  | error e =>
    rw [hi] at hb
    cases e <;> simp at hb
    subst hb
    simp [appendTo, modlist, Mod.mk', Vals.len, PDict.get?, PDict.set]

/-- C75: so for an attribute compared as distinguished name (`member`, `seeAlso`, ...), `delete_attrs` with a value sends nothing and `add_attrs` sends the value again, although it is there. -/
theorem c75_dn_changes (env : Env) (schema : List (Str × Rfc4512.AttributeType)) (hl : AttrS.Loaded env schema) (a : Str) (cur : AttrsDict Str) (v : Str)
    (hv : v ∈ AttrsDict.getAttr env.lower cur a) (hval : ∀ x ∈ AttrsDict.getAttr env.lower cur a, ValidFor env (schema.map (·.2)) a x ∧ ∃ p, parseDn x = .ok p)
    (hr : HasRule env (schema.map (·.2)) a .dn) :
    deleteModlist env.lower (typeOf env) cur [(a, .list [v])] = .ok [] ∧
    addModlist env.lower (typeOf env) cur [(a, .list [v])] = .ok [⟨.add, a, .list [v]⟩] := by
  have hall : ∀ x ∈ v :: AttrsDict.getAttr env.lower cur a, ValidFor env (schema.map (·.2)) a x ∧ ∃ p, parseDn x = .ok p := by
    intro x hx
    rcases List.mem_cons.1 hx with rfl | hx
    · exact hval x hv
    · exact hval x hx
  have hc := (c75_no_equality env schema hl a (AttrsDict.getAttr env.lower cur a) v (fun x hx => (hall x hx).1)).1 hr (fun x hx => (hall x hx).2)
  obtain ⟨d, _, _, ht⟩ := AttrS.typeOf_eq hl a _ hr
  have := c75_changes env.lower (typeOf env) cur a v false _ ht (by intro h; rw [h] at hv; cases hv) hc
  exact ⟨by simpa using this.2, by simpa using this.1⟩

/-- **C75 (a specification that cannot be registered).** Reading stops at the first text that is not a description, or that shares its OID or a name with an earlier one: the call raises,
nothing after it is registered, and what was registered before is still found. -/
theorem c75_stops (lower : Str → Str) (schema : List (Str × Rfc4512.AttributeType)) (h : Describes lower schema) (s : Str) (post : List Str)
    (hs : (∃ e, attributeType s = .error e) ∨ ∃ f, attributeType s = .ok f ∧
      (f.oid ∈ schema.map (·.2.oid) ∨ ∃ n ∈ f.names, ∃ p ∈ schema, ∃ m ∈ p.2.names, lower n = lower m)) :
    ∃ r e, load lower Reg.empty (schema.map (·.1) ++ s :: post) = (r, .error e) ∧ load lower Reg.empty (schema.map (·.1) ++ [s]) = (r, .error e) ∧
      (∀ e', attributeType s = .error e' → e = e') ∧ (∀ f, attributeType s = .ok f → e = .ldapSchema) ∧
      ∀ p ∈ schema, ∀ x, Identifies lower p.2.oid p.2.names x → r.find lower x = .ok (.elem (elemOf (saysAT p.2))) := by
  obtain ⟨r, h1, h2, h3⟩ := AttrS.loaded lower schema h
  have happ : ∀ (l1 l2 : List Str) (r0 r1 : Reg ATFields), load lower r0 l1 = (r1, .ok ()) → load lower r0 (l1 ++ l2) = load lower r1 l2 := by
    intro l1 l2
    induction l1 with
    | nil => intro r0 r1 h; cases h; rfl
    | cons a l1 ih =>
      intro r0 r1 h
      simp only [List.cons_append, load] at h ⊢
      cases ha : attributeType a with
      | error e => rw [ha] at h; cases h
      | ok f =>
        rw [ha] at h
        simp only at h ⊢
        rcases hq : r0.register lower (elemOf f) with ⟨q, _ | _⟩
        · rw [hq] at h; cases h
        · rw [hq] at h; exact ih _ _ h
  have hfind : ∀ p ∈ schema, ∀ x, Identifies lower p.2.oid p.2.names x → r.find lower x = .ok (.elem (elemOf (saysAT p.2))) := fun p hp x hx =>
    (find_holds lower r _ h2 h3 x).1 _ (List.mem_map.2 ⟨p, hp, rfl⟩) hx
  rw [happ _ _ _ _ h1, happ _ _ _ _ h1]
  rcases hs with ⟨e, he⟩ | ⟨f, hf, hdup⟩
  · refine ⟨r, e, by simp [load, he], by simp [load, he], fun e' h => ?_, fun f h => ?_, hfind⟩
    · rw [he] at h; cases h; rfl
    · rw [he] at h; cases h
  · have herr : (r.register lower (elemOf f)).2 = .error .ldapSchema := by
      simp only [Reg.register]
      split
      · rfl
      · rename_i hno
        rcases hdup with ho | ⟨n, hn, p, hp, m, hm, hnm⟩
        · obtain ⟨p, hp, hpo⟩ := List.mem_map.1 ho
          refine absurd ?_ hno
          rw [show (elemOf f).oid = f.oid from rfl, ← hpo, (h2.oids p.2.oid (elemOf (saysAT p.2))).2 ⟨List.mem_map.2 ⟨p, hp, rfl⟩, rfl⟩]
          rfl
        · refine (Registry.regNames_keep lower (elemOf f) f.names r.names h2.inv).2.2.2.2.1 ⟨n, hn, ?_⟩
          rw [hnm, (h2.names (lower m) (elemOf (saysAT p.2))).2 ⟨List.mem_map.2 ⟨p, hp, rfl⟩, m, hm, rfl⟩]
          exact nofun
    rcases hq : r.register lower (elemOf f) with ⟨q, res⟩
    rw [hq] at herr
    simp only at herr
    subst herr
    refine ⟨q, .ldapSchema, by simp [load, hf, hq], by simp [load, hf, hq], fun e' h => ?_, fun _ _ => rfl, fun p hp x hx => ?_⟩
    · rw [hf] at h; cases h
    · obtain ⟨k1, k2⟩ := Registry.register_keep lower r h2.inv (elemOf f)
      have k3 := Registry.register_inv lower r h2.inv (elemOf f)
      rw [hq] at k1 k2 k3
      rcases (Registry.find_eq lower r h2.inv x _).1 (hfind p hp x hx) with ⟨a, b⟩ | ⟨a, b⟩
      · exact (Registry.find_eq lower q k3 x _).2 (.inl ⟨a, k1 _ _ b⟩)
      · exact (Registry.find_eq lower q k3 x _).2 (.inr ⟨a, k2 _ _ b⟩)

/-- **C75 (names outside the schema).** Values of a name that no description has are compared as they are; an OID that no description has raises `KeyError`. -/
theorem c75_undefined (env : Env) (schema : List (Str × Rfc4512.AttributeType)) (hl : AttrS.Loaded env schema) (c : Char) (t : Str)
    (h : ∀ p ∈ schema, ¬ Identifies env.lower p.2.oid p.2.names (c :: t)) (l : List Str) (v : Str) :
    AttrValueList.contains (typeOf env) (c :: t) l v = if Rfc4512.isDigit c then .error .keyError else .ok (l.any (fun x => decide (x = v))) := by
  have hf : env.types.find env.lower (c :: t) = if Rfc4512.isDigit c then .error .keyError else .ok (.dflt (c :: t)) := hl.find.2 c t (fun d hd => by obtain ⟨p, hp, rfl⟩ := List.mem_map.1 hd; exact h p hp)
  have hi : ∀ (l : List Str) (i : Nat), AttrType.listIndex v i l = .error .valueError ∧ l.any (fun x => decide (x = v)) = false ∨
      (∃ j, AttrType.listIndex v i l = .ok j) ∧ l.any (fun x => decide (x = v)) = true := by
    intro l
    induction l with
    | nil => intro i; exact .inl ⟨rfl, rfl⟩
    | cons x l ih =>
      intro i
      by_cases hx : x = v
      · exact .inr ⟨⟨i, by simp [AttrType.listIndex, hx]⟩, by simp [hx]⟩
      · simpa [AttrType.listIndex, hx] using ih (i + 1)
  cases hd : Rfc4512.isDigit c with
  | true => simp [AttrValueList.contains, AttrValueList.index, typeOf, hf, hd]
  | false =>
    simp only [AttrValueList.contains, AttrValueList.index, typeOf, hf, hd, AttrType.index, Bool.false_eq_true, if_false]
    rcases hi l 0 with ⟨h1, h2⟩ | ⟨⟨j, h1⟩, h2⟩
    · simp [h1, h2]
    · simp [h1, h2]

/-- **C75 (matching rules).** A matching rule is found by its OID, and by its name in any casing; anything else raises `KeyError`. -/
theorem c75_rule_lookup (lower : Str → Str) (tbl : List MatchingRule) (ho : (tbl.map (·.oid)).Nodup) (hn : (tbl.map (fun r => lower r.name)).Nodup) (c : Char) (t : Str) :
    (∀ r ∈ tbl, (Rfc4512.isDigit c = true ∧ r.oid = c :: t ∨ Rfc4512.isDigit c = false ∧ lower r.name = lower (c :: t)) → getMatchingRule lower tbl (c :: t) = .ok r) ∧
    ((∀ r ∈ tbl, r.oid ≠ c :: t ∧ lower r.name ≠ lower (c :: t)) → getMatchingRule lower tbl (c :: t) = .error .keyError) := by
  have key : ∀ {B : Type} [DecidableEq B] (f : MatchingRule → B) (b : B) (tbl : List MatchingRule), (tbl.map f).Nodup → ∀ r ∈ tbl, f r = b → tbl.find? (fun r => f r = b) = some r := by
    intro B _ f b tbl
    induction tbl with
    | nil => intro _ r hr; cases hr
    | cons a tbl ih =>
      intro hnd r hr hb
      rw [List.map_cons, List.nodup_cons] at hnd
      rcases List.mem_cons.1 hr with rfl | hr
      · simp [List.find?, hb]
      · have : f a ≠ b := fun e => hnd.1 (List.mem_map.2 ⟨r, hr, by rw [hb, e]⟩)
        rw [List.find?_cons_of_neg (by simpa using this)]
        exact ih hnd.2 r hr hb
  constructor
  · rintro r hr (⟨hd, he⟩ | ⟨hd, he⟩)
    · simp only [getMatchingRule, isDigit_numeric, hd, key (·.oid) _ tbl ho r hr he]
    · simp only [getMatchingRule, isDigit_numeric, hd, key (fun r => lower r.name) _ tbl hn r hr he]
  · intro h
    have h1 : tbl.find? (fun r => r.oid = c :: t) = none := List.find?_eq_none.2 (fun r hr => by simpa using (h r hr).1)
    have h2 : tbl.find? (fun r => lower r.name = lower (c :: t)) = none := List.find?_eq_none.2 (fun r hr => by simpa using (h r hr).2)
    simp only [getMatchingRule, isDigit_numeric]
    cases Rfc4512.isDigit c <;> simp [h1, h2]

/-- the shipped table -/
example : (baseMatchingRules.map (·.oid)).Nodup ∧ (baseMatchingRules.map (fun r => (fun s : Str => s.map Char.toLower) r.name)).Nodup := by decide +kernel

end Laurelin.Props
