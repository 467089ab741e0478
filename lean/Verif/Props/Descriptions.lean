import Verif.Props.Syntax
import Verif.Lemmas.SchemaLang
import Verif.Spec.Descriptions
import Verif.Model.BaseRules
/-! C77: the syntax rules for schema descriptions -/
namespace Laurelin.DescrP
open Laurelin Spec Abnf Laurelin.Props
local notation "codeLex" => Laurelin.SchemaSpec.codeLex

theorem lex : Descriptions.accepted.lex = codeLex := rfl

theorem langNames : SchemaSpec.qdescrs.Lang = Descriptions.names Descriptions.accepted := funext fun s => propext (SchemaSpec.lang_qdescrs s)
theorem langOids : SchemaSpec.oids.Lang = Descriptions.identifiers Descriptions.accepted := funext fun s => propext (SchemaSpec.lang_oids s)
theorem langSized : SchemaSpec.noidlen.Lang = Descriptions.sized Descriptions.accepted := funext fun s => propext (SchemaSpec.lang_noidlen s)

theorem langKeyed (k : Str) (v : Rx) : (BaseRules.keyed k v).Lang = Descriptions.keyed Descriptions.accepted k v.Lang := by
  rw [BaseRules.keyed, Rx.lang_cat]
  simp only [List.map, Rx.lang_lit, SchemaSpec.lang_SP]; rfl

theorem langWord (k : Str) : (BaseRules.word k).Lang = Descriptions.word Descriptions.accepted k := by
  rw [BaseRules.word, Rx.lang_cat]
  simp only [List.map, Rx.lang_lit, SchemaSpec.lang_SP]; rfl

theorem langExt : SchemaSpec.extensions.Lang = Descriptions.extended Descriptions.accepted := by
  rw [SchemaSpec.extensions, Rx.lang_opt, Descriptions.extended]
  congr 1
  rw [Rx.lang_cat]
  simp only [List.map, Rx.lang_lit, SchemaSpec.lang_qdstrings, SchemaSpec.xstring, Rx.lang_cat, Rx.lang_plus]
  funext s
  simp only [cats, cat, eq_iff_iff]
  constructor
  · rintro ⟨a, _, rfl, ha, _, _, rfl, ⟨b, c, rfl, hb, hc⟩, d, e, rfl, hd, he⟩
    exact ⟨a, _, rfl, ha, b, _, by simp only [List.append_assoc], hb, c, _, rfl, hc, d, e, rfl, hd, he⟩
  · rintro ⟨a, _, rfl, ha, b, _, rfl, hb, c, _, rfl, hc, d, e, rfl, hd, he⟩
    exact ⟨a, _, rfl, ha, b ++ c, _, by simp only [List.append_assoc], ⟨b, c, rfl, hb, hc⟩, d, e, rfl, hd, he⟩

theorem langDescription (id : Rx) (parts : List Rx) :
    (BaseRules.descriptionRx id parts).Lang = Descriptions.description Descriptions.accepted id.Lang (parts.map Rx.Lang) := by
  rw [BaseRules.descriptionRx, Rx.lang_cat]
  simp only [List.map_append, List.map, Rx.lang_lit, SchemaSpec.lang_WSP, langExt]; rfl


theorem langKinds : (Rx.any [.lit (str "ABSTRACT"), .lit (str "STRUCTURAL"), .lit (str "AUXILIARY")]).Lang = oneOf Rfc4512.kinds := Rx.lang_any_lit Rfc4512.kinds
theorem langUsages : (Rx.any [.lit (str "userApplications"), .lit (str "directoryOperation"), .lit (str "distributedOperation"), .lit (str "dSAOperation")]).Lang = oneOf Rfc4512.usages :=
  Rx.lang_any_lit Rfc4512.usages

theorem langRuleids : BaseRules.ruleids.Lang = alt Rfc4512.looseNumber
    (cats [lit ['('], Rfc4512.WSP codeLex, Rfc4512.looseNumber, many (cat (Rfc4512.SP codeLex) Rfc4512.looseNumber), Rfc4512.WSP codeLex, lit [')']]) := by
  have h : BaseRules.ruleid.Lang = Rfc4512.looseNumber := SchemaSpec.lang_number
  funext s
  rw [BaseRules.ruleids, Rx.Lang, Rx.lang_cat, h]
  simp only [List.map, Rx.lang_lit, Rx.lang_cat, Rx.Lang, SchemaSpec.lang_SP, SchemaSpec.lang_WSP, Abnf.alt, h]
  rw [show cats [Rfc4512.looseNumber, many (cats [Rfc4512.SP codeLex, Rfc4512.looseNumber])] = cat Rfc4512.looseNumber (many (cat (Rfc4512.SP codeLex) Rfc4512.looseNumber)) from rfl,
    SchemaSpec.cats_assoc2]

theorem langObsolete : (Rx.cat [Syntax.sp, .lit (str "OBSOLETE"), Syntax.sp]).Lang =
    cat (Descriptions.word Descriptions.accepted (str "OBSOLETE")) Descriptions.accepted.afterObsolete := by
  have hs : Rfc4512.SP codeLex = many1 (lit [' ']) := by
    rw [Rfc4512.SP]
    congr 1
    funext s
    simp only [chr, lit, Laurelin.SchemaSpec.codeLex, beq_iff_eq, eq_iff_iff]
    exact ⟨fun ⟨c, h1, h2⟩ => by rw [h1, h2], fun h => ⟨' ', h, rfl⟩⟩
  rw [Rx.lang_cat]
  simp only [List.map, Rx.lang_lit, SchemaSpec.lang_SP, Descriptions.word, lex, Descriptions.accepted]
  rw [← hs]
  funext s
  simp only [cats, cat, eq_iff_iff]
  constructor
  · rintro ⟨a, _, rfl, ha, b, c, rfl, hb, hc⟩
    exact ⟨a ++ b, c, by simp only [List.append_assoc], ⟨a, b, rfl, ha, hb⟩, hc⟩
  · rintro ⟨_, c, rfl, ⟨a, b, rfl, ha, hb⟩, hc⟩
    exact ⟨a, b ++ c, by simp only [List.append_assoc], ha, b, c, rfl, hb, hc⟩

/-! ### Readings that accept more -/

theorem opt_mono {A B : Language} (h : ∀ s, A s → B s) (s : Str) : opt A s → opt B s := Or.imp id (h s)

/-- each language of one list within that of the other -/
inductive Parts : List Language → List Language → Prop
  | nil : Parts [] []
  | cons {A B : Language} {l m : List Language} : (∀ s, A s → B s) → Parts l m → Parts (A :: l) (B :: m)

theorem cats_mono : ∀ {l m : List Language}, Parts l m → ∀ s, cats l s → cats m s := by
  intro l m h
  induction h with
  | nil => exact fun s hs => hs
  | @cons A B l' m' hAB ht ih =>
    cases ht with
    | nil => exact hAB
    | cons _ _ => exact SyntaxP.cat_mono hAB ih

open Rfc4512 in
/-- more numbers -/
structure Wider (x y : Lex) : Prop where
  ws : x.ws = y.ws
  number : ∀ s, x.number s → y.number s

variable {x y : Rfc4512.Lex} (w : Wider x y)
include w

theorem sp_w (s : Str) : Rfc4512.SP x s → Rfc4512.SP y s := by rw [Rfc4512.SP, Rfc4512.SP, w.ws]; exact id
theorem wsp_w (s : Str) : Rfc4512.WSP x s → Rfc4512.WSP y s := by rw [Rfc4512.WSP, Rfc4512.WSP, w.ws]; exact id
theorem numericoid_w : ∀ s, Rfc4512.numericoid x s → Rfc4512.numericoid y s :=
  SyntaxP.cat_mono w.number (SyntaxP.many1_mono (SyntaxP.cat_mono (fun _ h => h) w.number))
theorem oid_w : ∀ s, Rfc4512.oid x s → Rfc4512.oid y s := SyntaxP.alt_mono (fun _ h => h) (numericoid_w w)
theorem exactly_w (n s : Str) : Rfc4512.exactly n (Rfc4512.oid x) s → Rfc4512.exactly n (Rfc4512.oid y) s := fun h => ⟨h.1, oid_w w _ h.2⟩

theorem moreNames_w (l : List Str) : ∀ s, Rfc4512.moreNames x l s → Rfc4512.moreNames y l s := by
  induction l with
  | nil => exact fun _ h => h
  | cons n l ih => exact SyntaxP.cat_mono (sp_w w) (SyntaxP.cat_mono (fun _ h => h) ih)

theorem qdescrs_w (l : List Str) (s : Str) : Rfc4512.qdescrs x l s → Rfc4512.qdescrs y l s := by
  cases l with
  | nil => exact id
  | cons n l =>
    simp only [Rfc4512.qdescrs, cats]
    exact SyntaxP.alt_mono (fun _ h => h) (SyntaxP.cat_mono (fun _ h => h) (SyntaxP.cat_mono (wsp_w w) (SyntaxP.cat_mono (fun _ h => h) (SyntaxP.cat_mono (moreNames_w w l)
      (SyntaxP.cat_mono (wsp_w w) (fun _ h => h)))))) s

theorem moreOids_w (l : List Str) : ∀ s, Rfc4512.moreOids x l s → Rfc4512.moreOids y l s := by
  induction l with
  | nil => exact fun _ h => h
  | cons n l ih => exact SyntaxP.cat_mono (wsp_w w) (SyntaxP.cat_mono (fun _ h => h) (SyntaxP.cat_mono (wsp_w w) (SyntaxP.cat_mono (exactly_w w n) ih)))

theorem oids_w (l : List Str) (s : Str) : Rfc4512.oids x l s → Rfc4512.oids y l s := by
  cases l with
  | nil => exact id
  | cons n l =>
    simp only [Rfc4512.oids, cats]
    exact SyntaxP.alt_mono (fun s h => ⟨h.1, exactly_w w n s h.2⟩) (SyntaxP.cat_mono (fun _ h => h) (SyntaxP.cat_mono (wsp_w w) (SyntaxP.cat_mono (exactly_w w n)
      (SyntaxP.cat_mono (moreOids_w w l) (SyntaxP.cat_mono (wsp_w w) (fun _ h => h)))))) s

theorem noidlen_w (p : Str × Option Nat) (s : Str) : Rfc4512.noidlen x p s → Rfc4512.noidlen y p s := by
  obtain ⟨o, n⟩ := p
  cases n with
  | none => exact fun h => ⟨h.1, numericoid_w w _ h.2⟩
  | some n =>
    simp only [Rfc4512.noidlen, cats]
    exact SyntaxP.cat_mono (fun s h => ⟨h.1, numericoid_w w _ h.2⟩) (SyntaxP.cat_mono (fun _ h => h) (SyntaxP.cat_mono (fun s h => ⟨w.number s h.1, h.2⟩) (fun _ h => h))) s

theorem qdstrings_w : ∀ s, Rfc4512.qdstrings x s → Rfc4512.qdstrings y s :=
  SyntaxP.alt_mono (fun _ h => h) (SyntaxP.cat_mono (fun _ h => h) (SyntaxP.cat_mono (wsp_w w) (SyntaxP.cat_mono (fun _ h => h)
    (SyntaxP.cat_mono (SyntaxP.many_mono (SyntaxP.cat_mono (sp_w w) (fun _ h => h))) (SyntaxP.cat_mono (wsp_w w) (fun _ h => h))))))

omit w

/-- each part of one reading within that of the other -/
structure Within (g h : Descriptions.Reading) : Prop where
  number : ∀ s, g.number s → h.number s
  ext : ∀ s, g.extensionSpace s → h.extensionSpace s
  obs : ∀ s, g.afterObsolete s → h.afterObsolete s
  rule : ∀ s, g.ruleSyntax s → h.ruleSyntax s

variable {g h : Descriptions.Reading} (k : Within g h)
include k

theorem wider : Wider g.lex h.lex := ⟨rfl, k.number⟩
theorem keyed_w (key : Str) {V W : Language} (v : ∀ s, V s → W s) : ∀ s, Descriptions.keyed g key V s → Descriptions.keyed h key W s :=
  SyntaxP.cat_mono (sp_w (wider k)) (SyntaxP.cat_mono (fun _ h => h) (SyntaxP.cat_mono (sp_w (wider k)) v))
theorem word_w (key : Str) : ∀ s, Descriptions.word g key s → Descriptions.word h key s := SyntaxP.cat_mono (sp_w (wider k)) (fun _ h => h)
theorem names_w (s : Str) : Descriptions.names g s → Descriptions.names h s := fun ⟨l, hl⟩ => ⟨l, qdescrs_w (wider k) l s hl⟩
theorem ids_w (s : Str) : Descriptions.identifiers g s → Descriptions.identifiers h s := fun ⟨l, hl⟩ => ⟨l, oids_w (wider k) l s hl⟩
theorem sized_w (s : Str) : Descriptions.sized g s → Descriptions.sized h s := fun ⟨l, hl⟩ => ⟨l, noidlen_w (wider k) l s hl⟩
theorem ext_w : ∀ s, Descriptions.extended g s → Descriptions.extended h s :=
  opt_mono (SyntaxP.cat_mono k.ext (SyntaxP.cat_mono (fun _ h => h) (SyntaxP.cat_mono (fun _ h => h) (SyntaxP.cat_mono k.ext (qdstrings_w (wider k))))))

theorem description_w {A B : Language} (hid : ∀ s, A s → B s) {l m : List Language} (hp : Parts l m) :
    ∀ s, Descriptions.description g A l s → Descriptions.description h B m s := by
  refine cats_mono ?_
  have h1 : ∀ {l m l' m' : List Language}, Parts l m → Parts l' m' →
      Parts (l ++ l') (m ++ m') := by
    intro l m l' m' h1 h2
    induction h1 with
    | nil => exact h2
    | cons a _ ih => exact .cons a ih
  exact h1 (h1 (.cons (fun _ h => h) (.cons (wsp_w (wider k)) (.cons hid .nil))) hp) (.cons (ext_w k) (.cons (wsp_w (wider k)) (.cons (fun _ h => h) .nil)))

omit k

end Laurelin.DescrP

namespace Laurelin.Props
open Laurelin Spec Abnf DescrP
local notation "accepted" => Laurelin.Spec.Descriptions.accepted

/-- **C77**, descriptions of RFC 4512 4.1.1 -/
theorem c77_object_class (s : Str) : Accepts (.anchored BaseRules.objectClassRx) s ↔ Rfc4517.orNewline (Descriptions.objectClasses accepted) s := by
  rw [SyntaxP.accepts_anchored, BaseRules.objectClassRx, langDescription]
  simp only [List.map, Rx.lang_opt, langKeyed, langWord, langObsolete, Rx.lang_cat, langKinds, langUsages, langNames, langOids, langSized, langRuleids, SchemaSpec.lang_oid,
    SchemaSpec.lang_qdstring, SchemaSpec.lang_numericoid, SchemaSpec.lang_SP]
  rfl

/-- **C77**, descriptions of RFC 4512 4.1.2 -/
theorem c77_attribute_type (s : Str) : Accepts (.anchored BaseRules.attributeTypeRx) s ↔ Rfc4517.orNewline (Descriptions.attributeTypes accepted) s := by
  rw [SyntaxP.accepts_anchored, BaseRules.attributeTypeRx, langDescription]
  simp only [List.map, Rx.lang_opt, langKeyed, langWord, langObsolete, Rx.lang_cat, langKinds, langUsages, langNames, langOids, langSized, langRuleids, SchemaSpec.lang_oid,
    SchemaSpec.lang_qdstring, SchemaSpec.lang_numericoid, SchemaSpec.lang_SP]
  rfl

/-- **C77**, descriptions of RFC 4512 4.1.3 -/
theorem c77_matching_rule (s : Str) : Accepts (.anchored BaseRules.matchingRuleRx) s ↔ Rfc4517.orNewline (Descriptions.matchingRules accepted) s := by
  rw [SyntaxP.accepts_anchored, BaseRules.matchingRuleRx, langDescription]
  simp only [List.map, Rx.lang_opt, langKeyed, langWord, langObsolete, Rx.lang_cat, langKinds, langUsages, langNames, langOids, langSized, langRuleids, SchemaSpec.lang_oid,
    SchemaSpec.lang_qdstring, SchemaSpec.lang_numericoid, SchemaSpec.lang_SP]
  rfl

/-- **C77**, descriptions of RFC 4512 4.1.4 -/
theorem c77_matching_rule_use (s : Str) : Accepts (.anchored BaseRules.matchingRuleUseRx) s ↔ Rfc4517.orNewline (Descriptions.matchingRuleUses accepted) s := by
  rw [SyntaxP.accepts_anchored, BaseRules.matchingRuleUseRx, langDescription]
  simp only [List.map, Rx.lang_opt, langKeyed, langWord, langObsolete, Rx.lang_cat, langKinds, langUsages, langNames, langOids, langSized, langRuleids, SchemaSpec.lang_oid,
    SchemaSpec.lang_qdstring, SchemaSpec.lang_numericoid, SchemaSpec.lang_SP]
  rfl

/-- **C77**, descriptions of RFC 4512 4.1.5 -/
theorem c77_ldap_syntax (s : Str) : Accepts (.anchored BaseRules.syntaxRx) s ↔ Rfc4517.orNewline (Descriptions.ldapSyntaxes accepted) s := by
  rw [SyntaxP.accepts_anchored, BaseRules.syntaxRx, langDescription]
  simp only [List.map, Rx.lang_opt, langKeyed, langWord, langObsolete, Rx.lang_cat, langKinds, langUsages, langNames, langOids, langSized, langRuleids, SchemaSpec.lang_oid,
    SchemaSpec.lang_qdstring, SchemaSpec.lang_numericoid, SchemaSpec.lang_SP]
  rfl

/-- **C77**, descriptions of RFC 4512 4.1.6 -/
theorem c77_content_rule (s : Str) : Accepts (.anchored BaseRules.ditContentRx) s ↔ Rfc4517.orNewline (Descriptions.contentRules accepted) s := by
  rw [SyntaxP.accepts_anchored, BaseRules.ditContentRx, langDescription]
  simp only [List.map, Rx.lang_opt, langKeyed, langObsolete]
  simp only [List.map, Rx.lang_opt, langKeyed, langWord, langObsolete, Rx.lang_cat, langKinds, langUsages, langNames, langOids, langSized, langRuleids, SchemaSpec.lang_oid,
    SchemaSpec.lang_qdstring, SchemaSpec.lang_numericoid, SchemaSpec.lang_SP]
  rfl

/-- **C77**, descriptions of RFC 4512 4.1.7.1 -/
theorem c77_structure_rule (s : Str) : Accepts (.anchored BaseRules.ditStructureRx) s ↔ Rfc4517.orNewline (Descriptions.structureRules accepted) s := by
  rw [SyntaxP.accepts_anchored, BaseRules.ditStructureRx, langDescription]
  simp only [List.map, Rx.lang_opt, langKeyed, langObsolete]
  simp only [List.map, Rx.lang_opt, langKeyed, langWord, langObsolete, Rx.lang_cat, langKinds, langUsages, langNames, langOids, langSized, langRuleids, SchemaSpec.lang_oid,
    SchemaSpec.lang_qdstring, SchemaSpec.lang_numericoid, SchemaSpec.lang_SP]
  rw [show BaseRules.ruleid.Lang = Rfc4512.looseNumber from SchemaSpec.lang_number]
  rfl

/-- **C77**, descriptions of RFC 4512 4.1.7.2 -/
theorem c77_name_form (s : Str) : Accepts (.anchored BaseRules.nameFormRx) s ↔ Rfc4517.orNewline (Descriptions.nameForms accepted) s := by
  rw [SyntaxP.accepts_anchored, BaseRules.nameFormRx, langDescription]
  simp only [List.map, Rx.lang_opt, langKeyed, langWord, langObsolete, Rx.lang_cat, langKinds, langUsages, langNames, langOids, langSized, langRuleids, SchemaSpec.lang_oid,
    SchemaSpec.lang_qdstring, SchemaSpec.lang_numericoid, SchemaSpec.lang_SP]
  rfl

namespace DescrP
variable {g h : Descriptions.Reading} (k : Laurelin.DescrP.Within g h)
include k
open Laurelin.DescrP

theorem nameDesc_w {l m : List Language} (hp : Parts l m) : Parts (Descriptions.nameDesc g ++ l) (Descriptions.nameDesc h ++ m) :=
  .cons (opt_mono (keyed_w k _ (names_w k))) (.cons (opt_mono (keyed_w k _ (fun _ h => h))) hp)
theorem obs_w : ∀ s, opt (Descriptions.word g (str "OBSOLETE")) s → opt (Descriptions.word h (str "OBSOLETE")) s := opt_mono (word_w k _)
theorem obs2_w : ∀ s, opt (cat (Descriptions.word g (str "OBSOLETE")) g.afterObsolete) s → opt (cat (Descriptions.word h (str "OBSOLETE")) h.afterObsolete) s :=
  opt_mono (SyntaxP.cat_mono (word_w k _) k.obs)
theorem optIds_w (key : Str) : ∀ s, opt (Descriptions.keyed g key (Descriptions.identifiers g)) s → opt (Descriptions.keyed h key (Descriptions.identifiers h)) s :=
  opt_mono (keyed_w k _ (ids_w k))
theorem optOid_w (key : Str) : ∀ s, opt (Descriptions.keyed g key (Rfc4512.oid g.lex)) s → opt (Descriptions.keyed h key (Rfc4512.oid h.lex)) s :=
  opt_mono (keyed_w k _ (oid_w (wider k)))

theorem objectClasses_w : ∀ s, Descriptions.objectClasses g s → Descriptions.objectClasses h s :=
  description_w k (numericoid_w (wider k)) (nameDesc_w k (.cons (obs_w k) (.cons (optIds_w k _) (.cons (opt_mono (SyntaxP.cat_mono (sp_w (wider k)) (fun _ h => h)))
    (.cons (optIds_w k _) (.cons (optIds_w k _) .nil))))))
theorem attributeTypes_w : ∀ s, Descriptions.attributeTypes g s → Descriptions.attributeTypes h s :=
  description_w k (numericoid_w (wider k)) (nameDesc_w k (.cons (obs_w k) (.cons (optOid_w k _) (.cons (optOid_w k _) (.cons (optOid_w k _) (.cons (optOid_w k _)
    (.cons (opt_mono (keyed_w k _ (sized_w k))) (.cons (opt_mono (word_w k _)) (.cons (opt_mono (word_w k _)) (.cons (opt_mono (word_w k _))
      (.cons (opt_mono (keyed_w k _ (fun _ h => h))) .nil)))))))))))
theorem matchingRules_w : ∀ s, Descriptions.matchingRules g s → Descriptions.matchingRules h s :=
  description_w k (numericoid_w (wider k)) (nameDesc_w k (.cons (obs_w k) (.cons (keyed_w k _ k.rule) .nil)))
theorem matchingRuleUses_w : ∀ s, Descriptions.matchingRuleUses g s → Descriptions.matchingRuleUses h s :=
  description_w k (numericoid_w (wider k)) (nameDesc_w k (.cons (obs_w k) (.cons (keyed_w k _ (ids_w k)) .nil)))
theorem ldapSyntaxes_w : ∀ s, Descriptions.ldapSyntaxes g s → Descriptions.ldapSyntaxes h s :=
  description_w k (numericoid_w (wider k)) (.cons (opt_mono (keyed_w k _ (fun _ h => h))) .nil)
theorem contentRules_w : ∀ s, Descriptions.contentRules g s → Descriptions.contentRules h s :=
  description_w k (numericoid_w (wider k)) (nameDesc_w k (.cons (obs2_w k) (.cons (optIds_w k _) (.cons (optIds_w k _) (.cons (optIds_w k _) .nil)))))
theorem structureRules_w : ∀ s, Descriptions.structureRules g s → Descriptions.structureRules h s :=
  description_w k k.number (nameDesc_w k (.cons (obs2_w k) (.cons (keyed_w k _ (oid_w (wider k))) (.cons (opt_mono (keyed_w k _ (SyntaxP.alt_mono k.number
    (SyntaxP.cat_mono (fun _ h => h) (SyntaxP.cat_mono (wsp_w (wider k)) (SyntaxP.cat_mono k.number (SyntaxP.cat_mono
      (SyntaxP.many_mono (SyntaxP.cat_mono (sp_w (wider k)) k.number)) (SyntaxP.cat_mono (wsp_w (wider k)) (fun _ h => h))))))))) .nil))))
theorem nameForms_w : ∀ s, Descriptions.nameForms g s → Descriptions.nameForms h s :=
  description_w k (numericoid_w (wider k)) (nameDesc_w k (.cons (obs_w k) (.cons (keyed_w k _ (oid_w (wider k))) (.cons (keyed_w k _ (ids_w k)) (.cons (optIds_w k _) .nil)))))
omit k

theorem strict_loose (s : Str) (h : Rfc4512.strictNumber s) : Rfc4512.looseNumber s := by
  rcases h with h | ⟨u, v, rfl, ⟨c, rfl, hc⟩, l, _, rfl, hl⟩
  · exact ⟨[s], by simp, by simp, by simpa using h⟩
  · refine ⟨[c] :: l, by simp, by simp, ?_⟩
    intro u hu
    rcases List.mem_cons.1 hu with rfl | hu
    · refine ⟨c, rfl, ?_⟩
      simp only [Rfc4512.isDigit, Bool.and_eq_true, decide_eq_true_eq] at hc ⊢
      exact ⟨Char.le_trans (by decide) hc.1, hc.2⟩
    · exact hl u hu

theorem oneOid (s : Str) (h : Rfc4512.numericoid ⟨fun c => c == ' ', Rfc4512.strictNumber⟩ s) : Descriptions.accepted.ruleSyntax s :=
  show ∃ l, Rfc4512.oids ⟨fun c => c == ' ', Rfc4512.looseNumber⟩ l s from ⟨[s], Or.inl ⟨rfl, rfl, Or.inr (numericoid_w (x := ⟨fun c => c == ' ', Rfc4512.strictNumber⟩) (y := ⟨fun c => c == ' ', Rfc4512.looseNumber⟩) ⟨rfl, strict_loose⟩ s h)⟩⟩

end DescrP

/-- **C77, schema descriptions, what holds of RFC 4512**: a description is accepted when its extension, if it has one, is set off by single spaces, and, for the DIT rules, when `OBSOLETE` has
an additional space after it. -/
theorem c77_descriptions_partial (s : Str) :
    (Descriptions.objectClasses Descriptions.rfcSingle s → Accepts (.anchored BaseRules.objectClassRx) s) ∧
    (Descriptions.attributeTypes Descriptions.rfcSingle s → Accepts (.anchored BaseRules.attributeTypeRx) s) ∧
    (Descriptions.matchingRules Descriptions.rfcSingle s → Accepts (.anchored BaseRules.matchingRuleRx) s) ∧
    (Descriptions.matchingRuleUses Descriptions.rfcSingle s → Accepts (.anchored BaseRules.matchingRuleUseRx) s) ∧
    (Descriptions.ldapSyntaxes Descriptions.rfcSingle s → Accepts (.anchored BaseRules.syntaxRx) s) ∧
    (Descriptions.nameForms Descriptions.rfcSingle s → Accepts (.anchored BaseRules.nameFormRx) s) ∧
    (Descriptions.contentRules { Descriptions.rfcSingle with afterObsolete := many1 (lit [' ']) } s → Accepts (.anchored BaseRules.ditContentRx) s) ∧
    (Descriptions.structureRules { Descriptions.rfcSingle with afterObsolete := many1 (lit [' ']) } s → Accepts (.anchored BaseRules.ditStructureRx) s) := by
  have k0 : Laurelin.DescrP.Within { Descriptions.rfcSingle with afterObsolete := many1 (lit [' ']) } accepted :=
    ⟨DescrP.strict_loose, fun _ h => h, fun _ h => h, DescrP.oneOid⟩
  have k1 : Laurelin.DescrP.Within Descriptions.rfcSingle { accepted with afterObsolete := lit [] } :=
    ⟨DescrP.strict_loose, fun _ h => h, fun _ h => h, DescrP.oneOid⟩
  refine ⟨fun h => (c77_object_class s).2 (Or.inl ?_), fun h => (c77_attribute_type s).2 (Or.inl ?_), fun h => (c77_matching_rule s).2 (Or.inl ?_),
    fun h => (c77_matching_rule_use s).2 (Or.inl ?_), fun h => (c77_ldap_syntax s).2 (Or.inl ?_), fun h => (c77_name_form s).2 (Or.inl ?_),
    fun h => (c77_content_rule s).2 (Or.inl ?_), fun h => (c77_structure_rule s).2 (Or.inl ?_)⟩
  · exact DescrP.objectClasses_w k1 s h
  · exact DescrP.attributeTypes_w k1 s h
  · exact DescrP.matchingRules_w k1 s h
  · exact DescrP.matchingRuleUses_w k1 s h
  · exact DescrP.ldapSyntaxes_w k1 s h
  · exact DescrP.nameForms_w k1 s h
  · exact DescrP.contentRules_w k0 s h
  · exact DescrP.structureRules_w k0 s h

/-- **C77, what fails of it**: a wider extension, the `MAY` of a DIT content rule, `OBSOLETE` followed by one space, numbers with leading zeroes, several syntaxes for a matching rule, a final
newline. -/
theorem c77_descriptions_counterexamples :
    Accepts (.anchored BaseRules.syntaxRx) (str "( 1.2 X-A 'b' )") ∧ ¬ Accepts (.anchored BaseRules.syntaxRx) (str "( 1.2  X-A 'b' )") ∧
    Accepts (.anchored BaseRules.ditContentRx) (str "( 1.2 MUST a )") ∧ ¬ Accepts (.anchored BaseRules.ditContentRx) (str "( 1.2 MAY a )") ∧
    ¬ Accepts (.anchored BaseRules.ditContentRx) (str "( 1.2 OBSOLETE AUX a )") ∧ Accepts (.anchored BaseRules.ditContentRx) (str "( 1.2 OBSOLETE  AUX a )") ∧
    ¬ Accepts (.anchored BaseRules.ditStructureRx) (str "( 1 OBSOLETE FORM a )") ∧ Accepts (.anchored BaseRules.ditStructureRx) (str "( 1 OBSOLETE  FORM a SUP ( 2 3 ) )") ∧
    Accepts (.anchored BaseRules.syntaxRx) (str "( 01.02 )\n") ∧ Accepts (.anchored BaseRules.matchingRuleRx) (str "( 1.2 SYNTAX ( a $ b ) )") ∧
    Accepts (.anchored BaseRules.nameFormRx) (str "(1.2 NAME 'x' OC person MUST ( cn $ sn ) MAY ou)") ∧
    Accepts (.anchored BaseRules.matchingRuleUseRx) (str "( 1.2 NAME ( 'x' 'y' ) DESC 'd' OBSOLETE APPLIES cn )") := by
  refine ⟨?_, ?_, ?_, ?_, ?_, ?_, ?_, ?_, ?_, ?_, ?_, ?_⟩ <;> unfold Accepts <;> decide +kernel

end Laurelin.Props
