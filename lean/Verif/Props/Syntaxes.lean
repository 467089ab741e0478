import Verif.Props.Descriptions
import Verif.Props.Guide
import Verif.Props.Netgroups
import Verif.Spec.Syntaxes
/-! C77: which values are accepted for each syntax of the shipped schema -/
namespace Laurelin.SynT
open Laurelin Spec Abnf Props BaseRules

theorem langType : Syntax.attributeType.Lang = Syntaxes.looseOid := by
  rw [Syntax.attributeType, Rx.Lang, SyntaxP.lang_descr, SyntaxP.lang_numericoid]; rfl

theorem langString : Syntax.string.Lang =
    cat (alt (chr (fun c => c != '\x00' && !(str " \"#+,;<>\\=").contains c)) Syntaxes.loosePair) (many (alt Rfc4517.stringchar Syntaxes.loosePair)) := by
  have hl : (fun c => !Syntax.special c) = fun c => c != '\x00' && !(str " \"#+,;<>\\=").contains c := by
    funext c
    simp [Syntax.special, Syntax.escaped]; grind
  have hs : (fun c => !Syntax.escaped c) = fun c => c != '\x00' && !(str "\"+,;<>\\").contains c := by
    funext c
    simp [Syntax.escaped]; grind
  have ht : ∀ c, (!(Syntax.escaped c || c == ' ')) = true → (c != '\x00' && !(str "\"+,;<>\\").contains c) = true := by
    intro c
    simp [Syntax.escaped]; grind
  rw [Syntax.string, Rx.lang_cat]
  simp only [List.map, cats, Rx.Lang, Rx.lang_opt, SyntaxP.lang_pair, Syntax.leadchar, Syntax.stringchar, Syntax.trailchar, hl, hs]
  funext s
  simp only [eq_iff_iff]
  constructor
  · rintro ⟨u, _, rfl, hu, v, w, rfl, ⟨l, rfl, hlv⟩, hw⟩
    refine ⟨u, _, rfl, hu, ?_⟩
    rcases hw with rfl | hw
    · exact ⟨l, by simp, hlv⟩
    · refine ⟨l ++ [w], by simp, ?_⟩
      intro x hx
      rcases List.mem_append.1 hx with hx | hx
      · exact hlv x hx
      · rw [List.mem_singleton.1 hx]
        rcases hw with ⟨c, rfl, hc⟩ | hw
        · exact Or.inl ⟨c, rfl, ht c hc⟩
        · exact Or.inr hw
  · rintro ⟨u, v, rfl, hu, hv⟩
    exact ⟨u, v, rfl, hu, v, [], by simp, hv, Or.inl rfl⟩

theorem langValue : Syntax.attributeValue.Lang = Syntaxes.looseValue := by
  rw [Syntax.attributeValue, Rx.Lang, langString, SyntaxP.lang_hexstring, Syntaxes.looseValue]
  funext s
  simp only [alt, eq_iff_iff]
  exact Or.comm

theorem langDn : Syntax.distinguishedName.Lang = Syntaxes.looseDn := by rw [SyntaxP.lang_dn, langType, langValue]; rfl

end Laurelin.SynT

namespace Laurelin.Props
open Laurelin Spec Abnf SynT BaseRules

/-- **C57, Distinguished Name**: exactly what is accepted. -/
theorem c77_dn (s : Str) : Accepts Syntax.ruleDN s ↔ Rfc4517.orNewline Syntaxes.looseDn s := by
  rw [Syntax.ruleDN, SyntaxP.accepts_anchored, langDn]

/-- **C57, Name And Optional UID**: exactly what is accepted. -/
theorem c77_name_uid (s : Str) : Accepts Syntax.ruleNameAndOptionalUID s ↔
    Syntaxes.beginning (cat Syntaxes.looseDn (opt (cat (lit ['#']) Rfc4517.bitString))) s := by
  have hb : Syntax.bitString.Lang = Rfc4517.bitString := by
    simp only [Syntax.bitString, Rx.lang_cat, List.map, Rx.lang_lit, Rfc4517.bitString, cats]
    rw [show (lit (str "'B") : Language) = cat (lit ['\'']) (lit ['B']) from by
      funext s; simp only [cat, lit, eq_iff_iff]
      constructor
      · intro h; exact ⟨_, _, h, rfl, rfl⟩
      · rintro ⟨_, _, rfl, rfl, rfl⟩; rfl]
    rfl
  rw [Syntax.ruleNameAndOptionalUID, SyntaxP.accepts_prefix, Rx.lang_cat]
  simp only [List.map, cats, Rx.lang_opt, Rx.lang_cat, Rx.lang_lit, langDn, hb]; rfl

/-- **C57, Delivery Method**: exactly what is accepted. -/
theorem c77_delivery (s : Str) : Accepts Syntax.ruleDeliveryMethod s ↔ Rfc4517.orNewline (Syntaxes.delivery (inClass pySpace)) s := by
  have hp : Syntax.pdm.Lang = Syntaxes.deliveryWord := Rx.lang_any_lit _
  rw [Syntax.ruleDeliveryMethod, SyntaxP.accepts_anchored, Syntax.deliveryMethod, Rx.lang_cat]
  simp only [List.map, cats, Rx.Lang, Rx.lang_cat, Rx.lang_lit, hp]; rfl

/-- **C57, Teletex Terminal Identifier**: exactly what is accepted. -/
theorem c77_teletex (s : Str) : Accepts Syntax.ruleTeletex s ↔ Rfc4517.orNewline Syntaxes.terminal s := by
  have hk : Syntax.ttxKey.Lang = Rfc4517.ttxKey := Rx.lang_any_lit _
  have hv : Syntax.ttxValue.Lang = many (alt (chr (fun c => decide (c.toNat ≤ 0x23))) (alt (lit (str "\\24")) (lit (str "\\5C")))) := by
    rw [Syntax.ttxValue, Rx.Lang]
    congr 1
    funext s
    rw [eq_iff_iff, Rx.lang_any]
    simp only [List.mem_cons, List.not_mem_nil, or_false, exists_eq_or_imp, exists_eq_left, Rx.lang_lit, Rx.Lang, alt]
  rw [Syntax.ruleTeletex, SyntaxP.accepts_anchored, Syntax.teletex, Rx.lang_cat]
  simp only [List.map, cats, Rx.Lang, Rx.lang_cat, Rx.lang_lit, hk, hv, SyntaxP.lang_printable]; rfl


namespace SynT

theorem phoneIff (v : Str) : Accepts .telephone v ↔ Syntaxes.phone v := by
  have : Accepts .telephone v ↔ validatePhone v = true := by
    simp only [Accepts, Syntax.Rule.validate]
    split <;> simp_all
  rw [this, c40_accepts]
  rfl

theorem faxIff (v : Str) : Accepts .fax v ↔ Rfc4517.fax (fun p => Syntaxes.phone p ∧ '$' ∉ p) v := by
  rw [c57_fax]
  have : (fun p => validatePhone p = true ∧ '$' ∉ p) = fun p => Syntaxes.phone p ∧ '$' ∉ p := by
    funext p
    rw [c40_accepts]
    rfl
  rw [this]

theorem get_pair {X : Type} (d : PDict Str X) (k : Str) (v : X) (h : PDict.get? d k = some v) : (k, v) ∈ d := by
  induction d with
  | nil => simp at h
  | cons p d ih =>
    obtain ⟨a, b⟩ := p
    simp only [PDict.get?] at h
    split at h
    · rename_i hc
      cases h
      simp [hc]
    · exact List.mem_cons_of_mem _ (ih h)

theorem get_mem {X : Type} (d : PDict Str X) (k : Str) (v : X) (h : PDict.get? d k = some v) : k ∈ d.map (·.1) := List.mem_map.2 ⟨_, get_pair d k v h, rfl⟩

/-- is it one of the guides -/
def isGuide : SyntaxRule → Bool
  | .guide | .enhancedGuide => true
  | _ => false

theorem guide_oid (o : Str) (h : getSyntaxRule (baseSyntaxes ++ netgroupSyntaxes) o = .ok .guide ∨ getSyntaxRule (baseSyntaxes ++ netgroupSyntaxes) o = .ok .enhancedGuide) :
    o = str "1.3.6.1.4.1.1466.115.121.1.21" ∨ o = str "1.3.6.1.4.1.1466.115.121.1.25" := by
  have hall : (baseSyntaxes ++ netgroupSyntaxes).all (fun p => !isGuide p.2 || decide (p.1 = str "1.3.6.1.4.1.1466.115.121.1.21" ∨ p.1 = str "1.3.6.1.4.1.1466.115.121.1.25")) = true := by
    decide +kernel
  have : ∃ q, isGuide q = true ∧ PDict.get? (baseSyntaxes ++ netgroupSyntaxes) o = some q := by
    unfold getSyntaxRule at h
    cases hg : PDict.get? (baseSyntaxes ++ netgroupSyntaxes) o with
    | none => rw [hg] at h; rcases h with h | h <;> cases h
    | some q => rw [hg] at h; rcases h with h | h <;> cases h <;> exact ⟨_, rfl, rfl⟩
  obtain ⟨q, h1, h2⟩ := this
  have := List.all_eq_true.1 hall _ (get_pair _ _ _ h2)
  simpa [h1] using this

theorem gt_error (v : Str) (e : Err) (h : Syntax.validateGT v = .error e) : e = .invalidSyntax := by
  unfold Syntax.validateGT at h
  repeat' split at h
  all_goals first | (cases h; rfl) | cases h

theorem binIff (v : Str) : SyntaxRule.bytesOnly.validate v = .ok () ↔ Syntaxes.binary v := by
  simp [SyntaxRule.validate, Syntaxes.binary]

end SynT

/-- **C77**: for every syntax of the table exactly these values are accepted. -/
theorem c77_syntaxes : ∀ p ∈ Syntaxes.languages (inClass pySpace), ∃ q, getSyntaxRule (baseSyntaxes ++ netgroupSyntaxes) (str "1.3.6.1.4.1.1466.115.121.1." ++ p.1) = .ok q ∧
    ∀ v, q.validate v = .ok () ↔ p.2 v := by
  unfold Syntaxes.languages
  refine List.forall_mem_cons.2 ⟨⟨_, rfl, fun v => c77_attribute_type v⟩, ?_⟩
  refine List.forall_mem_cons.2 ⟨⟨_, rfl, fun v => SynT.binIff v⟩, ?_⟩
  refine List.forall_mem_cons.2 ⟨⟨_, rfl, fun v => c57_bit_string v⟩, ?_⟩
  refine List.forall_mem_cons.2 ⟨⟨_, rfl, fun v => c57_boolean v⟩, ?_⟩
  refine List.forall_mem_cons.2 ⟨⟨_, rfl, fun v => SynT.binIff v⟩, ?_⟩
  refine List.forall_mem_cons.2 ⟨⟨_, rfl, fun v => c57_country_string v⟩, ?_⟩
  refine List.forall_mem_cons.2 ⟨⟨_, rfl, fun v => c77_dn v⟩, ?_⟩
  refine List.forall_mem_cons.2 ⟨⟨_, rfl, fun v => c77_delivery v⟩, ?_⟩
  refine List.forall_mem_cons.2 ⟨⟨_, rfl, fun v => c57_directory_string v⟩, ?_⟩
  refine List.forall_mem_cons.2 ⟨⟨_, rfl, fun v => c77_content_rule v⟩, ?_⟩
  refine List.forall_mem_cons.2 ⟨⟨_, rfl, fun v => c77_structure_rule v⟩, ?_⟩
  refine List.forall_mem_cons.2 ⟨⟨_, rfl, fun v => SynT.faxIff v⟩, ?_⟩
  refine List.forall_mem_cons.2 ⟨⟨_, rfl, fun v => ⟨fun _ => trivial, fun _ => rfl⟩⟩, ?_⟩
  refine List.forall_mem_cons.2 ⟨⟨_, rfl, fun v => c57_generalized_time v⟩, ?_⟩
  refine List.forall_mem_cons.2 ⟨⟨_, rfl, fun v => c57_ia5_string v⟩, ?_⟩
  refine List.forall_mem_cons.2 ⟨⟨_, rfl, fun v => c57_integer v⟩, ?_⟩
  refine List.forall_mem_cons.2 ⟨⟨_, rfl, fun v => SynT.binIff v⟩, ?_⟩
  refine List.forall_mem_cons.2 ⟨⟨_, rfl, fun v => c77_matching_rule v⟩, ?_⟩
  refine List.forall_mem_cons.2 ⟨⟨_, rfl, fun v => c77_matching_rule_use v⟩, ?_⟩
  refine List.forall_mem_cons.2 ⟨⟨_, rfl, fun v => c77_name_uid v⟩, ?_⟩
  refine List.forall_mem_cons.2 ⟨⟨_, rfl, fun v => c77_name_form v⟩, ?_⟩
  refine List.forall_mem_cons.2 ⟨⟨_, rfl, fun v => c57_numeric_string v⟩, ?_⟩
  refine List.forall_mem_cons.2 ⟨⟨_, rfl, fun v => c77_object_class v⟩, ?_⟩
  refine List.forall_mem_cons.2 ⟨⟨_, rfl, fun v => c57_oid v⟩, ?_⟩
  refine List.forall_mem_cons.2 ⟨⟨_, rfl, fun v => c57_other_mailbox v⟩, ?_⟩
  refine List.forall_mem_cons.2 ⟨⟨_, rfl, fun v => ⟨fun _ => trivial, fun _ => rfl⟩⟩, ?_⟩
  refine List.forall_mem_cons.2 ⟨⟨_, rfl, fun v => c57_postal_address v⟩, ?_⟩
  refine List.forall_mem_cons.2 ⟨⟨_, rfl, fun v => c57_printable_string v⟩, ?_⟩
  refine List.forall_mem_cons.2 ⟨⟨_, rfl, fun v => SynT.phoneIff v⟩, ?_⟩
  refine List.forall_mem_cons.2 ⟨⟨_, rfl, fun v => c77_teletex v⟩, ?_⟩
  refine List.forall_mem_cons.2 ⟨⟨_, rfl, fun v => c57_telex v⟩, ?_⟩
  refine List.forall_mem_cons.2 ⟨⟨_, rfl, fun v => c77_ldap_syntax v⟩, ?_⟩
  refine List.forall_mem_cons.2 ⟨⟨_, rfl, fun v => c57_substring_prefix v⟩, ?_⟩
  exact fun _ h => absurd h List.not_mem_nil

/-- **C77, netgroup triples** -/
theorem c77_triple : ∃ q, getSyntaxRule (baseSyntaxes ++ netgroupSyntaxes) (str "1.3.6.1.1.1.0.0") = .ok q ∧ ∀ v, q.validate v = .ok () ↔ ∃ h u d, Spec.Ng.TripleLine v h u d := by
  refine ⟨.triple, rfl, fun v => ?_⟩
  rw [← NgP.isTriple_iff]
  simp only [SyntaxRule.validate]
  split <;> simp_all

/-- **C77, guides** -/
theorem c77_guides : getSyntaxRule (baseSyntaxes ++ netgroupSyntaxes) (str "1.3.6.1.4.1.1466.115.121.1.21") = .ok .enhancedGuide ∧
    getSyntaxRule (baseSyntaxes ++ netgroupSyntaxes) (str "1.3.6.1.4.1.1466.115.121.1.25") = .ok .guide := ⟨rfl, rfl⟩

/-- **C77**: other syntaxes are not known. -/
theorem c77_unknown (o : Str) (h1 : ∀ p ∈ Syntaxes.languages (inClass pySpace), o ≠ str "1.3.6.1.4.1.1466.115.121.1." ++ p.1) (h2 : o ≠ str "1.3.6.1.1.1.0.0")
    (h3 : o ≠ str "1.3.6.1.4.1.1466.115.121.1.21") (h4 : o ≠ str "1.3.6.1.4.1.1466.115.121.1.25") : getSyntaxRule (baseSyntaxes ++ netgroupSyntaxes) o = .error .keyError := by
  have hk : ∀ k ∈ (baseSyntaxes ++ netgroupSyntaxes).map (·.1), k ∈ str "1.3.6.1.1.1.0.0" :: str "1.3.6.1.4.1.1466.115.121.1.21" :: str "1.3.6.1.4.1.1466.115.121.1.25" ::
      (Syntaxes.languages (inClass pySpace)).map (fun p => str "1.3.6.1.4.1.1466.115.121.1." ++ p.1) := by
    have e : (Syntaxes.languages (inClass pySpace)).map (fun p => str "1.3.6.1.4.1.1466.115.121.1." ++ p.1) =
      [str "3", str "5", str "6", str "7", str "8", str "11", str "12", str "14", str "15", str "16", str "17", str "22", str "23", str "24", str "26", str "27", str "28", str "30", str "31", str "34", str "35", str "36", str "37", str "38", str "39", str "40", str "41", str "44", str "50", str "51", str "52", str "54", str "58"].map (fun n => str "1.3.6.1.4.1.1466.115.121.1." ++ n) := rfl
    rw [e]
    decide +kernel
  have hno : o ∉ (baseSyntaxes ++ netgroupSyntaxes).map (·.1) := by
    intro hm
    have := hk o hm
    simp only [List.mem_cons] at this
    rcases this with h | h | h | h
    · exact h2 h
    · exact h3 h
    · exact h4 h
    · obtain ⟨p, hp, rfl⟩ := List.mem_map.1 h
      exact h1 p hp rfl
  have hg : PDict.get? (baseSyntaxes ++ netgroupSyntaxes) o = none := by
    cases hc : PDict.get? (baseSyntaxes ++ netgroupSyntaxes) o with
    | none => rfl
    | some q => exact absurd (SynT.get_mem _ _ _ hc) hno
  rw [getSyntaxRule, hg]

/-- **C77**: a value that is refused is refused with `InvalidSyntaxError`, except by the guides (`c77_guide_errors`). -/
theorem c77_refused (o : Str) (q : SyntaxRule) (h : getSyntaxRule (baseSyntaxes ++ netgroupSyntaxes) o = .ok q) (h3 : o ≠ str "1.3.6.1.4.1.1466.115.121.1.21")
    (h4 : o ≠ str "1.3.6.1.4.1.1466.115.121.1.25") (v : Str) (e : Err) (he : q.validate v = .error e) : e = .invalidSyntax := by
  cases q with
  | rule r =>
    cases r with
    | fax =>
      simp only [SyntaxRule.validate, Syntax.Rule.validate, Syntax.validateFax] at he
      split at he
      · rename_i hs; exact absurd hs (pySplit_ne_nil _ _)
      · split at he
        · cases he; rfl
        · split at he <;> cases he
          rfl
    | _ =>
      simp only [SyntaxRule.validate, Syntax.Rule.validate] at he
      first
        | (split at he <;> cases he; rfl)
        | cases he
  | time =>
    exact SynT.gt_error v e he
  | guide =>
    exact absurd (SynT.guide_oid o (Or.inl h)) (by simp [h3, h4])
  | enhancedGuide => exact absurd (SynT.guide_oid o (Or.inr h)) (by simp [h3, h4])
  | triple =>
    simp only [SyntaxRule.validate] at he
    split at he <;> cases he
    rfl
  | bytesOnly => cases he; rfl

end Laurelin.Props
