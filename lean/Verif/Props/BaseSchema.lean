import Verif.Props.AttrSchema
import Verif.Lemmas.BaseSchemaTable
import Verif.Spec.BaseSchema
/-!
# C76 the schema that is shipped
-/
set_option linter.unusedSectionVars false
set_option maxRecDepth 100000
namespace Laurelin.Props
open Laurelin Schema SchemaSpec Spec Spec.AttrSchema Laurelin.AttrSchema BaseRules
local notation "codeLex" => Laurelin.SchemaSpec.codeLex

/-- `str.lower()` on ASCII texts -/
def AsciiLower (lower : Str → Str) : Prop := ∀ s : Str, (∀ c ∈ s, c.toNat < 128) → lower s = s.map Char.toLower

namespace BaseP

abbrev al (s : Str) : Str := s.map Char.toLower
def ascii (s : Str) : Bool := s.all (fun c => decide (c.toNat < 128))

/-- all attribute types that are shipped, as descriptions -/
def types : List Rfc4512.AttributeType := (Render.baseTypes ++ Render.netgroupTypes).map Render.AT.says

/-- the texts with what they say -/
def schema : List (Str × Rfc4512.AttributeType) := (BaseSchema.attributeTypes ++ BaseSchema.netgroupTypes).zip types

theorem texts : (BaseSchema.attributeTypes ++ BaseSchema.netgroupTypes).map collapse = (Render.baseTypes ++ Render.netgroupTypes).map Render.AT.text := by
  rw [List.map_append, List.map_append, Render.base_types_text, Render.netgroup_types_text]

theorem lens : (BaseSchema.attributeTypes ++ BaseSchema.netgroupTypes).length = types.length := by
  have := congrArg List.length texts
  simpa [types] using this

theorem schema_texts : schema.map (·.1) = BaseSchema.attributeTypes ++ BaseSchema.netgroupTypes := by
  have := List.map_fst_zip (l₁ := BaseSchema.attributeTypes ++ BaseSchema.netgroupTypes) (l₂ := types) (by rw [lens]; exact Nat.le_refl _)
  exact this
theorem schema_types : schema.map (·.2) = types := by
  have := List.map_snd_zip (l₁ := BaseSchema.attributeTypes ++ BaseSchema.netgroupTypes) (l₂ := types) (by rw [lens]; exact Nat.le_refl _)
  exact this

theorem zip_read : ∀ (l : List Str) (m : List Render.AT), l.map collapse = m.map Render.AT.text → (∀ a ∈ m, a.ok = true) →
    ∀ p ∈ l.zip (m.map Render.AT.says), Rfc4512.attributeType codeLex p.2 (collapse p.1)
  | [], _, _, _, p, hp => by simp at hp
  | s :: l, [], h, _, _, _ => by cases h
  | s :: l, a :: m, h, hok, p, hp => by
    simp only [List.map_cons, List.cons.injEq] at h
    simp only [List.map_cons, List.zip_cons_cons, List.mem_cons] at hp
    rcases hp with rfl | hp
    · simp only [h.1]; exact Render.AT.text_says a (hok a (by simp))
    · exact zip_read l m h.2 (fun b hb => hok b (by simp [hb])) p hp

theorem names_ne : ∀ d ∈ types, d.names ≠ [] := by decide +kernel
theorem oids_nodup : (types.map (·.oid)).Nodup := by decide +kernel
theorem names_nodup : ((types.map (·.names)).flatten.map al).Nodup := by decide +kernel
theorem names_ascii : ∀ n ∈ (types.map (·.names)).flatten, ascii n = true := by decide +kernel


theorem al_of {lower : Str → Str} (h : AsciiLower lower) {s : Str} (hs : ascii s = true) : lower s = al s :=
  h s (by simpa [ascii] using hs)

/-- the first type identified by a text, ASCII casing -/
def typeNamed (s : Str) : Option Rfc4512.AttributeType := types.find? (fun d => decide (s = d.oid) || d.names.any (fun n => decide (al s = al n)))

/-- what an attribute type has for a property, following at most `n` supertypes -/
def eff {X : Type} (own : Rfc4512.AttributeType → Option X) : Nat → Rfc4512.AttributeType → Option (Answer X)
  | 0, _ => none
  | n + 1, d =>
    match own d with
    | some x => some (.stated x)
    | none =>
      match d.sup with
      | none => some .nothing
      | some s =>
        if ascii s && okStart s then
          match typeNamed s with
          | none => none
          | some e => eff own n e
        else none
where
  okStart : Str → Bool
    | [] => false
    | c :: _ => !Rfc4512.isDigit c

theorem eff_spec {X : Type} {lower : Str → Str} (h : AsciiLower lower) (own : Rfc4512.AttributeType → Option X) (n : Nat) (d : Rfc4512.AttributeType) (x : Answer X)
    (he : eff own n d = some x) : ∃ m, m ≤ n ∧ Effective lower types own m d x := by
  induction n generalizing d with
  | zero => cases he
  | succ n ih =>
    rw [eff] at he
    cases ho : own d with
    | some y =>
      rw [ho] at he
      cases he
      exact ⟨1, by omega, .stated d y ho⟩
    | none =>
      rw [ho] at he
      cases hs : d.sup with
      | none =>
        rw [hs] at he
        cases he
        exact ⟨1, by omega, .nothing d ho hs⟩
      | some s =>
        rw [hs] at he
        simp only at he
        split at he
        · rename_i hc
          simp only [Bool.and_eq_true] at hc
          cases ht : typeNamed s with
          | none => rw [ht] at he; cases he
          | some e =>
            rw [ht] at he
            obtain ⟨m, hm, hx⟩ := ih e he
            have hmem := List.mem_of_find?_eq_some ht
            have hp := List.find?_some ht
            simp only [Bool.or_eq_true, decide_eq_true_eq, List.any_eq_true] at hp
            refine ⟨m + 1, by omega, .inherited d e s m x ho hs hmem ?_ hx⟩
            rcases hp with hp | ⟨k, hk, hkk⟩
            · exact .inl hp
            · refine .inr ⟨?_, k, hk, ?_⟩
              · cases s with
                | nil => cases hc.2
                | cons c t => exact ⟨c, t, rfl, by simpa [eff.okStart] using hc.2⟩
              · rw [al_of h hc.1, al_of h (names_ascii k (List.mem_flatten.2 ⟨_, List.mem_map.2 ⟨e, hmem, rfl⟩, hk⟩)), hkk]
        · cases he

theorem describes {lower : Str → Str} (h : AsciiLower lower) (sch : List (Str × Rfc4512.AttributeType)) (hp : sch.Perm schema) : Describes lower sch := by
  have hmem : ∀ p ∈ sch, p ∈ schema := fun p hp' => (hp.mem_iff).1 hp'
  refine ⟨?_, ?_, ?_⟩
  · intro p hp'
    have hm := hmem p hp'
    refine ⟨zip_read _ _ texts ?_ p hm, names_ne p.2 ?_⟩
    · intro a ha
      rcases List.mem_append.1 ha with ha | ha
      · exact Render.base_types_ok a ha
      · exact Render.netgroup_types_ok a ha
    · rw [← schema_types]; exact List.mem_map.2 ⟨p, hm, rfl⟩
  · have := (hp.map (fun p : Str × Rfc4512.AttributeType => p.2.oid)).nodup_iff.2 (by
      have e : schema.map (fun p => p.2.oid) = types.map (·.oid) := by rw [← schema_types, List.map_map]; rfl
      rw [e]; exact oids_nodup)
    exact this
  · have hf := (hp.map (fun p : Str × Rfc4512.AttributeType => p.2.names)).flatten.map lower
    refine hf.nodup_iff.2 ?_
    have e : schema.map (fun p => p.2.names) = types.map (·.names) := by rw [← schema_types, List.map_map]; rfl
    rw [e]
    have : (types.map (·.names)).flatten.map lower = (types.map (·.names)).flatten.map al :=
      List.map_congr_left (fun n hn => al_of h (names_ascii n hn))
    rw [this]; exact names_nodup

theorem perm_map {α β : Type} (f : α → β) {l m : List β} (h : l.Perm m) : ∀ s : List α, s.map f = m → ∃ s' : List α, s'.Perm s ∧ s'.map f = l := by
  induction h with
  | nil => intro s hs; exact ⟨s, .refl _, hs⟩
  | cons x _ ih =>
    intro s hs
    cases s with
    | nil => cases hs
    | cons a s =>
      simp only [List.map_cons, List.cons.injEq] at hs
      obtain ⟨s', h1, h2⟩ := ih s hs.2
      exact ⟨a :: s', .cons a h1, by simp [hs.1, h2]⟩
  | swap x y l =>
    intro s hs
    match s, hs with
    | a :: b :: s, hs =>
      simp only [List.map_cons, List.cons.injEq] at hs
      exact ⟨b :: a :: s, .swap a b s, by simp [hs]⟩
  | trans _ _ ih1 ih2 =>
    intro s hs
    obtain ⟨s', h1, h2⟩ := ih2 s hs
    obtain ⟨s'', h3, h4⟩ := ih1 s' h2
    exact ⟨s'', h3.trans h1, h4⟩

theorem eff_mem {X : Type} {lower : Str → Str} {t1 t2 : List Rfc4512.AttributeType} (h : ∀ d, d ∈ t1 ↔ d ∈ t2) {own : Rfc4512.AttributeType → Option X} {n : Nat}
    {d : Rfc4512.AttributeType} {x : Answer X} (he : Effective lower t1 own n d x) : Effective lower t2 own n d x := by
  induction he with
  | stated d x h => exact .stated d x h
  | nothing d h1 h2 => exact .nothing d h1 h2
  | undefinedType d s h1 h2 h3 h4 => exact .undefinedType d s h1 h2 h3 (fun e he => h4 e ((h e).2 he))
  | inherited d e s n x h1 h2 h3 h4 _ ih => exact .inherited d e s n x h1 h2 ((h e).1 h3) h4 ih

/-- the type has the rule of the table, by ASCII casing -/
def ruleOk (name : Str) (rule : Str) : Bool :=
  match typeNamed name with
  | none => false
  | some d =>
    match eff (·.equality) 3 d with
    | some (.stated o) => decide (d.names = [name]) && ascii o && (match getMatchingRule al baseMatchingRules o, getMatchingRule al baseMatchingRules rule with
      | .ok r, .ok q => decide (r = q) && decide (r.name = rule)
      | _, _ => false)
    | _ => false

theorem equality_ok : ∀ e ∈ BaseSchema.equality, ascii e.1 = true ∧ (∃ q ∈ baseMatchingRules, getMatchingRule al baseMatchingRules e.1 = .ok q ∧ q.name = e.1) ∧ ∀ n ∈ e.2, ruleOk n e.1 = true := by decide +kernel

def noRuleOk (name : Str) : Bool :=
  match typeNamed name with
  | none => false
  | some d => decide (d.names = [name]) && (match eff (·.equality) 3 d with | some .nothing => true | _ => false)

theorem noEquality_ok : ∀ n ∈ BaseSchema.noEquality, noRuleOk n = true := by decide +kernel

theorem all_listed : ∀ d ∈ types, ∃ n ∈ BaseSchema.noEquality ++ (BaseSchema.equality.map (·.2)).flatten, d.names = [n] := by decide +kernel

theorem syntax_ok : ∀ d ∈ types, (match eff (·.syntaxLen) 3 d with
    | some (.stated p) => (match getSyntaxRule (baseSyntaxes ++ netgroupSyntaxes) p.1 with | .ok _ => true | .error _ => false)
    | _ => false) = true := by decide +kernel

theorem rules_ascii : ∀ r ∈ baseMatchingRules, ascii r.name = true := by decide +kernel

theorem rule_al {lower : Str → Str} (h : AsciiLower lower) {o : Str} (ho : ascii o = true) : getMatchingRule lower baseMatchingRules o = getMatchingRule al baseMatchingRules o := by
  have : ∀ tbl : List MatchingRule, (∀ r ∈ tbl, ascii r.name = true) →
      tbl.find? (fun r => decide (lower r.name = lower o)) = tbl.find? (fun r => decide (al r.name = al o)) := by
    intro tbl
    induction tbl with
    | nil => intro _; rfl
    | cons r t ih =>
      intro hr
      have ih := ih (fun q hq => hr q (by simp [hq]))
      rw [al_of h ho] at ih
      rw [List.find?_cons, List.find?_cons, al_of h ho, al_of h (hr r (by simp)), ih]
  simp only [getMatchingRule, this _ rules_ascii]

theorem named_spec {lower : Str → Str} (h : AsciiLower lower) {n : Str} {d : Rfc4512.AttributeType} (hd : typeNamed n = some d) (hn : d.names = [n]) :
    d ∈ types ∧ ∀ x, (∃ c t, x = c :: t ∧ Rfc4512.isDigit c = false) → lower x = lower n → Identifies lower d.oid d.names x :=
  ⟨List.mem_of_find?_eq_some hd, fun x hx hl => .inr ⟨hx, n, by simp [hn], hl⟩⟩

end BaseP

/-- **C76 (loading).** The shipped attribute type texts can be read and registered in any order without an exception, each is a description with exactly one name, and then the OID and
every casing of that name give the described type. -/
theorem c76_load (lower : Str → Str) (h : AsciiLower lower) (l : List Str) (hl : l.Perm (BaseSchema.attributeTypes ++ BaseSchema.netgroupTypes)) :
    ∃ r, load lower Reg.empty l = (r, .ok ()) ∧
      ∀ s ∈ l, ∃ d n, Rfc4512.attributeType codeLex d (collapse s) ∧ d.names = [n] ∧
        ∀ x, Identifies lower d.oid [n] x → r.find lower x = .ok (.elem (elemOf (saysAT d))) := by
  obtain ⟨sch, hp, rfl⟩ := BaseP.perm_map (·.1) hl BaseP.schema BaseP.schema_texts
  have hD := BaseP.describes h sch hp
  obtain ⟨r, h1, h2, _⟩ := c75_lookup lower sch hD
  refine ⟨r, h1, ?_⟩
  intro s hs
  obtain ⟨p, hp', rfl⟩ := List.mem_map.1 hs
  have hmem : p.2 ∈ BaseP.types := by rw [← BaseP.schema_types]; exact List.mem_map.2 ⟨p, hp.mem_iff.1 hp', rfl⟩
  obtain ⟨n, _, hn⟩ := BaseP.all_listed p.2 hmem
  exact ⟨p.2, n, (hD.read p hp').1, hn, fun x hx => h2 p hp' x (by rw [hn]; exact hx)⟩

namespace BaseP

theorem loaded {lower : Str → Str} (h : AsciiLower lower) {l : List Str} (hl : l.Perm (BaseSchema.attributeTypes ++ BaseSchema.netgroupTypes)) {r : Reg ATFields}
    (hr : load lower Reg.empty l = (r, .ok ())) (U : Uni) (depth : Nat) :
    ∃ sch : List (Str × Rfc4512.AttributeType), AttrS.Loaded (shippedEnv lower U depth r) sch ∧ (∀ d, d ∈ sch.map (·.2) ↔ d ∈ types) := by
  obtain ⟨sch, hp, rfl⟩ := perm_map (·.1) hl schema schema_texts
  refine ⟨sch, ⟨describes h sch hp, hr⟩, ?_⟩
  intro d
  rw [← schema_types]
  exact (hp.map (·.2)).mem_iff

end BaseP

/-- the attribute dictionary's view of a loaded schema: `typeOf (shippedEnv …)`; `x` is some casing of the name `n` -/
def Casing (lower : Str → Str) (n x : Str) : Prop := (∃ c t, x = c :: t ∧ Rfc4512.isDigit c = false) ∧ lower x = lower n

/-- **C76 (rules).** After loading, in any order: every shipped attribute type has a registered syntax; every type in the table of equality rules has that rule, under any casing of its name; the types
in the other table have none, so that looking for a value raises `LDAPSchemaError`; and there are no other types. -/
theorem c76_rules (lower : Str → Str) (h : AsciiLower lower) (l : List Str) (hl : l.Perm (BaseSchema.attributeTypes ++ BaseSchema.netgroupTypes)) (r : Reg ATFields)
    (hr : load lower Reg.empty l = (r, .ok ())) (U : Uni) (depth : Nat) (hdepth : 3 ≤ depth) :
    let env := shippedEnv lower U depth r
    (∀ e ∈ BaseSchema.equality, ∃ mr, getMatchingRule lower baseMatchingRules e.1 = .ok mr ∧ mr.name = e.1 ∧
      ∀ n ∈ e.2, ∀ x, Casing lower n x → ∃ f, r.find lower x = .ok (.elem (elemOf f)) ∧ f.names = [n] ∧ equalityOf env f = .ok mr.eq ∧ ∃ q, syntaxOf env f = .ok q) ∧
    (∀ n ∈ BaseSchema.noEquality, ∀ x, Casing lower n x → ∃ f, r.find lower x = .ok (.elem (elemOf f)) ∧ f.names = [n] ∧ equalityOf env f = .error .ldapSchema ∧ ∃ q, syntaxOf env f = .ok q) ∧
    (∀ x f, r.find lower x = .ok (.elem f) → ∃ n ∈ BaseSchema.noEquality ++ (BaseSchema.equality.map (·.2)).flatten, f.names = [n]) := by
  intro env
  obtain ⟨sch, hL, hmem⟩ := BaseP.loaded h hl hr U depth
  have hsyn : ∀ d ∈ BaseP.types, ∃ q, syntaxOf env (saysAT d) = .ok q := by
    intro d hd
    have := BaseP.syntax_ok d hd
    split at this
    · rename_i p he
      obtain ⟨m, hm, hx⟩ := BaseP.eff_spec h _ 3 d _ he
      have h2 := ((c75_rules env sch hL d ((hmem d).2 hd) m (Nat.le_trans hm hdepth)).1 _ (BaseP.eff_mem (fun d => (hmem d).symm) hx)).1
      split at this
      · rename_i q hq
        exact ⟨q, by rw [h2]; exact hq⟩
      · cases this
    · cases this
  have hfind : ∀ d ∈ BaseP.types, ∀ n, d.names = [n] → ∀ x, Casing lower n x → r.find lower x = .ok (.elem (elemOf (saysAT d))) := by
    intro d hd n hn x hx
    exact hL.find.1 d ((hmem d).2 hd) x (.inr ⟨hx.1, n, by simp [hn], hx.2⟩)
  refine ⟨?_, ?_, ?_⟩
  · intro e he
    obtain ⟨ha, ⟨q, _, hq, hqn⟩, hall⟩ := BaseP.equality_ok e he
    refine ⟨q, by rw [BaseP.rule_al h ha]; exact hq, hqn, ?_⟩
    intro n hn x hx
    have := hall n hn
    unfold BaseP.ruleOk at this
    split at this
    · cases this
    · rename_i d hd
      split at this
      · rename_i o ho
        simp only [Bool.and_eq_true, decide_eq_true_eq] at this
        obtain ⟨⟨hnm, hao⟩, h2⟩ := this
        have hd' := (BaseP.named_spec h hd hnm).1
        refine ⟨saysAT d, hfind d hd' n hnm x hx, hnm, ?_, hsyn d hd'⟩
        rw [hq] at h2
        split at h2
        · rename_i r1 q1 hr1 hq1
          cases hq1
          simp only [Bool.and_eq_true, decide_eq_true_eq] at h2
          obtain ⟨m, hm, hx⟩ := BaseP.eff_spec h _ 3 d _ ho
          have := (c75_rules env sch hL d ((hmem d).2 hd') m (Nat.le_trans hm hdepth)).2 _ (BaseP.eff_mem (fun d => (hmem d).symm) hx)
          rw [this]
          show (getMatchingRule lower baseMatchingRules o).map (·.eq) = _
          rw [BaseP.rule_al h hao, hr1, h2.1]
          rfl
        · cases h2
      · cases this
  · intro n hn x hx
    have := BaseP.noEquality_ok n hn
    unfold BaseP.noRuleOk at this
    split at this
    · cases this
    · rename_i d hd
      simp only [Bool.and_eq_true, decide_eq_true_eq] at this
      obtain ⟨hnm, h2⟩ := this
      have hd' := (BaseP.named_spec h hd hnm).1
      refine ⟨saysAT d, hfind d hd' n hnm x hx, hnm, ?_, hsyn d hd'⟩
      split at h2
      · rename_i he
        obtain ⟨m, hm, hx⟩ := BaseP.eff_spec h _ 3 d _ he
        exact (c75_rules env sch hL d ((hmem d).2 hd') m (Nat.le_trans hm hdepth)).2 _ (BaseP.eff_mem (fun d => (hmem d).symm) hx)
      · cases h2
  · intro x f hf
    by_cases hex : ∃ d ∈ BaseP.types, Identifies lower d.oid d.names x
    · obtain ⟨d, hd, hi⟩ := hex
      have := hL.find.1 d ((hmem d).2 hd) x hi
      rw [show env.types.find env.lower x = _ from hf] at this
      cases this
      obtain ⟨n, h1, h2⟩ := BaseP.all_listed d hd
      exact ⟨n, h1, h2⟩
    · cases x with
      | nil => cases hf
      | cons c t =>
        have := hL.find.2 c t (fun d hd hi => hex ⟨d, (hmem d).1 hd, hi⟩)
        rw [show env.types.find env.lower (c :: t) = _ from hf] at this
        split at this <;> cases this

namespace BaseP

theorem hasRule {lower : Str → Str} (h : AsciiLower lower) {r : Reg ATFields} {U : Uni} {depth : Nat} (hdepth : 3 ≤ depth)
    {sch : List (Str × Rfc4512.AttributeType)} (hmem : ∀ d, d ∈ sch.map (·.2) ↔ d ∈ types) {e : Str × List Str} (he : e ∈ BaseSchema.equality) {n x : Str} (hn : n ∈ e.2)
    (hx : Casing lower n x) {mr : MatchingRule} (hm : getMatchingRule al baseMatchingRules e.1 = .ok mr) : HasRule (shippedEnv lower U depth r) (sch.map (·.2)) x mr.eq := by
  have := (equality_ok e he).2.2 n hn
  unfold ruleOk at this
  split at this
  · cases this
  · rename_i d hd
    split at this
    · rename_i o ho
      simp only [Bool.and_eq_true, decide_eq_true_eq] at this
      obtain ⟨⟨hnm, hao⟩, h2⟩ := this
      have hd' := named_spec h hd hnm
      rw [hm] at h2
      split at h2
      · rename_i r1 q1 hr1 hq1
        cases hq1
        simp only [Bool.and_eq_true, decide_eq_true_eq] at h2
        obtain ⟨m, hm', hef⟩ := eff_spec h _ 3 d _ ho
        refine ⟨d, (hmem d).2 hd'.1, hd'.2 x hx.1 hx.2, m, o, r1, Nat.le_trans hm' hdepth, eff_mem (fun d => (hmem d).symm) hef, ?_, by rw [h2.1]⟩
        show getMatchingRule lower baseMatchingRules o = _
        rw [rule_al h hao, hr1]
      · cases h2
    · cases this

theorem valid {lower : Str → Str} {r : Reg ATFields} {U : Uni} {depth : Nat} {sch : List (Str × Rfc4512.AttributeType)} (hL : AttrS.Loaded (shippedEnv lower U depth r) sch)
    (hmem : ∀ d, d ∈ sch.map (·.2) ↔ d ∈ types) {x : Str} {f : Elem ATFields} (hf : r.find lower x = .ok (.elem f)) {v : Str}
    (hv : validate (shippedEnv lower U depth r) f.body v = .ok ()) : ValidFor (shippedEnv lower U depth r) (sch.map (·.2)) x v := by
  by_cases hex : ∃ d ∈ types, Identifies lower d.oid d.names x
  · obtain ⟨d, hd, hi⟩ := hex
    have := hL.find.1 d ((hmem d).2 hd) x hi
    rw [show (shippedEnv lower U depth r).types.find (shippedEnv lower U depth r).lower x = _ from hf] at this
    cases this
    exact ⟨d, (hmem d).2 hd, hi, hv⟩
  · cases x with
    | nil => cases hf
    | cons c t =>
      have := hL.find.2 c t (fun d hd hi => hex ⟨d, (hmem d).1 hd, hi⟩)
      rw [show (shippedEnv lower U depth r).types.find (shippedEnv lower U depth r).lower (c :: t) = _ from hf] at this
      split at this <;> cases this

end BaseP

/-- **C76 (values).** With the shipped schema, for an attribute under any casing of its name and values valid for it: `in` compares printable ASCII values of the attributes in the `caseIgnore…` rows of the
table by words, regardless of casing and number of spaces; telephone numbers regardless of casing, spaces and hyphens; and values of attributes with the other rules without preparation as texts. -/
theorem c76_in (lower : Str → Str) (h : AsciiLower lower) (specs : List Str) (hs : specs.Perm (BaseSchema.attributeTypes ++ BaseSchema.netgroupTypes)) (r : Reg ATFields)
    (hr : load lower Reg.empty specs = (r, .ok ())) (U : Uni) (hU : UniLaws U) (depth : Nat) (hdepth : 3 ≤ depth) (e : Str × List Str) (he : e ∈ BaseSchema.equality)
    (n x : Str) (hn : n ∈ e.2) (hx : Casing lower n x) (f : Elem ATFields) (hf : r.find lower x = .ok (.elem f)) (l : List Str) (v : Str) :
    let env := shippedEnv lower U depth r
    (∀ w ∈ v :: l, validate env f.body w = .ok ()) →
    (e.1 ∈ [str "caseIgnoreMatch", str "caseIgnoreIA5Match", str "caseIgnoreListMatch"] → (∀ w ∈ v :: l, Printable w) →
      AttrValueList.contains (typeOf env) x l v = .ok (l.any (fun y => decide (words (y.map Char.toLower) = words (v.map Char.toLower))))) ∧
    (e.1 = str "telephoneNumberMatch" → (∀ w ∈ v :: l, Printable w) →
      AttrValueList.contains (typeOf env) x l v = .ok (l.any (fun y => decide ((y.map Char.toLower).filter (fun c => !(c == ' ' || c == '-')) =
        (v.map Char.toLower).filter (fun c => !(c == ' ' || c == '-')))))) ∧
    (e.1 ∈ [str "bitStringMatch", str "integerMatch", str "integerFirstComponentMatch", str "objectIdentifierMatch", str "objectIdentifierFirstComponentMatch", str "octetStringMatch",
        str "uniqueMemberMatch"] → AttrValueList.contains (typeOf env) x l v = .ok (l.any (fun y => decide (y = v)))) ∧
    (e.1 = str "distinguishedNameMatch" → (∀ w ∈ v :: l, ∃ p, parseDn w = .ok p) → AttrValueList.contains (typeOf env) x l v = .ok false) ∧
    (e.1 = str "generalizedTimeMatch" → (∀ w ∈ v :: l, Syntax.validateGT w = .ok ()) → AttrValueList.contains (typeOf env) x l v = .ok (!l.isEmpty)) := by
  intro env hval
  obtain ⟨sch, hL, hmem⟩ := BaseP.loaded h hs hr U depth
  have hv : ∀ w ∈ v :: l, ValidFor env (sch.map (·.2)) x w := fun w hw => BaseP.valid hL hmem hf (hval w hw)
  have key : ∀ mr, getMatchingRule BaseP.al baseMatchingRules e.1 = .ok mr → HasRule env (sch.map (·.2)) x mr.eq :=
    fun mr hm => BaseP.hasRule h hdepth hmem he hn hx hm
  have q1 := c75_in env sch hL x l v hv
  have q2 := c75_no_equality env sch hL x l v hv
  have rules : ∀ q ∈ baseMatchingRules, getMatchingRule BaseP.al baseMatchingRules q.name = .ok q := by decide +kernel
  have names : ∀ nm : Str, ∀ eq : EqRule, (∃ q ∈ baseMatchingRules, q.name = nm ∧ q.eq = eq) → e.1 = nm → HasRule env (sch.map (·.2)) x eq := by
    rintro nm eq ⟨q, hq, rfl, rfl⟩ hen
    exact key q (by rw [hen]; exact rules q hq)
  refine ⟨?_, ?_, ?_, ?_, ?_⟩
  · intro hm hp
    refine q1.1 ?_ hU hp
    simp only [List.mem_cons, List.not_mem_nil, or_false] at hm
    rcases hm with hm | hm | hm <;> exact names _ _ (by decide +kernel) hm
  · intro hm hp
    exact q1.2.1 (names _ _ (by decide +kernel) hm) hU hp
  · intro hm
    refine q1.2.2 ?_
    simp only [List.mem_cons, List.not_mem_nil, or_false] at hm
    rcases hm with hm | hm | hm | hm | hm | hm | hm <;> exact names _ _ (by decide +kernel) hm
  · intro hm hp
    exact q2.1 (names _ _ (by decide +kernel) hm) hp
  · intro hm hp
    exact q2.2.1 (names _ _ (by decide +kernel) hm) hp

/-! ### instances -/

example : AsciiLower BaseP.al := fun _ _ => rfl
example : Casing BaseP.al (str "cn") (str "CN") := ⟨⟨'C', ['N'], rfl, by decide⟩, by decide⟩
example : (str "caseIgnoreMatch") ∈ BaseSchema.equality.map (·.1) ∧ (BaseSchema.equality.map (·.2)).flatten.length + BaseSchema.noEquality.length = 107 := by decide +kernel

/-- loading the shipped texts from first to last, and then looking for `john smith` in the values of `CN` -/
example : ∃ r, load BaseP.al Reg.empty (BaseSchema.attributeTypes ++ BaseSchema.netgroupTypes) = (r, .ok ()) ∧
    AttrValueList.contains (typeOf (shippedEnv BaseP.al asciiUni 900 r)) (str "CN") [str "Jim", str "John  SMITH"] (str "john smith") = .ok true := by
  have hA : AsciiLower BaseP.al := fun _ _ => rfl
  have hc : Casing BaseP.al (str "cn") (str "CN") := ⟨⟨'C', ['N'], rfl, by decide⟩, by decide⟩
  obtain ⟨r, hr, _⟩ := c76_load BaseP.al hA _ (List.Perm.refl _)
  refine ⟨r, hr, ?_⟩
  obtain ⟨sch, hL, hmem⟩ := BaseP.loaded hA (List.Perm.refl _) hr asciiUni 900
  have hty : ∃ d ∈ BaseP.types, d.names = [str "cn"] ∧ BaseP.eff (·.syntaxLen) 3 d = some (.stated (ldapSyntax (str "15"), none)) := by decide +kernel
  obtain ⟨d, hd, hnm, heff⟩ := hty
  have hfind : r.find BaseP.al (str "CN") = .ok (.elem (elemOf (saysAT d))) := hL.find.1 d ((hmem d).2 hd) _ (.inr ⟨hc.1, str "cn", by simp [hnm], hc.2⟩)
  obtain ⟨m, hm, hx⟩ := BaseP.eff_spec hA _ 3 d _ heff
  have hval := c75_validate _ sch hL d ((hmem d).2 hd) m (Nat.le_trans hm (show 3 ≤ 900 by decide)) _ (BaseP.eff_mem (fun d => (hmem d).symm) hx) (.rule .directoryString) rfl
  have := (c76_in BaseP.al hA _ (List.Perm.refl _) r hr asciiUni asciiUni_laws 900 (by decide) (str "caseIgnoreMatch", _) (by simp [BaseSchema.equality]; rfl) (str "cn") (str "CN") (by decide +kernel) hc _ hfind
    [str "Jim", str "John  SMITH"] (str "john smith") (by
      intro w hw
      rw [show (elemOf (saysAT d)).body = saysAT d from rfl, hval]
      simp only [List.mem_cons, List.not_mem_nil, or_false] at hw
      rcases hw with rfl | rfl | rfl <;> rfl)).1 (by decide) (by unfold Printable; decide)
  rw [this]
  rfl

/-- the hypotheses of `c75_stops`: the shipped schema, and a text of it again -/
example : Describes BaseP.al BaseP.schema ∧ ∃ p ∈ BaseP.schema, ∃ f, attributeType p.1 = .ok f ∧ f.oid ∈ BaseP.schema.map (·.2.oid) := by
  have hd : Describes BaseP.al BaseP.schema := BaseP.describes (fun _ _ => rfl) _ (List.Perm.refl _)
  have hne : BaseP.schema ≠ [] := by decide +kernel
  obtain ⟨p, l, hp⟩ := List.exists_cons_of_ne_nil hne
  have hm : p ∈ BaseP.schema := by rw [hp]; exact List.mem_cons_self
  exact ⟨hd, p, hm, saysAT p.2, (c69_attribute_type_iff _ _).2 ⟨p.2, (hd.read p hm).1, (hd.read p hm).2, rfl⟩, List.mem_map.2 ⟨p, hm, rfl⟩⟩

/-- the hypotheses of `c75_undefined`: a name the shipped schema does not have -/
example : ∀ p ∈ BaseP.schema, ¬ Identifies BaseP.al p.2.oid p.2.names (str "x-mine") := by
  have : ∀ p ∈ BaseP.schema, ¬ (str "x-mine" = p.2.oid ∨ ∃ n ∈ p.2.names, BaseP.al (str "x-mine") = BaseP.al n) := by decide +kernel
  intro p hp h
  rcases h with h | ⟨_, h⟩
  · exact this p hp (.inl h)
  · exact this p hp (.inr h)

end Laurelin.Props
